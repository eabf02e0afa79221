import Mathlib.Logic.Relation
import Verif.Basic
import Mathlib.Data.List.Basic
import Mathlib.Data.Set.Finite.List
import Mathlib.Data.Fintype.Pigeonhole
import Mathlib.Tactic.Choose
/-
Independent vocabulary for directed graphs given by successor lists.
-/
namespace Gyp.Spec

variable {α : Type}

/-- `b` can be reached from `a` along zero or more edges. -/
def Reach (edges : α → List α) : α → α → Prop :=
  Relation.ReflTransGen fun x y => y ∈ edges x

/-- `b` can be reached from `a` along one or more edges. -/
def Reach1 (edges : α → List α) : α → α → Prop :=
  Relation.TransGen fun x y => y ∈ edges x

/-- `n` lies on a cycle. -/
def OnCycle (edges : α → List α) (n : α) : Prop := Reach1 edges n n

/-- `x` occurs in `l` at a place before an occurrence of `y`. -/
def Before (l : List α) (x y : α) : Prop := ∃ p q r, l = p ++ x :: (q ++ y :: r)

/-- The finite set of nodes `U` is closed under edges. -/
def Closed (edges : α → List α) (U : List α) : Prop := ∀ x ∈ U, ∀ y ∈ edges x, y ∈ U

theorem Before.cons {l : List α} {x y : α} (h : Before l x y) (z : α) : Before (z :: l) x y := by
  obtain ⟨p, q, r, rfl⟩ := h
  exact ⟨z :: p, q, r, rfl⟩

theorem Before.head {l : List α} {y : α} (x : α) (h : y ∈ l) : Before (x :: l) x y := by
  obtain ⟨q, r, rfl⟩ := List.append_of_mem h
  exact ⟨[], q, r, rfl⟩

theorem Before.append_left {l : List α} {x y : α} (m : List α) (h : Before l x y) :
    Before (m ++ l) x y := by
  obtain ⟨p, q, r, rfl⟩ := h
  exact ⟨m ++ p, q, r, by simp⟩

theorem Before.append_right {l : List α} {x y : α} (h : Before l x y) (m : List α) :
    Before (l ++ m) x y := by
  obtain ⟨p, q, r, rfl⟩ := h
  exact ⟨p, q, r ++ m, by simp⟩

theorem Before.mem_right {l : List α} {x y : α} (h : Before l x y) : y ∈ l := by
  obtain ⟨p, q, r, rfl⟩ := h; simp

theorem Before.mem_left {l : List α} {x y : α} (h : Before l x y) : x ∈ l := by
  obtain ⟨p, q, r, rfl⟩ := h; simp

theorem Before.split {l m : List α} {x y : α} (hx : x ∈ l) (hy : y ∈ m) :
    Before (l ++ m) x y := by
  obtain ⟨p, q, rfl⟩ := List.append_of_mem hx
  obtain ⟨r, s, rfl⟩ := List.append_of_mem hy
  exact ⟨p, q ++ r, s, by simp⟩

theorem Before.ne {l : List α} {x y : α} (hn : l.Nodup) (h : Before l x y) : x ≠ y := by
  obtain ⟨p, q, r, rfl⟩ := h
  rw [List.nodup_append] at hn
  have := (List.nodup_cons.mp hn.2.1).1
  rintro rfl
  simp at this

theorem Before.idxOf [BEq α] [LawfulBEq α] {l : List α} {x y : α} (hn : l.Nodup) (h : Before l x y) :
    l.idxOf x < l.idxOf y := by
  have hne := h.ne hn
  obtain ⟨p, q, r, rfl⟩ := h
  rw [List.nodup_append] at hn
  have hx : x ∉ p := fun e => hn.2.2 x e x (by simp) rfl
  have hy : y ∉ p := fun e => hn.2.2 y e y (by simp) rfl
  rw [List.idxOf_append, List.idxOf_append, if_neg hx, if_neg hy]
  simp only [List.idxOf_cons_self, List.idxOf_cons_ne _ hne]
  omega

theorem Before.trans {l : List α} {x y z : α} (hn : l.Nodup) (h1 : Before l x y)
    (h2 : Before l y z) : Before l x z := by
  obtain ⟨p, q, r, rfl⟩ := h1
  obtain ⟨p', q', r', h⟩ := h2
  -- the two splittings around `y` coincide
  have key : p ++ x :: q = p' ∧ r = q' ++ z :: r' := by
    rw [show p ++ x :: (q ++ y :: r) = (p ++ x :: q) ++ y :: r by simp] at h hn
    generalize p ++ x :: q = a at h hn ⊢
    generalize q' ++ z :: r' = b at h ⊢
    clear q q' r' z p x
    induction a generalizing p' with
    | nil =>
      cases p' with
      | nil => exact ⟨rfl, (List.cons.inj h).2⟩
      | cons w ws =>
        obtain ⟨e1, e2⟩ := List.cons.inj h
        subst e1
        simp only [List.nil_append] at hn
        rw [e2] at hn
        simp at hn
    | cons w ws ih =>
      cases p' with
      | nil =>
        obtain ⟨e1, e2⟩ := List.cons.inj h
        subst e1
        simp at hn
      | cons v vs =>
        obtain ⟨e1, e2⟩ := List.cons.inj h
        have hn' : (ws ++ y :: r).Nodup := by
          rw [List.cons_append, List.nodup_cons] at hn; exact hn.2
        obtain ⟨e3, e4⟩ := ih vs hn' e2
        exact ⟨by rw [e1, e3], e4⟩
  obtain ⟨-, rfl⟩ := key
  exact ⟨p, q ++ y :: q', r', by simp⟩

theorem Reach.closed {edges : α → List α} {U : List α} (hU : Closed edges U) {a b : α}
    (h : Reach edges a b) (ha : a ∈ U) : b ∈ U := by
  induction h with
  | refl => exact ha
  | tail _ e ih => exact hU _ ih _ e

/-- In a duplicate-free list in which every edge goes forward there is no cycle. -/
theorem no_cycle_of_order {edges : α → List α} {l : List α} (hn : l.Nodup)
    (h : ∀ x ∈ l, ∀ y ∈ edges x, Before l x y) : ∀ n ∈ l, ¬ OnCycle edges n := by
  intro n hmem hc
  have : ∀ m, Reach1 edges n m → Before l n m := by
    intro m hm
    induction hm with
    | single e => exact h n hmem _ e
    | tail _ e ih => exact ih.trans hn (h _ ih.mem_right _ e)
  exact (this n hc).ne hn rfl

/-- The same with edges going backward. -/
theorem no_cycle_of_reverse_order {edges : α → List α} {l : List α} (hn : l.Nodup)
    (h : ∀ x ∈ l, ∀ y ∈ edges x, Before l y x) : ∀ n ∈ l, ¬ OnCycle edges n := by
  intro n hmem hc
  have : ∀ m, Reach1 edges n m → Before l m n := by
    intro m hm
    induction hm with
    | single e => exact h n hmem _ e
    | tail _ e ih => exact (h _ ih.mem_left _ e).trans hn ih
  exact (this n hc).ne hn rfl

/-- A non-empty finite set of nodes each of which has a successor in the set contains a
cycle. -/
theorem exists_cycle {edges : α → List α} {S : List α} (hne : S ≠ [])
    (h : ∀ x ∈ S, ∃ y ∈ edges x, y ∈ S) : ∃ x ∈ S, OnCycle edges x := by
  classical
  obtain ⟨x0, hx0⟩ := List.exists_mem_of_ne_nil S hne
  have : Finite {x // x ∈ S} := List.finite_toSet S
  choose! f hf1 hf2 using h
  let seq : ℕ → {x // x ∈ S} := fun n =>
    Nat.rec ⟨x0, hx0⟩ (fun _ y => ⟨f y.1, hf2 y.1 y.2⟩) n
  have hseq : ∀ n, (seq (n + 1)).1 = f (seq n).1 := fun n => rfl
  have hpath : ∀ i k, Reach1 edges (seq i).1 (seq (i + k + 1)).1 := by
    intro i k
    induction k with
    | zero =>
      refine .single ?_
      show (seq (i + 1)).1 ∈ edges (seq i).1
      rw [hseq]; exact hf1 _ (seq i).2
    | succ k ih =>
      refine ih.tail ?_
      show (seq (i + k + 1 + 1)).1 ∈ edges (seq (i + k + 1)).1
      rw [hseq (i + k + 1)]; exact hf1 _ (seq (i + k + 1)).2
  obtain ⟨i, j, hij, e⟩ := Finite.exists_ne_map_eq_of_infinite seq
  rcases Nat.lt_or_gt_of_ne hij with hlt | hlt
  · refine ⟨(seq i).1, (seq i).2, ?_⟩
    have := hpath i (j - i - 1)
    rw [show i + (j - i - 1) + 1 = j by omega, ← e] at this
    exact this
  · refine ⟨(seq j).1, (seq j).2, ?_⟩
    have := hpath j (i - j - 1)
    rw [show j + (i - j - 1) + 1 = i by omega, e] at this
    exact this

end Gyp.Spec
