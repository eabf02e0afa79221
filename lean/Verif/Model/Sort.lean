import Verif.Basic
/-
Python's `sorted`: modelled by insertion sort, which is stable like Python's
(any stable sort with the same comparison gives the same list).
-/
namespace Gyp

/-- Insert before the first strictly larger element, after equal ones. -/
def insertSorted {α : Type} (le : α → α → Bool) (x : α) : List α → List α
  | [] => [x]
  | y :: ys => if le x y then x :: y :: ys else y :: insertSorted le x ys

/-- Python `sorted(l)` with comparison `le`. -/
def pySorted {α : Type} (le : α → α → Bool) (l : List α) : List α :=
  l.foldr (insertSorted le) []

/-- Python `<=` on `str`: lexicographic by code point. -/
def strLe : Str → Str → Bool
  | [], _ => true
  | _ :: _, [] => false
  | a :: as, b :: bs => if a = b then strLe as bs else decide (a.toNat < b.toNat)

/-- Python `<=` on pairs of `str`. -/
def pairLe (a b : Str × Str) : Bool :=
  if a.1 = b.1 then strLe a.2 b.2 else strLe a.1 b.1

theorem insertSorted_perm {α : Type} (le : α → α → Bool) (x : α) (l : List α) :
    (insertSorted le x l).Perm (x :: l) := by
  induction l with
  | nil => exact List.Perm.refl _
  | cons y ys ih =>
    unfold insertSorted
    split
    · exact List.Perm.refl _
    · exact (List.Perm.cons y ih).trans (List.Perm.swap x y ys)

theorem pySorted_perm {α : Type} (le : α → α → Bool) (l : List α) :
    (pySorted le l).Perm l := by
  induction l with
  | nil => exact List.Perm.refl _
  | cons x xs ih =>
    exact (insertSorted_perm le x _).trans (List.Perm.cons x ih)

theorem insertSorted_pairwise {α : Type} (le : α → α → Bool)
    (total : ∀ a b, le a b = true ∨ le b a = true)
    (trans : ∀ a b c, le a b = true → le b c = true → le a c = true) (x : α) (l : List α)
    (h : l.Pairwise fun a b => le a b = true) :
    (insertSorted le x l).Pairwise fun a b => le a b = true := by
  induction l with
  | nil => simp [insertSorted]
  | cons y ys ih =>
    unfold insertSorted
    rw [List.pairwise_cons] at h
    split
    · rename_i hxy
      rw [List.pairwise_cons]
      refine ⟨?_, List.pairwise_cons.mpr h⟩
      intro z hz
      rcases List.mem_cons.mp hz with rfl | hz
      · exact hxy
      · exact trans x y z hxy (h.1 z hz)
    · rename_i hxy
      rw [List.pairwise_cons]
      refine ⟨?_, ih h.2⟩
      intro z hz
      have := (insertSorted_perm le x ys).mem_iff.mp hz
      rcases List.mem_cons.mp this with rfl | hz
      · rcases total z y with h' | h'
        · exact absurd h' hxy
        · exact h'
      · exact h.1 z hz

theorem pySorted_pairwise {α : Type} (le : α → α → Bool)
    (total : ∀ a b, le a b = true ∨ le b a = true)
    (trans : ∀ a b c, le a b = true → le b c = true → le a c = true) (l : List α) :
    (pySorted le l).Pairwise fun a b => le a b = true := by
  induction l with
  | nil => exact List.Pairwise.nil
  | cons x xs ih => exact insertSorted_pairwise le total trans x _ ih

theorem strLe_total (a b : Str) : strLe a b = true ∨ strLe b a = true := by
  induction a generalizing b with
  | nil => left; simp [strLe]
  | cons x xs ih =>
    cases b with
    | nil => right; simp [strLe]
    | cons y ys =>
      by_cases h : x = y
      · subst h; simpa [strLe] using ih ys
      · have h' : y ≠ x := fun e => h e.symm
        simp only [strLe, h, h', if_false, decide_eq_true_eq]
        have : x.toNat ≠ y.toNat := fun e => h (Char.toNat_inj.mp e)
        omega

theorem strLe_trans (a b c : Str) (h1 : strLe a b = true) (h2 : strLe b c = true) :
    strLe a c = true := by
  induction a generalizing b c with
  | nil => simp [strLe]
  | cons x xs ih =>
    cases b with
    | nil => simp [strLe] at h1
    | cons y ys =>
      cases c with
      | nil => simp [strLe] at h2
      | cons z zs =>
        simp only [strLe] at h1 h2 ⊢
        by_cases hxy : x = y
        · subst hxy
          simp only [if_true] at h1
          by_cases hxz : x = z
          · subst hxz
            simp only [if_true] at h2 ⊢
            exact ih ys zs h1 h2
          · simp only [hxz, if_false] at h2 ⊢
            exact h2
        · simp only [hxy, if_false, decide_eq_true_eq] at h1
          by_cases hyz : y = z
          · subst hyz
            simp only [hxy, if_false, decide_eq_true_eq]
            exact h1
          · simp only [hyz, if_false, decide_eq_true_eq] at h2
            have hxz : x ≠ z := by rintro rfl; omega
            simp only [hxz, if_false, decide_eq_true_eq]
            omega

theorem strLe_antisymm (a b : Str) (h1 : strLe a b = true) (h2 : strLe b a = true) : a = b := by
  induction a generalizing b with
  | nil => cases b with
    | nil => rfl
    | cons y ys => simp [strLe] at h2
  | cons x xs ih =>
    cases b with
    | nil => simp [strLe] at h1
    | cons y ys =>
      simp only [strLe] at h1 h2
      by_cases h : x = y
      · subst h
        simp only [if_true] at h1 h2
        rw [ih ys h1 h2]
      · have h' : y ≠ x := fun e => h e.symm
        simp only [h, h', if_false, decide_eq_true_eq] at h1 h2
        omega

end Gyp
