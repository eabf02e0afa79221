import Verif.Model.Toposort
import Verif.Spec.Graph
import Mathlib.Data.List.Chain
import Mathlib.Data.List.Nodup
/-
C07 (topological sort) and C09 (removing duplicates).
-/
namespace Gyp
open Spec

/-! ### C09 -/

/-- Keep an element when nothing equivalent came before. -/
def firsts {α β : Type} [DecidableEq β] (idfun : α → β) : List α → List α
  | [] => []
  | x :: xs => x :: (firsts idfun xs).filter (fun y => idfun y ≠ idfun x)

theorem filter_filter_comm {α : Type} (p q : α → Bool) (l : List α) :
    (l.filter p).filter q = (l.filter q).filter p := by
  rw [List.filter_filter, List.filter_filter]
  congr 1; funext x; exact Bool.and_comm _ _

theorem uniquerLoop_eq {α β : Type} [DecidableEq β] (idfun : α → β) (seq : List α)
    (seen : List β) (result : List α) :
    uniquerLoop idfun seq seen result =
      result ++ (firsts idfun seq).filter (fun y => idfun y ∉ seen) := by
  induction seq generalizing seen result with
  | nil => simp [uniquerLoop, firsts]
  | cons x xs ih =>
    simp only [uniquerLoop, firsts]
    by_cases h : idfun x ∈ seen
    · rw [if_pos h, ih, List.filter_cons_of_neg (by simpa using h), List.filter_filter]
      congr 1
      apply List.filter_congr
      intro y _
      by_cases hy : idfun y = idfun x
      · simp [hy, h]
      · simp [hy]
    · rw [if_neg h, ih, List.filter_cons_of_pos (by simpa using h), List.filter_filter]
      rw [List.append_assoc]
      congr 1
      simp only [List.cons_append, List.nil_append]
      congr 1
      apply List.filter_congr
      intro y _
      by_cases hy : idfun y = idfun x
      · simp [hy]
      · simp [hy]

theorem uniquer_eq {α β : Type} [DecidableEq β] (idfun : α → β) (seq : List α) :
    uniquer idfun seq = firsts idfun seq := by
  unfold uniquer
  rw [uniquerLoop_eq]
  simp

theorem Unify_eq {α : Type} [DecidableEq α] (l : List α) : Unify l = firsts id l := by
  have : ∀ (l seen out : List α),
      (l.foldl (fun (st : List α × List α) e =>
        if e ∈ st.1 then st else (e :: st.1, st.2 ++ [e])) (seen, out)).2 =
      uniquerLoop id l seen out := by
    intro l
    induction l with
    | nil => intro _ _; rfl
    | cons x xs ih =>
      intro seen out
      rw [List.foldl_cons, uniquerLoop]
      by_cases h : x ∈ seen
      · simp only [h, if_true, id]; exact ih _ _
      · simp only [h, if_false, id]; exact ih _ _
  unfold Unify
  rw [this, ← uniquer_eq]; rfl

theorem firsts_sublist {α β : Type} [DecidableEq β] (idfun : α → β) (l : List α) :
    (firsts idfun l).Sublist l := by
  induction l with
  | nil => exact List.Sublist.slnil
  | cons x xs ih => exact (List.filter_sublist.trans ih).cons_cons x

theorem mem_firsts {α β : Type} [DecidableEq β] (idfun : α → β) (l : List α) (x : α) (hx : x ∈ l) :
    ∃ y ∈ firsts idfun l, idfun y = idfun x := by
  induction l with
  | nil => simp at hx
  | cons z zs ih =>
    by_cases h : idfun z = idfun x
    · exact ⟨z, by simp [firsts], h⟩
    · rcases List.mem_cons.mp hx with rfl | hx
      · exact absurd rfl h
      · obtain ⟨y, hy, e⟩ := ih hx
        refine ⟨y, ?_, e⟩
        simp only [firsts, List.mem_cons, List.mem_filter]
        right
        refine ⟨hy, ?_⟩
        simpa [e] using fun e' => h e'.symm

theorem firsts_pairwise {α β : Type} [DecidableEq β] (idfun : α → β) (l : List α) :
    ((firsts idfun l).map idfun).Nodup := by
  induction l with
  | nil => simp [firsts]
  | cons x xs ih =>
    simp only [firsts, List.map_cons, List.nodup_cons]
    constructor
    · simp
    · exact ih.sublist (List.filter_sublist.map _)

theorem firsts_idxOf {α β : Type} [DecidableEq β] (idfun : α → β) (l : List α) :
    (firsts idfun l).Pairwise
      (fun x y => (l.map idfun).idxOf (idfun x) < (l.map idfun).idxOf (idfun y)) := by
  induction l with
  | nil => simp [firsts]
  | cons x xs ih =>
    simp only [firsts, List.map_cons]
    rw [List.pairwise_cons]
    constructor
    · intro y hy
      have hne : idfun x ≠ idfun y := by
        have := (List.mem_filter.mp hy).2
        simpa using fun e => by simp [e] at this
      rw [List.idxOf_cons_self, List.idxOf_cons_ne _ hne]
      exact Nat.succ_pos _
    · have h2 := List.Pairwise.sublist (List.filter_sublist (l := firsts idfun xs)
        (p := fun y => idfun y ≠ idfun x)) ih
      refine List.Pairwise.imp_of_mem ?_ h2
      intro a b ha hb hab
      have ha' : idfun x ≠ idfun a := by
        have := (List.mem_filter.mp ha).2
        simpa using fun e => by simp [e] at this
      have hb' : idfun x ≠ idfun b := by
        have := (List.mem_filter.mp hb).2
        simpa using fun e => by simp [e] at this
      rw [List.idxOf_cons_ne _ ha', List.idxOf_cons_ne _ hb']
      exact Nat.succ_lt_succ hab

/-- C09 for `uniquer`: the result is a subsequence of the input, no two results have
the same marker, every marker of the input is represented, and results are ordered by
the position at which their marker first occurs. -/
theorem C09_uniquer {α β : Type} [DecidableEq β] (idfun : α → β) (seq : List α) :
    (uniquer idfun seq).Sublist seq ∧
    ((uniquer idfun seq).map idfun).Nodup ∧
    (∀ x ∈ seq, ∃ y ∈ uniquer idfun seq, idfun y = idfun x) ∧
    (uniquer idfun seq).Pairwise
      (fun x y => (seq.map idfun).idxOf (idfun x) < (seq.map idfun).idxOf (idfun y)) := by
  rw [uniquer_eq]
  exact ⟨firsts_sublist _ _, firsts_pairwise _ _, fun x hx => mem_firsts _ _ x hx,
    firsts_idxOf _ _⟩

/-- C09 for dependency lists: each distinct element once, in order of first occurrence. -/
theorem C09_unify {α : Type} [DecidableEq α] (l : List α) :
    (Unify l).Nodup ∧ (∀ x, x ∈ Unify l ↔ x ∈ l) ∧
    (Unify l).Pairwise (fun x y => l.idxOf x < l.idxOf y) := by
  rw [Unify_eq]
  refine ⟨by simpa using firsts_pairwise id l, fun x => ⟨fun h => (firsts_sublist id l).subset h,
    fun h => ?_⟩, by simpa using firsts_idxOf id l⟩
  obtain ⟨y, hy, e⟩ := mem_firsts id l x h
  rw [← (show y = x from e)]; exact hy

/-- Both implementations agree. -/
theorem C09_agree {α : Type} [DecidableEq α] (l : List α) : Unify l = uniquer id l := by
  rw [Unify_eq, uniquer_eq]

example : Unify [c!"b", c!"a", c!"b", c!"c", c!"a"] = [c!"b", c!"a", c!"c"] := by decide

/-! ### C07 -/

theorem nodup_length_le {α : Type} {l U : List α} (hn : l.Nodup) (h : ∀ x ∈ l, x ∈ U) :
    l.length ≤ U.length := by
  induction l generalizing U with
  | nil => simp
  | cons x xs ih =>
    obtain ⟨p, q, rfl⟩ := List.append_of_mem (h x (by simp))
    have := @ih (p ++ q) (List.nodup_cons.mp hn).2 (by
      intro y hy
      have hne : y ≠ x := fun e => (List.nodup_cons.mp hn).1 (e ▸ hy)
      have := h y (by simp [hy])
      simp only [List.mem_append, List.mem_cons] at this ⊢
      rcases this with e | e | e
      · exact Or.inl e
      · exact absurd e hne
      · exact Or.inr e)
    simp at this ⊢
    omega

section Topo
variable {α : Type} [DecidableEq α] (edges : α → List α)

/-- Invariant of the depth-first search. -/
structure TopoInv (s : TopoSt α) : Prop where
  visited : ∀ x, x ∈ s.visited ↔ x ∈ s.visiting ∨ x ∈ s.ordered
  vnodup : s.visiting.Nodup
  onodup : s.ordered.Nodup
  disjoint : ∀ x ∈ s.visiting, x ∉ s.ordered
  order : ∀ x ∈ s.ordered, ∀ y ∈ edges x, Before s.ordered x y
  path : s.visiting.IsChain (fun a b => a ∈ edges b)

/-- What visiting the nodes `ns` from state `s` achieves. -/
def TopoPost (depth : Nat) (s : TopoSt α) (ns : List α) :
    Except (TopoErr α) (TopoSt α) → Prop
  | .ok s' => TopoInv edges s' ∧ s'.visiting = s.visiting ∧ (∀ n ∈ ns, n ∈ s'.ordered) ∧
      ∃ new, s'.ordered = new ++ s.ordered ∧ ∀ x ∈ new, ∃ n ∈ ns, Reach edges n x
  | .error (.cycle nodes) => ∃ v ∈ nodes, OnCycle edges v ∧ ∃ n ∈ ns, Reach edges n v
  | .error .depth => ∀ U, Closed edges U → (∀ n ∈ ns, n ∈ U) → (∀ x ∈ s.visiting, x ∈ U) →
      depth + s.visiting.length ≤ U.length

/-- Along the stack, the top can be reached from everything below. -/
theorem path_reach {top : α} {stack : List α}
    (h : (top :: stack).IsChain (fun a b => a ∈ edges b)) :
    ∀ x ∈ top :: stack, Reach edges x top := by
  induction stack generalizing top with
  | nil =>
    intro x hx
    rw [List.mem_singleton] at hx
    subst hx; exact .refl
  | cons y ys ih =>
    rw [List.isChain_cons_cons] at h
    intro x hx
    rcases List.mem_cons.mp hx with rfl | hx
    · exact .refl
    · exact (ih h.2 x hx).tail h.1

theorem topoVisit_post (depth : Nat) (s : TopoSt α) (n : α) (hinv : TopoInv edges s)
    (hp : ∀ top ∈ s.visiting.head?, n ∈ edges top) :
    TopoPost edges depth s [n] (topoVisit edges depth s n) := by
  induction depth generalizing s n with
  | zero =>
    simp only [topoVisit, TopoPost]
    intro U _ _ hv
    rw [Nat.zero_add]
    exact nodup_length_le hinv.vnodup hv
  | succ depth ih =>
    unfold topoVisit
    by_cases h1 : n ∈ s.visiting
    · rw [if_pos h1]
      refine ⟨n, h1, ?_, n, by simp, .refl⟩
      cases hv : s.visiting with
      | nil => rw [hv] at h1; simp at h1
      | cons top stack =>
        have hpath := hinv.path
        rw [hv] at hpath h1 hp
        exact Relation.TransGen.tail' (path_reach edges hpath n h1) (hp top rfl)
    rw [if_neg h1]
    by_cases h2 : n ∈ s.visited
    · rw [if_pos h2]
      have hno : n ∈ s.ordered := ((hinv.visited n).mp h2).resolve_left h1
      exact ⟨hinv, rfl, by simpa using hno, [], rfl, by simp⟩
    rw [if_neg h2]
    have hno : n ∉ s.ordered := fun e => h2 ((hinv.visited n).mpr (Or.inr e))
    -- the loop over the neighbours
    have loop : ∀ (ms : List α) (t : TopoSt α), TopoInv edges t →
        (∀ m ∈ ms, ∀ top ∈ t.visiting.head?, m ∈ edges top) →
        TopoPost edges depth t ms (ms.foldlM (topoVisit edges depth) t) := by
      intro ms
      induction ms with
      | nil => intro t ht _; exact ⟨ht, rfl, by simp, [], rfl, by simp⟩
      | cons m ms ihm =>
        intro t ht hm
        rw [List.foldlM_cons]
        have h1 := ih t m ht (hm m (by simp))
        cases hr : topoVisit edges depth t m with
        | error e =>
          rw [hr] at h1
          cases e with
          | cycle nodes =>
            obtain ⟨v, hv, hc, k, hk, hrch⟩ := h1
            exact ⟨v, hv, hc, k, by simp at hk; simp [hk], hrch⟩
          | depth =>
            intro U hU hns hvis
            exact h1 U hU (fun x hx => hns x (by simp at hx; simp [hx])) hvis
        | ok t1 =>
          rw [hr] at h1
          obtain ⟨i1, v1, o1, new1, e1, r1⟩ := h1
          have h2 := ihm t1 i1 (by rw [v1]; exact fun x hx => hm x (by simp [hx]))
          show TopoPost edges depth t (m :: ms) (ms.foldlM (topoVisit edges depth) t1)
          cases hr2 : ms.foldlM (topoVisit edges depth) t1 with
          | error e =>
            rw [hr2] at h2
            cases e with
            | cycle nodes =>
              obtain ⟨v, hv, hc, k, hk, hrch⟩ := h2
              exact ⟨v, hv, hc, k, by simp [hk], hrch⟩
            | depth =>
              intro U hU hns hvis
              rw [← v1]
              exact h2 U hU (fun x hx => hns x (by simp [hx])) (by rw [v1]; exact hvis)
          | ok t2 =>
            rw [hr2] at h2
            obtain ⟨i2, v2, o2, new2, e2, r2⟩ := h2
            refine ⟨i2, v2.trans v1, ?_, new2 ++ new1, by rw [e2, e1, List.append_assoc], ?_⟩
            · intro x hx
              rcases List.mem_cons.mp hx with rfl | hx
              · rw [e2]; exact List.mem_append_right _ (o1 x (by simp))
              · exact o2 x hx
            · intro x hx
              rcases List.mem_append.mp hx with hx | hx
              · obtain ⟨k, hk, hr⟩ := r2 x hx
                exact ⟨k, by simp [hk], hr⟩
              · obtain ⟨k, hk, hr⟩ := r1 x hx
                exact ⟨k, by simp at hk; simp [hk], hr⟩
    have hinv1 : TopoInv edges ⟨n :: s.visited, n :: s.visiting, s.ordered⟩ := by
      refine ⟨?_, List.nodup_cons.mpr ⟨h1, hinv.vnodup⟩, hinv.onodup, ?_, hinv.order, ?_⟩
      · intro x
        simp only [List.mem_cons, hinv.visited x, or_assoc]
      · intro x hx
        rcases List.mem_cons.mp hx with rfl | hx
        · exact hno
        · exact hinv.disjoint x hx
      · show List.IsChain _ (n :: s.visiting)
        cases hv : s.visiting with
        | nil => exact List.isChain_singleton n
        | cons top stack =>
          have := hinv.path
          rw [hv] at this hp
          rw [List.isChain_cons_cons]
          exact ⟨hp top rfl, this⟩
    have h3 := loop (edges n) _ hinv1 (fun m hm top htop => by
      simp at htop; subst htop; exact hm)
    dsimp only
    cases hr : (edges n).foldlM (topoVisit edges depth)
        ⟨n :: s.visited, n :: s.visiting, s.ordered⟩ with
    | error e =>
      rw [hr] at h3
      show TopoPost edges (depth + 1) s [n] (.error e)
      cases e with
      | cycle nodes =>
        obtain ⟨v, hv, hc, k, hk, hrch⟩ := h3
        exact ⟨v, hv, hc, n, by simp, .head hk hrch⟩
      | depth =>
        intro U hU hns hvis
        have hnU := hns n (by simp)
        have := h3 U hU (fun x hx => hU n hnU x hx) (by
          intro x hx
          rcases List.mem_cons.mp hx with rfl | hx
          · exact hnU
          · exact hvis x hx)
        simp at this
        omega
    | ok t =>
      rw [hr] at h3
      obtain ⟨i1, v1, o1, new1, e1, r1⟩ := h3
      show TopoPost edges (depth + 1) s [n]
        (.ok ⟨t.visited, t.visiting.erase n, n :: t.ordered⟩)
      have hv : t.visiting.erase n = s.visiting := by rw [v1]; simp
      have hnt : n ∉ t.ordered := i1.disjoint n (by rw [v1]; simp)
      refine ⟨⟨?_, ?_, ?_, ?_, ?_, ?_⟩, hv, by simp, n :: new1, by simp [e1], ?_⟩
      · intro x
        show x ∈ t.visited ↔ x ∈ t.visiting.erase n ∨ x ∈ n :: t.ordered
        rw [i1.visited x, hv, v1]
        simp only [List.mem_cons]
        constructor
        · rintro ((e | e) | e)
          · exact Or.inr (Or.inl e)
          · exact Or.inl e
          · exact Or.inr (Or.inr e)
        · rintro (e | e | e)
          · exact Or.inl (Or.inr e)
          · exact Or.inl (Or.inl e)
          · exact Or.inr e
      · show (t.visiting.erase n).Nodup
        rw [hv]; exact hinv.vnodup
      · exact List.nodup_cons.mpr ⟨hnt, i1.onodup⟩
      · intro x hx
        have hx' : x ∈ t.visiting.erase n := hx
        rw [hv] at hx'
        show x ∉ n :: t.ordered
        rw [List.mem_cons, not_or]
        exact ⟨fun e => h1 (e ▸ hx'), i1.disjoint x (by rw [v1]; simp [hx'])⟩
      · intro x hx y hy
        show Before (n :: t.ordered) x y
        rcases List.mem_cons.mp hx with rfl | hx
        · exact Before.head x (o1 y hy)
        · exact (i1.order x hx y hy).cons n
      · show List.IsChain _ (t.visiting.erase n)
        rw [hv]; exact hinv.path
      · intro x hx
        rcases List.mem_cons.mp hx with rfl | hx
        · exact ⟨x, by simp, .refl⟩
        · obtain ⟨k, hk, hrch⟩ := r1 x hx
          exact ⟨n, by simp, .head hk hrch⟩

/-- The outer loop, started with an empty stack. -/
theorem topoLoop_post (depth : Nat) (ns : List α) (s : TopoSt α) (hinv : TopoInv edges s)
    (hv : s.visiting = []) :
    TopoPost edges depth s ns (ns.foldlM (topoVisit edges depth) s) := by
  induction ns generalizing s with
  | nil => exact ⟨hinv, rfl, by simp, [], rfl, by simp⟩
  | cons m ms ihm =>
    rw [List.foldlM_cons]
    have h1 := topoVisit_post edges depth s m hinv (by rw [hv]; simp)
    cases hr : topoVisit edges depth s m with
    | error e =>
      rw [hr] at h1
      cases e with
      | cycle nodes =>
        obtain ⟨v, hv, hc, k, hk, hrch⟩ := h1
        exact ⟨v, hv, hc, k, by simp at hk; simp [hk], hrch⟩
      | depth =>
        intro U hU hns hvis
        exact h1 U hU (fun x hx => hns x (by simp at hx; simp [hx])) hvis
    | ok t1 =>
      rw [hr] at h1
      obtain ⟨i1, v1, o1, new1, e1, r1⟩ := h1
      have h2 := ihm t1 i1 (v1.trans hv)
      show TopoPost edges depth s (m :: ms) (ms.foldlM (topoVisit edges depth) t1)
      cases hr2 : ms.foldlM (topoVisit edges depth) t1 with
      | error e =>
        rw [hr2] at h2
        cases e with
        | cycle nodes =>
          obtain ⟨v, hv, hc, k, hk, hrch⟩ := h2
          exact ⟨v, hv, hc, k, by simp [hk], hrch⟩
        | depth =>
          intro U hU hns hvis
          rw [← v1]
          exact h2 U hU (fun x hx => hns x (by simp [hx])) (by rw [v1]; exact hvis)
      | ok t2 =>
        rw [hr2] at h2
        obtain ⟨i2, v2, o2, new2, e2, r2⟩ := h2
        refine ⟨i2, v2.trans v1, ?_, new2 ++ new1, by rw [e2, e1, List.append_assoc], ?_⟩
        · intro x hx
          rcases List.mem_cons.mp hx with rfl | hx
          · rw [e2]; exact List.mem_append_right _ (o1 x (by simp))
          · exact o2 x hx
        · intro x hx
          rcases List.mem_append.mp hx with hx | hx
          · obtain ⟨k, hk, hr⟩ := r2 x hx
            exact ⟨k, by simp [hk], hr⟩
          · obtain ⟨k, hk, hr⟩ := r1 x hx
            exact ⟨k, by simp at hk; simp [hk], hr⟩

end Topo

/-- What a correct topological order of the nodes reachable from `graph` is. -/
def IsTopologicalOrder (edges : Str → List Str) (graph l : List Str) : Prop :=
  l.Nodup ∧ (∀ n, n ∈ l ↔ ∃ g ∈ graph, Reach edges g n) ∧
  ∀ x ∈ l, ∀ y ∈ edges x, Before l x y

/-- C07: on every finite graph the sort returns the reachable nodes, each once and
before everything it points at, or it raises a `CycleError` whose node set contains a
node on a reachable cycle. -/
theorem C07_sorted_or_cycle (graph : List Str) (edges : Str → List Str) (U : List Str)
    (hU : Closed edges U) (hg : ∀ g ∈ graph, g ∈ U) (depth : Nat) (hd : U.length < depth) :
    (∃ l, TopologicallySorted depth graph edges = .ok l ∧ IsTopologicalOrder edges graph l) ∨
    (∃ nodes, TopologicallySorted depth graph edges = .error (.cycle nodes) ∧
      ∃ v ∈ nodes, OnCycle edges v ∧ ∃ g ∈ graph, Reach edges g v) := by
  have hinv : TopoInv edges (⟨[], [], []⟩ : TopoSt Str) :=
    ⟨by simp, List.nodup_nil, List.nodup_nil, by simp, by simp, List.isChain_nil⟩
  have h := topoLoop_post edges depth (pySorted strLe graph) _ hinv rfl
  have hmem : ∀ n, n ∈ pySorted strLe graph ↔ n ∈ graph := fun n =>
    (pySorted_perm strLe graph).mem_iff
  unfold TopologicallySorted
  cases hr : (pySorted strLe graph).foldlM (topoVisit edges depth) ⟨[], [], []⟩ with
  | error e =>
    rw [hr] at h
    cases e with
    | cycle nodes =>
      right
      obtain ⟨v, hv, hc, k, hk, hrch⟩ := h
      exact ⟨nodes, rfl, v, hv, hc, k, (hmem k).mp hk, hrch⟩
    | depth =>
      have := h U hU (fun n hn => hg n ((hmem n).mp hn)) (by simp)
      simp at this
      omega
  | ok s =>
    rw [hr] at h
    obtain ⟨i, v, o, new, e, r⟩ := h
    left
    refine ⟨s.ordered, rfl, i.onodup, ?_, i.order⟩
    intro n
    constructor
    · intro hn
      rw [e] at hn
      simp only [List.append_nil] at hn
      obtain ⟨k, hk, hrch⟩ := r n hn
      exact ⟨k, (hmem k).mp hk, hrch⟩
    · rintro ⟨g, hg, hrch⟩
      have h0 := o g ((hmem g).mpr hg)
      induction hrch with
      | refl => exact h0
      | tail _ e ih => exact (i.order _ ih _ e).mem_right

/-- C07: a cycle error is raised exactly when a cycle is reachable from the given
nodes. -/
theorem C07_cycle_iff (graph : List Str) (edges : Str → List Str) (U : List Str)
    (hU : Closed edges U) (hg : ∀ g ∈ graph, g ∈ U) (depth : Nat) (hd : U.length < depth) :
    (∃ nodes, TopologicallySorted depth graph edges = .error (.cycle nodes)) ↔
    ∃ g ∈ graph, ∃ v, Reach edges g v ∧ OnCycle edges v := by
  rcases C07_sorted_or_cycle graph edges U hU hg depth hd with
    ⟨l, e, hn, hmem, hord⟩ | ⟨nodes, e, v, -, hc, g, hgm, hr⟩
  · constructor
    · rintro ⟨nodes, e'⟩
      rw [e] at e'; cases e'
    · rintro ⟨g, hgm, v, hr, hc⟩
      exact absurd hc (no_cycle_of_order hn hord v ((hmem v).mpr ⟨g, hgm, hr⟩))
  · exact ⟨fun _ => ⟨g, hgm, v, hr, hc⟩, fun _ => ⟨nodes, e⟩⟩

/-- C07: without a reachable cycle the sort succeeds with a topological order. -/
theorem C07_acyclic (graph : List Str) (edges : Str → List Str) (U : List Str)
    (hU : Closed edges U) (hg : ∀ g ∈ graph, g ∈ U)
    (hac : ∀ g ∈ graph, ∀ v, Reach edges g v → ¬ OnCycle edges v)
    (depth : Nat) (hd : U.length < depth) :
    ∃ l, TopologicallySorted depth graph edges = .ok l ∧ IsTopologicalOrder edges graph l := by
  rcases C07_sorted_or_cycle graph edges U hU hg depth hd with h | ⟨_, _, v, _, hc, g, hgm, hr⟩
  · exact h
  · exact absurd hc (hac g hgm v hr)

/-- A diamond and a two-cycle, for the hypotheses. -/
def sampleEdges (n : Str) : List Str :=
  if n = c!"a" then [c!"b", c!"c"] else if n = c!"b" then [c!"d"]
  else if n = c!"c" then [c!"d"] else if n = c!"x" then [c!"y"]
  else if n = c!"y" then [c!"x"] else []

example : TopologicallySorted 7 [c!"a"] sampleEdges = .ok [c!"a", c!"c", c!"b", c!"d"] := by
  decide

example : ∃ nodes, TopologicallySorted 7 [c!"a", c!"x"] sampleEdges = .error (.cycle nodes) := by
  apply (C07_cycle_iff _ _ [c!"a", c!"b", c!"c", c!"d", c!"x", c!"y"] (by unfold Closed; decide)
    (by decide) 7 (by decide)).mpr
  exact ⟨c!"x", by decide, c!"x", .refl, Relation.TransGen.tail (b := c!"y")
    (Relation.TransGen.single (by decide)) (by decide)⟩

end Gyp
