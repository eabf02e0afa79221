import Verif.Proofs.Graph
/-
Proofs about `FindCycles`.
-/
namespace Gyp
open Spec

/-- A closed walk along `next` without repeated intermediate nodes: the first and the
last element coincide and nothing else repeats. -/
def IsCycle {α : Type} (next : α → List α) (c : List α) : Prop :=
  2 ≤ c.length ∧ c.head? = c.getLast? ∧ c.tail.Nodup ∧ c.IsChain (fun a b => a ∈ next b)

/-- Search state: the nodes on the path, the finished nodes (children first), and the
visited set. -/
structure CInv (g : DepGraph) (path visited done : List Node) : Prop where
  visited : ∀ x, x ∈ visited ↔ x ∈ path ∨ x ∈ done
  disjoint : ∀ x ∈ path, x ∉ done
  nodup : done.Nodup
  order : ∀ x ∈ done, ∀ y ∈ g.dependents x, Before done y x

/-- The path: newest first, each node a dependent of the next. -/
structure CPath (g : DepGraph) (path visited : List Node) : Prop where
  nodup : path.Nodup
  chain : path.IsChain (fun a b => a ∈ g.dependents b)
  visited : ∀ x ∈ path, x ∈ visited

def CPost (g : DepGraph) (fuel : Nat) (path : List Node) (children : List Node)
    (st : List Node × List (List Node)) : Option (List Node × List (List Node)) → Prop
  | none => ∀ U, Closed g.dependents U → (∀ x ∈ path, x ∈ U) → fuel + path.length ≤ U.length
  | some st' => (∀ x ∈ st.1, x ∈ st'.1) ∧
      ∃ more, st'.2 = st.2 ++ more ∧ (∀ c ∈ more, IsCycle g.dependents c) ∧
        (more = [] → ∀ done, CInv g path st.1 done →
          ∃ done', CInv g path st'.1 (done ++ done') ∧ ∀ c ∈ children, c ∈ done ++ done')

theorem pathUpTo_cycle {g : DepGraph} {path visited : List Node} {node child : Node}
    {rest : List Node} (hp : path = node :: rest) (h : CPath g path visited)
    (hc : child ∈ path) (hd : child ∈ g.dependents node) :
    IsCycle g.dependents (child :: pathUpTo child path) := by
  obtain ⟨p, q, hpq, hnp⟩ : ∃ p q, path = p ++ child :: q ∧ child ∉ p := by
    obtain ⟨p, q, e⟩ := List.append_of_mem hc
    refine ⟨p, q, e, ?_⟩
    have := h.nodup
    rw [e, List.nodup_append] at this
    exact fun hm => this.2.2 child hm child (by simp) rfl
  have hidx : path.idxOf child = p.length := by
    rw [hpq, List.idxOf_append, if_neg hnp]; simp
  have htake : pathUpTo child path = p ++ [child] := by
    unfold pathUpTo
    rw [hidx, hpq, List.take_append]
    simp
  have hsub : (p ++ [child]) <+: path := ⟨q, by rw [hpq]; simp⟩
  rw [htake]
  refine ⟨by simp, by simp [List.getLast?_cons], ?_, ?_⟩
  · exact h.nodup.sublist hsub.sublist
  · have hch : (p ++ [child]).IsChain (fun a b => a ∈ g.dependents b) := by
      obtain ⟨t, ht⟩ := hsub
      have := h.chain
      rw [← ht] at this
      exact (List.isChain_append.mp this).1
    rw [List.isChain_cons]
    refine ⟨?_, hch⟩
    intro y hy
    have hynode : y = node := by
      obtain ⟨t, ht⟩ := hsub
      rw [hp] at ht
      cases p with
      | nil =>
        simp only [List.nil_append, List.cons_append, List.cons.injEq] at ht
        simp only [List.nil_append, List.head?_cons, Option.mem_def, Option.some.injEq] at hy
        rw [← hy, ht.1]
      | cons z zs =>
        simp only [List.cons_append, List.cons.injEq] at ht
        simp only [List.cons_append, List.head?_cons, Option.mem_def, Option.some.injEq] at hy
        rw [← hy, ht.1]
    rw [hynode]
    exact hd

theorem cycleVisit_post (g : DepGraph) (fuel : Nat) (node : Node) (rest : List Node)
    (st : List Node × List (List Node)) (h : CPath g (node :: rest) st.1) :
    CPost g fuel (node :: rest) (g.dependents node) st (cycleVisit g fuel (node :: rest) st) := by
  induction fuel generalizing node rest st with
  | zero =>
    intro U _ hU
    rw [Nat.zero_add]
    exact nodup_length_le h.nodup hU
  | succ fuel ih =>
    unfold cycleVisit
    -- the loop over the children
    have loop : ∀ (cs : List Node) (st : List Node × List (List Node)),
        (∀ c ∈ cs, c ∈ g.dependents node) → CPath g (node :: rest) st.1 →
        CPost g (fuel + 1) (node :: rest) cs st
          (cs.foldlM (fun (st : List Node × List (List Node)) child =>
            if child ∈ node :: rest then
              some (st.1, st.2 ++ [child :: pathUpTo child (node :: rest)])
            else if child ∈ st.1 then some st
            else cycleVisit g fuel (child :: node :: rest) (child :: st.1, st.2)) st) := by
      intro cs
      induction cs with
      | nil =>
        intro st _ _
        exact ⟨fun _ hx => hx, [], by simp, by simp,
          fun _ done hd => ⟨[], by simpa using hd, by simp⟩⟩
      | cons c cs ihc =>
        intro st hcs hp
        rw [List.foldlM_cons]
        have hcd := hcs c (by simp)
        by_cases h1 : c ∈ node :: rest
        · rw [if_pos h1]
          have h2 := ihc (st.1, st.2 ++ [c :: pathUpTo c (node :: rest)])
            (fun x hx => hcs x (by simp [hx])) hp
          show CPost g (fuel + 1) (node :: rest) (c :: cs) st (cs.foldlM (m := Option) _ _)
          revert h2
          generalize cs.foldlM (m := Option) _ (st.1, st.2 ++ [c :: pathUpTo c (node :: rest)]) = res
          intro h2
          cases res with
          | none => exact h2
          | some st' =>
            obtain ⟨hv, more, e, hm, -⟩ := h2
            refine ⟨hv, (c :: pathUpTo c (node :: rest)) :: more, by rw [e]; simp, ?_, by simp⟩
            intro x hx
            rcases List.mem_cons.mp hx with rfl | hx
            · exact pathUpTo_cycle rfl hp h1 hcd
            · exact hm x hx
        rw [if_neg h1]
        by_cases h2 : c ∈ st.1
        · rw [if_pos h2]
          have h3 := ihc st (fun x hx => hcs x (by simp [hx])) hp
          show CPost g (fuel + 1) (node :: rest) (c :: cs) st (cs.foldlM (m := Option) _ st)
          revert h3
          generalize cs.foldlM (m := Option) _ st = res
          intro h3
          cases res with
          | none => exact h3
          | some st' =>
            obtain ⟨hv, more, e, hm, hdone⟩ := h3
            refine ⟨hv, more, e, hm, ?_⟩
            intro hnil done hd
            obtain ⟨done', hd', hall⟩ := hdone hnil done hd
            refine ⟨done', hd', ?_⟩
            intro x hx
            rcases List.mem_cons.mp hx with rfl | hx
            · have := ((hd.visited x).mp h2).resolve_left h1
              exact List.mem_append_left _ this
            · exact hall x hx
        rw [if_neg h2]
        have hp' : CPath g (c :: node :: rest) (c :: st.1) := by
          refine ⟨List.nodup_cons.mpr ⟨h1, hp.nodup⟩, ?_, ?_⟩
          · rw [List.isChain_cons_cons]; exact ⟨hcd, hp.chain⟩
          · intro x hx
            rcases List.mem_cons.mp hx with rfl | hx
            · simp
            · exact List.mem_cons_of_mem _ (hp.visited x hx)
        have h3 := ih c (node :: rest) (c :: st.1, st.2) hp'
        cases hr : cycleVisit g fuel (c :: node :: rest) (c :: st.1, st.2) with
        | none =>
          rw [hr] at h3
          intro U hU hpU
          have := h3 U hU (by
            intro x hx
            rcases List.mem_cons.mp hx with rfl | hx
            · exact hU node (hpU node (by simp)) _ hcd
            · exact hpU x hx)
          simp at this ⊢
          omega
        | some st1 =>
          rw [hr] at h3
          obtain ⟨hv1, more1, e1, hm1, hdone1⟩ := h3
          have hp1 : CPath g (node :: rest) st1.1 :=
            ⟨hp.nodup, hp.chain, fun x hx => hv1 x (List.mem_cons_of_mem _ (hp.visited x hx))⟩
          have h4 := ihc st1 (fun x hx => hcs x (by simp [hx])) hp1
          show CPost g (fuel + 1) (node :: rest) (c :: cs) st (cs.foldlM (m := Option) _ st1)
          revert h4
          generalize cs.foldlM (m := Option) _ st1 = res
          intro h4
          cases res with
          | none => exact h4
          | some st' =>
            obtain ⟨hv, more, e, hm, hdone⟩ := h4
            refine ⟨fun x hx => hv x (hv1 x (List.mem_cons_of_mem _ hx)), more1 ++ more,
              by rw [e, e1]; simp, ?_, ?_⟩
            · intro x hx
              rcases List.mem_append.mp hx with hx | hx
              · exact hm1 x hx
              · exact hm x hx
            · intro hnil done hd
              obtain ⟨hn1, hn2⟩ := List.append_eq_nil_iff.mp hnil
              have hcdone : c ∉ done := fun hm => h2 ((hd.visited c).mpr (Or.inr hm))
              have hd0 : CInv g (c :: node :: rest) (c :: st.1) done := by
                refine ⟨?_, ?_, hd.nodup, hd.order⟩
                · intro x
                  simp only [List.mem_cons]
                  rw [hd.visited x]
                  simp only [List.mem_cons, or_assoc]
                · intro x hx
                  rcases List.mem_cons.mp hx with rfl | hx
                  · exact hcdone
                  · exact hd.disjoint x hx
              obtain ⟨done1, hd1, hall1⟩ := hdone1 hn1 done hd0
              -- the child is finished now
              have hd2 : CInv g (node :: rest) st1.1 (done ++ done1 ++ [c]) := by
                have hcn : c ∉ done ++ done1 := hd1.disjoint c (by simp)
                refine ⟨?_, ?_, ?_, ?_⟩
                · intro x
                  rw [hd1.visited x]
                  simp only [List.mem_cons, List.mem_append, List.mem_nil_iff, or_false]
                  tauto
                · intro x hx
                  rw [List.mem_append, not_or]
                  refine ⟨hd1.disjoint x (List.mem_cons_of_mem _ hx), ?_⟩
                  rw [List.mem_singleton]
                  rintro rfl
                  exact h1 hx
                · rw [List.nodup_append]
                  refine ⟨hd1.nodup, by simp, ?_⟩
                  intro a ha b hb e
                  rw [List.mem_singleton] at hb
                  subst hb; subst e
                  exact hcn ha
                · intro x hx y hy
                  rcases List.mem_append.mp hx with hx | hx
                  · exact (hd1.order x hx y hy).append_right _
                  · rw [List.mem_singleton] at hx
                    subst hx
                    exact Before.split (hall1 y hy) (by simp)
              obtain ⟨done2, hd3, hall2⟩ := hdone hn2 _ hd2
              refine ⟨done1 ++ [c] ++ done2, by simpa using hd3, ?_⟩
              intro x hx
              rcases List.mem_cons.mp hx with rfl | hx
              · simp
              · have := hall2 x hx
                simpa using this
    have := loop (g.dependents node) st (fun _ h => h) h
    exact this

/-- Started at `start`, the search returns real cycles only, it stops, and it returns
at least one cycle when one is reachable. -/
theorem findCycles_spec (g : DepGraph) (start : Node) (U : List Node)
    (hU : Closed g.dependents U) (hs : start ∈ U) (fuel : Nat) (hf : U.length ≤ fuel) :
    ∃ cycles, FindCycles g fuel start = some cycles ∧
      (∀ c ∈ cycles, IsCycle g.dependents c) ∧
      ((∃ v, Reach g.dependents start v ∧ OnCycle g.dependents v) → cycles ≠ []) := by
  have hp : CPath g [start] [start] := ⟨by simp, by simp, by simp⟩
  have h := cycleVisit_post g fuel start [] ([start], []) hp
  unfold FindCycles
  cases hr : cycleVisit g fuel [start] ([start], []) with
  | none =>
    rw [hr] at h
    have := h U hU (by simpa using hs)
    simp at this
    omega
  | some st =>
    rw [hr] at h
    obtain ⟨-, more, e, hm, hdone⟩ := h
    refine ⟨st.2, rfl, by rw [e]; simpa using hm, ?_⟩
    rintro ⟨v, hv, hc⟩ hnil
    have hmore : more = [] := by rw [hnil] at e; simpa using e.symm
    have hinit : CInv g [start] [start] [] := ⟨by simp, by simp, by simp, by simp⟩
    obtain ⟨done, hd, hall⟩ := hdone hmore [] hinit
    rw [List.nil_append] at hd hall
    -- all of `done ++ [start]` is in order
    have hsn : start ∉ done := hd.disjoint start (by simp)
    have hnd : (done ++ [start]).Nodup := by
      rw [List.nodup_append]
      refine ⟨hd.nodup, by simp, ?_⟩
      intro a ha b hb e
      rw [List.mem_singleton] at hb
      rw [e, hb] at ha
      exact hsn ha
    have hord : ∀ x ∈ done ++ [start], ∀ y ∈ g.dependents x, Before (done ++ [start]) y x := by
      intro x hx y hy
      rcases List.mem_append.mp hx with hx | hx
      · exact (hd.order x hx y hy).append_right _
      · rw [List.mem_singleton] at hx
        subst hx
        exact Before.split (hall y hy) (by simp)
    have hclosed : Closed g.dependents (done ++ [start]) :=
      fun x hx y hy => (hord x hx y hy).mem_left
    exact no_cycle_of_reverse_order hnd hord v (hv.closed hclosed (by simp)) hc

end Gyp
