import Verif.Proofs.Cycles
/-
C10, C11, C12: the flat target list, circular dependencies and their report.
-/
namespace Gyp
open Spec

/-- Every dependency names a target of the table. -/
def Targets.AllKnown (ts : Targets) : Prop :=
  ∀ t s, (t, s) ∈ ts → ∀ d ∈ s.deps, d ∈ ts.names

/-- `a` lists `b` in its dependencies. -/
def Targets.DependsOn (ts : Targets) (a b : Str) : Prop := ∃ s, (a, s) ∈ ts ∧ b ∈ s.deps

/-- There is a circular chain of dependencies through `t`. -/
def Targets.Circular (ts : Targets) (t : Str) : Prop :=
  Relation.TransGen ts.DependsOn t t

theorem Targets.mem_edges {ts : Targets} (hn : ts.names.Nodup) (a b : Str) :
    b ∈ ts.edges a ↔ ts.DependsOn a b := by
  unfold Targets.edges Targets.DependsOn
  constructor
  · intro h
    cases hg : ts.get? a with
    | none => rw [hg] at h; simp at h
    | some s => rw [hg] at h; exact ⟨s, (Targets.get?_eq_some hn a s).mp hg, h⟩
  · rintro ⟨s, hs, hb⟩
    rw [(Targets.get?_eq_some hn a s).mpr hs]
    exact hb

theorem Targets.circular_iff {ts : Targets} (hn : ts.names.Nodup) (t : Str) :
    ts.Circular t ↔ OnCycle ts.edges t := by
  have : (fun x y => y ∈ ts.edges x) = ts.DependsOn := by
    funext a b; exact propext (Targets.mem_edges hn a b)
  unfold Targets.Circular OnCycle Reach1
  rw [this]

theorem Targets.circular_mem {ts : Targets} {t : Str} (h : ts.Circular t) : t ∈ ts.names := by
  have : ∀ u, Relation.TransGen ts.DependsOn t u → t ∈ ts.names := by
    intro u hu
    induction hu with
    | single e => obtain ⟨s, hs, -⟩ := e; exact List.mem_map_of_mem (f := Prod.fst) hs
    | tail _ _ ih => exact ih
  exact this t h

theorem linkTargets_known {targets : Targets} {g : DepGraph} (h : linkTargets targets = .ok g) :
    targets.AllKnown := by
  by_contra hk
  obtain ⟨e, -, d, -, -, he⟩ := linkTargets_missing targets (by
    unfold Targets.AllKnown at hk
    push Not at hk
    obtain ⟨t, s, hs, d, hd, hdn⟩ := hk
    exact ⟨(t, s), hs, d, hd, hdn⟩)
  rw [he] at h; cases h

/-- C10: the flat list holds every target exactly once, each after everything it
depends on. -/
theorem C10_order (targets : Targets) (hn : targets.names.Nodup) (fuel : Nat) (g : DepGraph)
    (flat : List Str) (h : BuildDependencyList targets fuel = .ok (g, flat)) :
    flat.Nodup ∧ (∀ t, t ∈ flat ↔ t ∈ targets.names) ∧
    ∀ t d, targets.DependsOn t d → Before flat d t := by
  unfold BuildDependencyList at h
  cases hl : linkTargets targets with
  | error e => rw [hl] at h; cases h
  | ok g0 =>
    rw [hl] at h
    obtain ⟨g1, hg1, hinv⟩ := linkTargets_ok targets hn
      (fun e he d hd => linkTargets_known hl e.1 e.2 he d hd)
    rw [hl] at hg1
    obtain rfl := Except.ok.inj hg1
    have hok := graphOK_of_linv hn hinv
    cases hf : FlattenToList g0 fuel with
    | none => simp [hf, bind, Except.bind] at h
    | some r =>
      simp only [hf, bind, Except.bind] at h
      by_cases hlen : r.length ≠ targets.length
      · rw [if_pos hlen] at h; cases h
      · rw [if_neg hlen] at h
        obtain ⟨names, e1, e2, hnd, hsub, hord, hcomp⟩ := flatten_result hok fuel r hf
        have hfl : flat = names := by
          have := Except.ok.inj h
          rw [← e2, (Prod.mk.inj this).2]
        subst hfl
        have hac := (flatten_all_iff hok hn fuel r hf).mp (by
          rw [not_not] at hlen
          rw [hlen]; simp [Targets.names])
        have hall : ∀ t ∈ targets.names, t ∈ flat := by
          -- otherwise the names left over would form a cycle
          by_contra hcon
          push Not at hcon
          obtain ⟨u, hu, hnu⟩ := hcon
          have h1 : (u :: flat).Nodup := List.nodup_cons.mpr ⟨hnu, hnd⟩
          have h2 := nodup_length_le h1 (U := targets.names) (by
            intro x hx
            rcases List.mem_cons.mp hx with rfl | hx
            · exact hu
            · exact hsub x hx)
          rw [not_not] at hlen
          have h3 : r.length = flat.length := by rw [e1]; simp
          have h4 : targets.names.length = targets.length := by simp [Targets.names]
          simp at h2
          omega
        refine ⟨hnd, fun t => ⟨hsub t, hall t⟩, ?_⟩
        intro t d htd
        have ht : t ∈ flat := by
          obtain ⟨s, hs, -⟩ := htd
          exact hall t (List.mem_map_of_mem (f := Prod.fst) hs)
        exact hord t ht d ((Targets.mem_edges hn t d).mpr htd)

/-- C11: a dependency on an unknown target is an error naming such a dependency. -/
theorem C11_unknown (targets : Targets) (fuel : Nat) (h : ¬ targets.AllKnown) :
    ∃ d t, targets.DependsOn t d ∧ d ∉ targets.names ∧
      BuildDependencyList targets fuel = .error (.notFound d t) := by
  unfold Targets.AllKnown at h
  push Not at h
  obtain ⟨t, s, hs, d, hd, hdn⟩ := h
  obtain ⟨e, he, d', hd', hdn', herr⟩ := linkTargets_missing targets ⟨(t, s), hs, d, hd, hdn⟩
  refine ⟨d', e.1, ⟨e.2, he, hd'⟩, hdn', ?_⟩
  unfold BuildDependencyList
  rw [herr]
  rfl

/-- The universe of nodes. -/
def nodeUniverse (names : List Str) : List Node := none :: names.map some

/-- The graph that is searched for cycles. -/
def searched (names : List Str) (g : DepGraph) : DepGraph :=
  if g.dependents none = [] then
    match names with
    | [] => g
    | t :: _ => g.addEdge (some t) none
  else g

theorem searched_dependents (names : List Str) (g : DepGraph) (d : Str) :
    (searched names g).dependents (some d) = g.dependents (some d) := by
  unfold searched
  by_cases h : g.dependents none = []
  · rw [if_pos h]
    cases names with
    | nil => rfl
    | cons e ts => simp [DepGraph.addEdge, Function.update]
  · rw [if_neg h]

theorem searched_closed {names : List Str} {edges : Str → List Str} {g : DepGraph}
    (hg : GraphOK g names edges) :
    Closed (searched names g).dependents (nodeUniverse names) ∧
    ∀ n, none ∉ (searched names g).dependents n := by
  have key : ∀ n, ∀ y ∈ (searched names g).dependents n, ∃ t ∈ names, y = some t := by
    intro n y hy
    cases n with
    | some d =>
      rw [searched_dependents] at hy
      cases y with
      | none => exact absurd hy (hg.noRoot _)
      | some t => exact ⟨t, ((hg.dependents t d).mp hy).1, rfl⟩
    | none =>
      unfold searched at hy
      by_cases h : g.dependents none = []
      · rw [if_pos h] at hy
        cases names with
        | nil =>
          rw [h] at hy; simp at hy
        | cons e ts =>
          simp only [DepGraph.addEdge, Function.update, h] at hy
          simp only [List.nil_append, ↓reduceDIte, List.mem_singleton] at hy
          exact ⟨e, by simp, hy⟩
      · rw [if_neg h] at hy
        cases y with
        | none => exact absurd hy (hg.noRoot _)
        | some t => exact ⟨t, ((hg.roots t).mp hy).1, rfl⟩
  constructor
  · intro x _ y hy
    obtain ⟨t, ht, rfl⟩ := key x y hy
    exact List.mem_cons_of_mem _ (List.mem_map_of_mem ht)
  · intro n hn
    obtain ⟨t, -, e⟩ := key n none hn
    cases e

theorem searched_cycles {names : List Str} {edges : Str → List Str} {g : DepGraph}
    (hg : GraphOK g names edges) (fuel : Nat) (hf : names.length + 1 ≤ fuel) :
    ∃ cycles, FindCycles (searched names g) fuel none = some cycles ∧
      (∀ c ∈ cycles, IsCycle (searched names g).dependents c) ∧
      ((∃ v, Reach (searched names g).dependents none v ∧
        OnCycle (searched names g).dependents v) → cycles ≠ []) :=
  findCycles_spec (searched names g) none (nodeUniverse names)
    (searched_closed hg).1 (by simp [nodeUniverse]) fuel (by simpa [nodeUniverse] using hf)

theorem circularError_searched (targets : Targets) (g : DepGraph) (fuel : Nat) :
    circularError targets g fuel = match FindCycles (searched targets.names g) fuel none with
      | none => .fuel
      | some cycles => .circular cycles := by
  unfold circularError searched
  cases targets <;> rfl

theorem circularError_eq {targets : Targets} {g : DepGraph}
    (hg : GraphOK g targets.names targets.edges) (fuel : Nat)
    (hf : targets.length + 1 ≤ fuel) :
    ∃ cycles, FindCycles (searched targets.names g) fuel none = some cycles ∧
      circularError targets g fuel = .circular cycles ∧
      (∀ c ∈ cycles, IsCycle (searched targets.names g).dependents c) ∧
      ((∃ v, Reach (searched targets.names g).dependents none v ∧
        OnCycle (searched targets.names g).dependents v) → cycles ≠ []) := by
  obtain ⟨cycles, h1, h2, h3⟩ := searched_cycles hg fuel (by simpa [Targets.names] using hf)
  refine ⟨cycles, h1, ?_, h2, h3⟩
  rw [circularError_searched, h1]

/-- The three outcomes of loading the dependency graph. -/
theorem C11_outcome (targets : Targets) (hn : targets.names.Nodup) :
    ∃ N, ∀ fuel, N ≤ fuel →
      (targets.AllKnown ∧ (∀ t, ¬ targets.Circular t) ∧
        ∃ g flat, BuildDependencyList targets fuel = .ok (g, flat)) ∨
      (targets.AllKnown ∧ (∃ t, targets.Circular t) ∧
        ∃ cycles, BuildDependencyList targets fuel = .error (.circular cycles)) ∨
      (¬ targets.AllKnown ∧
        ∃ d t, targets.DependsOn t d ∧ d ∉ targets.names ∧
          BuildDependencyList targets fuel = .error (.notFound d t)) := by
  by_cases hk : targets.AllKnown
  · obtain ⟨g, hl, hinv⟩ := linkTargets_ok targets hn (fun e he d hd => hk e.1 e.2 he d hd)
    have hok := graphOK_of_linv hn hinv
    obtain ⟨N, hN⟩ := flatten_terminates hok
    refine ⟨max N (targets.length + 1), fun fuel hf => ?_⟩
    obtain ⟨r, hr⟩ := hN fuel (by omega)
    have hiff := flatten_all_iff hok hn fuel r hr
    have hlen : targets.names.length = targets.length := by simp [Targets.names]
    have hB : BuildDependencyList targets fuel =
        if r.length ≠ targets.length then .error (circularError targets g fuel)
        else .ok (g, r.filterMap id) := by
      unfold BuildDependencyList
      rw [hl]
      simp only [bind, Except.bind, hr]
    rw [hlen] at hiff
    by_cases hr' : r.length = targets.length
    · left
      refine ⟨hk, ?_, g, r.filterMap id, by rw [hB, if_neg (by simpa using hr')]⟩
      intro t ht
      exact hiff.mp hr' t (Targets.circular_mem ht) ((Targets.circular_iff hn t).mp ht)
    · right; left
      refine ⟨hk, ?_, ?_⟩
      · by_contra hno
        push Not at hno
        exact hr' (hiff.mpr fun t _ hc => hno t ((Targets.circular_iff hn t).mpr hc))
      · obtain ⟨cycles, -, h1, -⟩ := circularError_eq hok fuel (by omega)
        exact ⟨cycles, by rw [hB, if_pos hr', h1]⟩
  · exact ⟨0, fun fuel _ => Or.inr (Or.inr ⟨hk, C11_unknown targets fuel hk⟩)⟩

/-- C11: a flat list is produced exactly when every dependency exists and there is no
circular dependency. -/
theorem C11_ok_iff (targets : Targets) (hn : targets.names.Nodup) :
    ∃ N, ∀ fuel, N ≤ fuel →
      ((∃ g flat, BuildDependencyList targets fuel = .ok (g, flat)) ↔
        targets.AllKnown ∧ ∀ t, ¬ targets.Circular t) := by
  obtain ⟨N, hN⟩ := C11_outcome targets hn
  refine ⟨N, fun fuel hf => ?_⟩
  rcases hN fuel hf with ⟨h1, h2, h3⟩ | ⟨-, ⟨t, h2⟩, c, h3⟩ | ⟨h1, d, t, -, -, h3⟩
  · exact ⟨fun _ => ⟨h1, h2⟩, fun _ => h3⟩
  · refine ⟨?_, fun h => absurd h2 (h.2 t)⟩
    rintro ⟨g, flat, e⟩; rw [h3] at e; cases e
  · refine ⟨?_, fun h => absurd h.1 h1⟩
    rintro ⟨g, flat, e⟩; rw [h3] at e; cases e

/-- C11: a circular dependency is reported as such. -/
theorem C11_circular (targets : Targets) (hn : targets.names.Nodup) (hk : targets.AllKnown)
    (hc : ∃ t, targets.Circular t) :
    ∃ N, ∀ fuel, N ≤ fuel →
      ∃ cycles, BuildDependencyList targets fuel = .error (.circular cycles) := by
  obtain ⟨N, hN⟩ := C11_outcome targets hn
  refine ⟨N, fun fuel hf => ?_⟩
  obtain ⟨t, ht⟩ := hc
  rcases hN fuel hf with ⟨-, h2, -⟩ | ⟨-, -, h⟩ | ⟨h, -⟩
  · exact absurd ht (h2 t)
  · exact h
  · exact absurd hk h

/-! ### C12 -/

/-- A circular chain: the first and last name coincide, no other name occurs twice, and
each name is related to the next. -/
def CycleOf (R : Str → Str → Prop) (c : List Str) : Prop :=
  2 ≤ c.length ∧ c.head? = c.getLast? ∧ c.tail.Nodup ∧ c.IsChain R

/-- A circular chain of dependencies: each name depends on the next. -/
def Targets.DependencyCycle (ts : Targets) (c : List Str) : Prop := CycleOf ts.DependsOn c

/-- The names from which the search for cycles starts: the targets without
dependencies, or the first target if there are none. -/
def Targets.searchRoots (ts : Targets) : List Str :=
  if (ts.filter fun e => e.2.deps = []) = [] then (ts.take 1).map Prod.fst
  else (ts.filter fun e => e.2.deps = []).map Prod.fst

theorem dependents_of {targets : Targets} {g : DepGraph} (hn : targets.names.Nodup)
    (hg : GraphOK g targets.names targets.edges) (a b : Str) :
    some a ∈ (searched targets.names g).dependents (some b) ↔ targets.DependsOn a b := by
  rw [searched_dependents, hg.dependents, Targets.mem_edges hn]
  constructor
  · exact fun h => h.2
  · intro h
    obtain ⟨s, hs, hb⟩ := h
    exact ⟨List.mem_map_of_mem (f := Prod.fst) hs, s, hs, hb⟩

theorem cycle_names {names : List Str} {edges : Str → List Str} {g : DepGraph}
    (hg : GraphOK g names edges) (R : Str → Str → Prop)
    (hR : ∀ a b, some a ∈ (searched names g).dependents (some b) → R a b) (c : List Node)
    (hc : IsCycle (searched names g).dependents c) :
    ∃ names, c = names.map some ∧ CycleOf R names := by
  obtain ⟨hl, hh, hnd, hch⟩ := hc
  have hnone : none ∉ c := by
    intro hm
    obtain ⟨p, q, e⟩ := List.append_of_mem hm
    cases q with
    | cons y ys =>
      rw [e] at hch
      have := (List.isChain_append.mp hch).2.1
      rw [List.isChain_cons_cons] at this
      exact (searched_closed hg).2 _ this.1
    | nil =>
      have hlast : c.getLast? = some none := by rw [e]; simp
      rw [hlast] at hh
      cases c with
      | nil => simp at hl
      | cons x xs =>
        simp only [List.head?_cons, Option.some.injEq] at hh
        subst hh
        cases xs with
        | nil => simp at hl
        | cons y ys =>
          rw [List.isChain_cons_cons] at hch
          exact (searched_closed hg).2 _ hch.1
  have hmap : c = (c.filterMap id).map some := by
    clear hl hh hnd hch
    induction c with
    | nil => rfl
    | cons x xs ih =>
      cases x with
      | none => simp at hnone
      | some t => exact congrArg (some t :: ·) (ih fun h => hnone (List.mem_cons_of_mem _ h))
  refine ⟨c.filterMap id, hmap, ?_⟩
  generalize c.filterMap id = names' at hmap
  subst hmap
  refine ⟨by simpa using hl, ?_, ?_, ?_⟩
  · rw [List.head?_map, List.getLast?_map] at hh
    cases h1 : names'.head? <;> cases h2 : names'.getLast? <;> simp_all
  · rw [← List.map_tail] at hnd
    exact hnd.of_map
  · rw [List.isChain_map] at hch
    exact hch.imp fun a b h => hR a b h

/-- C12: every reported cycle is a circular chain of dependencies. -/
theorem C12_reported_are_cycles (targets : Targets) (hn : targets.names.Nodup) (fuel : Nat)
    (hf : targets.length + 1 ≤ fuel) (cycles : List (List Node))
    (h : BuildDependencyList targets fuel = .error (.circular cycles)) :
    ∀ c ∈ cycles, ∃ names, c = names.map some ∧ targets.DependencyCycle names := by
  unfold BuildDependencyList at h
  cases hl : linkTargets targets with
  | error e =>
    have hk : ¬ targets.AllKnown := by
      intro hk
      obtain ⟨g1, hg1, -⟩ := linkTargets_ok targets hn (fun e he d hd => hk e.1 e.2 he d hd)
      rw [hl] at hg1; cases hg1
    obtain ⟨d, t, -, -, he⟩ := C11_unknown targets fuel hk
    unfold BuildDependencyList at he
    rw [he] at h; cases h
  | ok g =>
    obtain ⟨g1, hg1, hinv⟩ := linkTargets_ok targets hn
      (fun e he d hd => linkTargets_known hl e.1 e.2 he d hd)
    rw [hl] at hg1
    obtain rfl := Except.ok.inj hg1
    have hok := graphOK_of_linv hn hinv
    rw [hl] at h
    simp only [bind, Except.bind] at h
    obtain ⟨cs, -, h1, h2, -⟩ := circularError_eq hok fuel hf
    cases hfl : FlattenToList g fuel with
    | none => rw [hfl] at h; cases h
    | some r =>
      rw [hfl] at h
      simp only at h
      by_cases hlen : r.length ≠ targets.length
      · rw [if_pos hlen, h1] at h
        have : cs = cycles := by injection h with h; injection h
        subst this
        intro c hc
        exact cycle_names hok _ (fun a b => (dependents_of hn hok a b).mp) c (h2 c hc)
      · rw [if_neg hlen] at h; cases h

/-- C12: when a target on a circular chain depends, directly or not, on a target from
which the search starts, at least one cycle is reported. -/
theorem C12_some_reported (targets : Targets) (hn : targets.names.Nodup) (hk : targets.AllKnown)
    (r v : Str) (hr : r ∈ targets.searchRoots) (hv : targets.Circular v)
    (hreach : Relation.ReflTransGen targets.DependsOn v r) :
    ∃ N, ∀ fuel, N ≤ fuel → ∃ cycles, cycles ≠ [] ∧
      BuildDependencyList targets fuel = .error (.circular cycles) := by
  obtain ⟨N, hN⟩ := C11_circular targets hn hk ⟨v, hv⟩
  refine ⟨max N (targets.length + 1), fun fuel hf => ?_⟩
  obtain ⟨cycles, hc⟩ := hN fuel (by omega)
  refine ⟨cycles, ?_, hc⟩
  obtain ⟨g, hl, hinv⟩ := linkTargets_ok targets hn (fun e he d hd => hk e.1 e.2 he d hd)
  have hok := graphOK_of_linv hn hinv
  obtain ⟨cs, -, h1, -, h3⟩ := circularError_eq hok fuel (by omega)
  have hcs : cs = cycles := by
    unfold BuildDependencyList at hc
    rw [hl] at hc
    simp only [bind, Except.bind] at hc
    cases hfl : FlattenToList g fuel with
    | none => rw [hfl] at hc; cases hc
    | some r =>
      rw [hfl] at hc
      simp only at hc
      by_cases hlen : r.length ≠ targets.length
      · rw [if_pos hlen, h1] at hc
        injection hc with hc; injection hc
      · rw [if_neg hlen] at hc; cases hc
  subst hcs
  apply h3
  -- the search reaches `r`, then everything that depends on it
  have hedge : ∀ e ∈ targets, targets.edges e.1 = e.2.deps := by
    intro e he
    unfold Targets.edges
    rw [(Targets.get?_eq_some hn e.1 e.2).mpr he]
  have hroot : some r ∈ (searched targets.names g).dependents none := by
    unfold Targets.searchRoots at hr
    by_cases hz : (targets.filter fun e => e.2.deps = []) = []
    · rw [if_pos hz] at hr
      have hg0 : g.dependents none = [] := by
        rw [List.eq_nil_iff_forall_not_mem]
        intro n hn'
        obtain ⟨e, he, -, he2⟩ := (hinv.roots n).mp hn'
        have : e ∈ targets.filter fun e => e.2.deps = [] :=
          List.mem_filter.mpr ⟨he, by simpa using he2⟩
        rw [hz] at this; simp at this
      unfold searched
      rw [if_pos hg0]
      cases targets with
      | nil => simp at hr
      | cons e ts =>
        simp at hr
        simp [DepGraph.addEdge, Function.update, hg0, hr, Targets.names]
    · rw [if_neg hz] at hr
      obtain ⟨e, he, rfl⟩ := List.mem_map.mp hr
      obtain ⟨he1, he2⟩ := List.mem_filter.mp he
      have hmem : some e.1 ∈ g.dependents none :=
        (hinv.roots _).mpr ⟨e, he1, rfl, by simpa using he2⟩
      unfold searched
      rw [if_neg (List.ne_nil_of_mem hmem)]
      exact hmem
  have hlift : ∀ a b, Relation.ReflTransGen targets.DependsOn a b →
      Reach (searched targets.names g).dependents (some b) (some a) := by
    intro a b hab
    induction hab with
    | refl => exact .refl
    | tail _ e ih => exact .head ((dependents_of hn hok _ _).mpr e) ih
  have hlift1 : ∀ a b, Relation.TransGen targets.DependsOn a b →
      Reach1 (searched targets.names g).dependents (some b) (some a) := by
    intro a b hab
    induction hab with
    | single e => exact .single ((dependents_of hn hok _ _).mpr e)
    | tail _ e ih => exact .head ((dependents_of hn hok _ _).mpr e) ih
  exact ⟨some v, .head hroot (hlift v r hreach), hlift1 v v hv⟩

/-! ### Concrete cases -/

/-- A diamond: `app` needs `a` and `b`, both need `base`. -/
def diamond : Targets :=
  [(c!"app", { type := c!"executable", dependencies := some [c!"a", c!"b"] }),
   (c!"a", { type := c!"static_library", dependencies := some [c!"base"] }),
   (c!"b", { type := c!"static_library", dependencies := some [c!"base"] }),
   (c!"base", { type := c!"static_library" })]

example : diamond.names.Nodup ∧ (BuildDependencyList diamond 20).map Prod.snd =
    .ok [c!"base", c!"b", c!"a", c!"app"] := ⟨by decide, by decide⟩

/-- `x` and `y` need each other; both need `z`. -/
def reachableCycle : Targets :=
  [(c!"x", { type := c!"none", dependencies := some [c!"y"] }),
   (c!"y", { type := c!"none", dependencies := some [c!"x", c!"z"] }),
   (c!"z", { type := c!"none" })]

example : reachableCycle.names.Nodup ∧ (BuildDependencyList reachableCycle 10).map Prod.snd =
    .error (.circular [[some c!"y", some c!"x", some c!"y"]]) := ⟨by decide, by decide⟩

example : c!"z" ∈ reachableCycle.searchRoots ∧ reachableCycle.Circular c!"x" ∧
    Relation.ReflTransGen reachableCycle.DependsOn c!"x" c!"z" := by
  have hxy : reachableCycle.DependsOn c!"x" c!"y" :=
    (Targets.mem_edges (by decide) _ _).mp (by decide)
  have hyx : reachableCycle.DependsOn c!"y" c!"x" :=
    (Targets.mem_edges (by decide) _ _).mp (by decide)
  have hyz : reachableCycle.DependsOn c!"y" c!"z" :=
    (Targets.mem_edges (by decide) _ _).mp (by decide)
  exact ⟨by decide, .tail (.single hxy) hyx, .tail (.single hxy) hyz⟩

/-- `x` and `y` need each other and nothing else; `z` stands alone. -/
def unreachableCycle : Targets :=
  [(c!"x", { type := c!"none", dependencies := some [c!"y"] }),
   (c!"y", { type := c!"none", dependencies := some [c!"x"] }),
   (c!"z", { type := c!"none" })]

/-- C12, limit of the code: a cycle that no start of the search leads to is rejected
but not named in the message. -/
theorem C12_unreachable_not_named :
    (BuildDependencyList unreachableCycle 10).map Prod.snd = .error (.circular []) := by decide

end Gyp
