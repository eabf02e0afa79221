import Verif.Model.DependencyGraph
import Verif.Spec.Graph
import Verif.Props.OrderedSet
import Verif.Props.Toposort
import Mathlib.Order.WellFounded
import Mathlib.Data.Fintype.EquivFin
import Mathlib.Order.RelClasses
/-
Proofs about the dependency graph shared by several properties.
-/
namespace Gyp
open Spec

/-- The graph `g` represents the relation `edges` on the names `U`, with the names
without edges hanging off the root. -/
structure GraphOK (g : DepGraph) (U : List Str) (edges : Str → List Str) : Prop where
  deps : ∀ t ∈ U, g.dependencies (some t) = if edges t = [] then [none] else (edges t).map some
  dependents : ∀ t d, some t ∈ g.dependents (some d) ↔ t ∈ U ∧ d ∈ edges t
  roots : ∀ t, some t ∈ g.dependents none ↔ t ∈ U ∧ edges t = []
  noRoot : ∀ n, none ∉ g.dependents n
  closed : Closed edges U

/-- `d` is needed by `t`. -/
def Needs (edges : Str → List Str) (d t : Str) : Prop := d ∈ edges t

structure FInv (U : List Str) (edges : Str → List Str) (zeros flat : List Node) : Prop where
  nodup : flat.Nodup
  named : ∀ n ∈ flat, ∃ t ∈ U, n = some t
  order : ∀ t, some t ∈ flat → ∀ d ∈ edges t, Before flat (some d) (some t)
  ready : ∀ n ∈ zeros, ∃ t ∈ U, n = some t ∧ ∀ d ∈ edges t, some d ∈ flat
  complete : ∀ t ∈ U, (∀ d ∈ edges t, some d ∈ flat) → some t ∈ flat ∨ some t ∈ zeros
  acc : ∀ t, some t ∈ flat → Acc (Needs edges) t

theorem mem_ready {g : DepGraph} {node nd : Node} {flat : List Node} :
    nd ∈ readyDependents g node flat ↔
      nd ∈ g.dependents node ∧ ∀ d ∈ g.dependencies nd, d ∈ flat := by
  unfold readyDependents
  rw [List.mem_filter, (pySorted_perm nodeLe _).mem_iff, List.all_eq_true]
  simp only [decide_eq_true_eq, (pySorted_perm nodeLe _).mem_iff]

section
variable {g : DepGraph} {U : List Str} {edges : Str → List Str}

theorem listAdd_of_mem {α : Type} [DecidableEq α] {l : List α} {k : α} (h : k ∈ l) :
    listAdd l k = l := by simp [listAdd, h]

theorem listAdd_of_notMem {α : Type} [DecidableEq α] {l : List α} {k : α} (h : k ∉ l) :
    listAdd l k = l ++ [k] := by simp [listAdd, h]

theorem listAdd_nodup {α : Type} [DecidableEq α] {l : List α} (k : α) (h : l.Nodup) :
    (listAdd l k).Nodup := by
  by_cases hk : k ∈ l
  · rwa [listAdd_of_mem hk]
  · rw [listAdd_of_notMem hk, List.nodup_append]
    exact ⟨h, by simp, fun a ha b hb e => hk (by simp at hb; subst hb; subst e; exact ha)⟩

theorem finv_step (hg : GraphOK g U edges) {n : Node} {zeros flat : List Node}
    (h : FInv U edges (n :: zeros) flat) :
    FInv U edges ((readyDependents g n (listAdd flat n)).reverse ++ zeros) (listAdd flat n) := by
  obtain ⟨t0, ht0, rfl, hready⟩ := h.ready n (by simp)
  have hsub : ∀ x, x ∈ flat → x ∈ listAdd flat (some t0) := fun x hx => by
    rw [mem_listAdd]; exact Or.inr hx
  constructor
  · exact listAdd_nodup _ h.nodup
  · intro x hx
    rw [mem_listAdd] at hx
    rcases hx with rfl | hx
    · exact ⟨t0, ht0, rfl⟩
    · exact h.named x hx
  · intro t ht d hd
    by_cases hm : some t0 ∈ flat
    · rw [listAdd_of_mem hm] at ht ⊢
      exact h.order t ht d hd
    · rw [mem_listAdd] at ht
      rw [listAdd_of_notMem hm]
      rcases ht with e | ht
      · obtain rfl := Option.some.inj e
        exact Before.split (hready d hd) (by simp)
      · exact (h.order t ht d hd).append_right _
  · intro x hx
    rcases List.mem_append.mp hx with hx | hx
    · rw [List.mem_reverse, mem_ready] at hx
      obtain ⟨h1, h2⟩ := hx
      cases x with
      | none => exact absurd h1 (hg.noRoot _)
      | some t =>
        obtain ⟨htU, hd⟩ := (hg.dependents t t0).mp h1
        refine ⟨t, htU, rfl, ?_⟩
        have hne : edges t ≠ [] := by intro e; rw [e] at hd; simp at hd
        rw [hg.deps t htU, if_neg hne] at h2
        exact fun d hd => h2 (some d) (List.mem_map_of_mem hd)
    · obtain ⟨t, h1, h2, h3⟩ := h.ready x (by simp [hx])
      exact ⟨t, h1, h2, fun d hd => hsub _ (h3 d hd)⟩
  · intro t ht hall
    by_cases hold : ∀ d ∈ edges t, some d ∈ flat
    · rcases h.complete t ht hold with e | e
      · exact Or.inl (hsub _ e)
      · rcases List.mem_cons.mp e with e | e
        · left; rw [mem_listAdd]; exact Or.inl e
        · right; exact List.mem_append_right _ e
    · right
      simp only [not_forall] at hold
      obtain ⟨d, hd, hnot⟩ := hold
      have hd0 : d = t0 := by
        have := hall d hd
        rw [mem_listAdd] at this
        rcases this with e | e
        · exact Option.some.inj e
        · exact absurd e hnot
      subst hd0
      refine List.mem_append_left _ ?_
      rw [List.mem_reverse, mem_ready]
      refine ⟨(hg.dependents t d).mpr ⟨ht, hd⟩, ?_⟩
      have hne : edges t ≠ [] := by intro e; rw [e] at hd; simp at hd
      rw [hg.deps t ht, if_neg hne]
      intro x hx
      obtain ⟨y, hy, rfl⟩ := List.mem_map.mp hx
      exact hall y hy
  · intro t ht
    rw [mem_listAdd] at ht
    rcases ht with e | ht
    · obtain rfl := Option.some.inj e
      exact Acc.intro _ fun d hd => h.acc d (hready d hd)
    · exact h.acc t ht

theorem finv_init (hg : GraphOK g U edges) :
    FInv U edges (pySorted nodeLe (g.dependents none)).reverse [] := by
  constructor
  · exact List.nodup_nil
  · simp
  · simp
  · intro n hn
    rw [List.mem_reverse, (pySorted_perm nodeLe _).mem_iff] at hn
    cases n with
    | none => exact absurd hn (hg.noRoot _)
    | some t =>
      obtain ⟨h1, h2⟩ := (hg.roots t).mp hn
      exact ⟨t, h1, rfl, by simp [h2]⟩
  · intro t ht hall
    right
    rw [List.mem_reverse, (pySorted_perm nodeLe _).mem_iff, hg.roots]
    refine ⟨ht, List.eq_nil_iff_forall_not_mem.mpr fun d hd => ?_⟩
    exact absurd (hall d hd) (by simp)
  · simp

theorem finv_result (hg : GraphOK g U edges) (fuel : Nat) (zeros flat r : List Node)
    (h : FInv U edges zeros flat) (hr : flattenLoop g fuel zeros flat = some r) :
    FInv U edges [] r := by
  induction fuel generalizing zeros flat with
  | zero =>
    cases zeros with
    | nil => simp only [flattenLoop, Option.some.injEq] at hr; exact hr ▸ h
    | cons n zs => simp [flattenLoop] at hr
  | succ fuel ih =>
    cases zeros with
    | nil => simp only [flattenLoop, Option.some.injEq] at hr; exact hr ▸ h
    | cons n zs =>
      rw [flattenLoop] at hr
      exact ih _ _ (finv_step hg h) hr

/-- The loop stops. -/
def FTerm (g : DepGraph) (zeros flat : List Node) : Prop :=
  ∃ N, ∀ fuel, N ≤ fuel → ∃ r, flattenLoop g fuel zeros flat = some r

theorem acc_irrefl {α : Type} {r : α → α → Prop} {a : α} (h : Acc r a) : ¬ r a a := by
  induction h with
  | intro x _ ih => intro hr; exact ih x hr hr

/-- The order in which names can be pushed: a name is below its dependents. -/
def Pushes (U : List Str) (edges : Str → List Str) (c n : {x // x ∈ U}) : Prop :=
  Acc (Needs edges) c.1 ∧ Relation.TransGen (Needs edges) n.1 c.1

theorem pushes_wf (U : List Str) (edges : Str → List Str) : WellFounded (Pushes U edges) := by
  have : Finite {x // x ∈ U} := List.finite_toSet U
  have h1 : IsTrans _ (Pushes U edges) :=
    ⟨fun a b c hab hbc => ⟨hab.1, hbc.2.trans hab.2⟩⟩
  have h2 : Std.Irrefl (Pushes U edges) := ⟨fun a ha => acc_irrefl (Acc.transGen ha.1) ha.2⟩
  exact Finite.wellFounded_of_trans_of_irrefl _

theorem fterm_list (hg : GraphOK g U edges) (cs zeros : List Node)
    (hcs : ∀ c ∈ cs, ∀ zs, (∀ flat, FInv U edges zs flat → FTerm g zs flat) →
      ∀ flat, FInv U edges (c :: zs) flat → FTerm g (c :: zs) flat)
    (hz : ∀ flat, FInv U edges zeros flat → FTerm g zeros flat) :
    ∀ flat, FInv U edges (cs ++ zeros) flat → FTerm g (cs ++ zeros) flat := by
  induction cs with
  | nil => exact hz
  | cons c cs ih =>
    intro flat hf
    exact hcs c (by simp) (cs ++ zeros) (ih fun x hx => hcs x (by simp [hx])) flat hf

theorem fterm_node (hg : GraphOK g U edges) (n : {x // x ∈ U}) :
    ∀ zs, (∀ flat, FInv U edges zs flat → FTerm g zs flat) →
      ∀ flat, FInv U edges (some n.1 :: zs) flat → FTerm g (some n.1 :: zs) flat := by
  induction n using (pushes_wf U edges).induction with
  | _ n ih =>
    intro zs hzs flat hf
    have hstep := finv_step hg hf
    have hc : ∀ c ∈ (readyDependents g (some n.1) (listAdd flat (some n.1))).reverse,
        ∀ zs, (∀ flat, FInv U edges zs flat → FTerm g zs flat) →
        ∀ flat, FInv U edges (c :: zs) flat → FTerm g (c :: zs) flat := by
      intro c hc
      obtain ⟨t, htU, rfl, hrd⟩ := hstep.ready c (List.mem_append_left _ hc)
      rw [List.mem_reverse, mem_ready] at hc
      have hd := ((hg.dependents t n.1).mp hc.1).2
      exact ih ⟨t, htU⟩ ⟨Acc.intro _ fun d hd => hstep.acc d (hrd d hd),
        Relation.TransGen.single hd⟩
    obtain ⟨N, hN⟩ := fterm_list hg _ zs hc hzs _ hstep
    refine ⟨N + 1, fun fuel hfuel => ?_⟩
    obtain ⟨k, rfl⟩ : ∃ k, fuel = k + 1 := ⟨fuel - 1, by omega⟩
    exact hN k (by omega)

theorem fterm (hg : GraphOK g U edges) (zeros flat : List Node)
    (h : FInv U edges zeros flat) : FTerm g zeros flat := by
  have := fterm_list hg zeros [] (by
    intro c hc zs hzs flat' hf
    obtain ⟨t, htU, rfl, -⟩ := hf.ready c (by simp)
    exact fterm_node hg ⟨t, htU⟩ zs hzs flat' hf)
    (fun flat _ => ⟨0, fun fuel _ => ⟨flat, by cases fuel <;> rfl⟩⟩) flat
  simpa using this (by simpa using h)

/-- `FlattenToList` terminates on every finite graph. -/
theorem flatten_terminates (hg : GraphOK g U edges) :
    ∃ N, ∀ fuel, N ≤ fuel → ∃ r, FlattenToList g fuel = some r :=
  fterm hg _ _ (finv_init hg)

theorem before_map_some {l : List Str} {a b : Str} (h : Before (l.map some) (some a) (some b)) :
    Before l a b := by
  obtain ⟨p, q, r, e⟩ := h
  obtain ⟨p', l1, rfl, hp, h1⟩ := List.map_eq_append_iff.mp e
  obtain ⟨a', l2, rfl, ha, h2⟩ := List.map_eq_cons_iff.mp h1
  obtain ⟨q', l3, rfl, hq, h3⟩ := List.map_eq_append_iff.mp h2
  obtain ⟨b', r', rfl, hb, h4⟩ := List.map_eq_cons_iff.mp h3
  rw [← Option.some.inj ha, ← Option.some.inj hb]
  exact ⟨p', q', r', rfl⟩

theorem names_of_flat {r : List Node} (h : ∀ n ∈ r, ∃ t ∈ U, n = some t) :
    r = (r.filterMap id).map some := by
  induction r with
  | nil => rfl
  | cons n r ih =>
    obtain ⟨t, -, rfl⟩ := h n (by simp)
    exact congrArg (some t :: ·) (ih fun x hx => h x (by simp [hx]))

/-- What a successful or partial flattening is. -/
theorem flatten_result (hg : GraphOK g U edges) (fuel : Nat) (r : List Node)
    (hr : FlattenToList g fuel = some r) :
    ∃ names : List Str, r = names.map some ∧ r.filterMap id = names ∧ names.Nodup ∧
      (∀ t ∈ names, t ∈ U) ∧ (∀ t ∈ names, ∀ d ∈ edges t, Before names d t) ∧
      (∀ t ∈ U, (∀ d ∈ edges t, d ∈ names) → t ∈ names) := by
  have h := finv_result hg fuel _ _ r (finv_init hg) hr
  have hn := names_of_flat h.named
  refine ⟨r.filterMap id, hn, rfl, ?_, ?_, ?_, ?_⟩
  · have := h.nodup
    rw [hn] at this
    exact this.of_map
  · intro t ht
    obtain ⟨u, hu, e⟩ := h.named (some t) (by rw [hn]; exact List.mem_map_of_mem ht)
    rw [Option.some.inj e]; exact hu
  · intro t ht d hd
    have := h.order t (by rw [hn]; exact List.mem_map_of_mem ht) d hd
    rw [hn] at this
    exact before_map_some this
  · intro t ht hall
    rcases h.complete t ht (fun d hd => by
      rw [hn]; exact List.mem_map_of_mem (hall d hd)) with e | e
    · rw [hn] at e
      obtain ⟨u, hu, e⟩ := List.mem_map.mp e
      rw [← Option.some.inj e]; exact hu
    · simp at e

/-- Everything is listed exactly when there is no cycle. -/
theorem flatten_all_iff (hg : GraphOK g U edges) (hU : U.Nodup) (fuel : Nat) (r : List Node)
    (hr : FlattenToList g fuel = some r) :
    r.length = U.length ↔ ∀ t ∈ U, ¬ OnCycle edges t := by
  obtain ⟨names, e1, -, hn, hsub, hord, hcomp⟩ := flatten_result hg fuel r hr
  have hlen : r.length = names.length := by rw [e1]; simp
  rw [hlen]
  constructor
  · intro hl t ht
    have hall : ∀ t ∈ U, t ∈ names := by
      by_contra hcon
      simp only [not_forall] at hcon
      obtain ⟨u, hu, hnu⟩ := hcon
      have hu' : (u :: names).Nodup := List.nodup_cons.mpr ⟨hnu, hn⟩
      have := nodup_length_le (U := U) hu' (by
        intro x hx
        rcases List.mem_cons.mp hx with rfl | hx
        · exact hu
        · exact hsub x hx)
      simp at this
      omega
    exact no_cycle_of_reverse_order hn hord t (hall t ht)
  · intro hac
    have hall : ∀ t ∈ U, t ∈ names := by
      by_contra hcon
      simp only [not_forall] at hcon
      obtain ⟨u, hu, hnu⟩ := hcon
      obtain ⟨x, hx, hc⟩ := exists_cycle (edges := edges) (S := U.filter (· ∉ names)) (by
          intro e
          have : u ∈ U.filter (· ∉ names) := List.mem_filter.mpr ⟨hu, by simpa using hnu⟩
          rw [e] at this; simp at this) (by
        intro x hx
        obtain ⟨hxU, hxn⟩ := List.mem_filter.mp hx
        have hxn : x ∉ names := by simpa using hxn
        by_contra hno
        apply hxn
        apply hcomp x hxU
        intro d hd
        by_contra hdn
        exact hno ⟨d, hd, List.mem_filter.mpr ⟨hg.closed x hxU d hd, by simpa using hdn⟩⟩)
      exact hac x (List.mem_filter.mp hx).1 hc
    exact Nat.le_antisymm (nodup_length_le hn hsub) (nodup_length_le hU hall)

end

/-! ### The graph built from the target table -/

/-- The dependency relation of a target table, as written. -/
def Targets.edges (ts : Targets) (t : Str) : List Str :=
  match ts.get? t with
  | none => []
  | some s => s.deps

/-- The names of the table. -/
def Targets.names (ts : Targets) : List Str := ts.map Prod.fst

theorem Targets.get?_eq_some {ts : Targets} (hn : ts.names.Nodup) (t : Str) (s : TSpec) :
    ts.get? t = some s ↔ (t, s) ∈ ts := by
  unfold Targets.get? Targets.names at *
  induction ts with
  | nil => simp
  | cons e ts ih =>
    obtain ⟨t', s'⟩ := e
    simp only [List.map_cons, List.nodup_cons] at hn
    rw [List.find?_cons]
    by_cases h : t' = t
    · subst h
      simp only [decide_true, Option.map_some, Option.some.injEq, List.mem_cons, Prod.mk.injEq,
        true_and]
      constructor
      · intro e; exact Or.inl e.symm
      · rintro (e | e)
        · exact e.symm
        · exact absurd (List.mem_map_of_mem (f := Prod.fst) e) hn.1
    · simp only [h, decide_false, List.mem_cons, Prod.mk.injEq]
      refine Iff.trans (ih hn.2) ⟨Or.inr, ?_⟩
      rintro (⟨e, -⟩ | e)
      · exact absurd e.symm h
      · exact e

theorem Targets.get?_isSome {ts : Targets} (t : Str) : (ts.get? t).isSome ↔ t ∈ ts.names := by
  unfold Targets.get? Targets.names
  rw [Option.isSome_map, List.find?_isSome]
  simp only [List.mem_map, decide_eq_true_eq]

theorem Targets.get?_none {ts : Targets} (t : Str) : ts.get? t = none ↔ t ∉ ts.names := by
  rw [← Targets.get?_isSome]
  cases ts.get? t <;> simp

/-- Links of the processed part of the table. -/
structure LInv (targets done : Targets) (g : DepGraph) : Prop where
  deps : ∀ e ∈ done, g.dependencies (some e.1) =
    if e.2.deps = [] then [none] else e.2.deps.map some
  todo : ∀ t, t ∉ done.names → g.dependencies (some t) = []
  dependents : ∀ n d, n ∈ g.dependents (some d) ↔ ∃ e ∈ done, n = some e.1 ∧ d ∈ e.2.deps
  roots : ∀ n, n ∈ g.dependents none ↔ ∃ e ∈ done, n = some e.1 ∧ e.2.deps = []
  known : ∀ e ∈ done, ∀ d ∈ e.2.deps, d ∈ targets.names

theorem link_loop (targets : Targets) (t : Str) (l : List Str) (g : DepGraph)
    (hl : ∀ d ∈ l, d ∈ targets.names) :
    ∃ g', l.foldlM (linkStep targets t) g = Except.ok g' ∧
      g'.dependencies (some t) = g.dependencies (some t) ++ l.map some ∧
      (∀ u, u ≠ some t → g'.dependencies u = g.dependencies u) ∧
      (∀ n d, n ∈ g'.dependents (some d) ↔ n ∈ g.dependents (some d) ∨ (n = some t ∧ d ∈ l)) ∧
      g'.dependents none = g.dependents none := by
  induction l generalizing g with
  | nil => exact ⟨g, rfl, by simp, fun _ _ => rfl, by simp, rfl⟩
  | cons d ds ih =>
    obtain ⟨s, hs⟩ := Option.isSome_iff_exists.mp
      ((Targets.get?_isSome (ts := targets) d).mpr (hl d (by simp)))
    obtain ⟨g', h1, h2, h3, h4, h5⟩ := ih (g.addEdge (some t) (some d))
      fun x hx => hl x (by simp [hx])
    refine ⟨g', ?_, ?_, ?_, ?_, ?_⟩
    · rw [List.foldlM_cons, linkStep, hs]
      exact h1
    · rw [h2]; simp [DepGraph.addEdge]
    · intro u hu
      rw [h3 u hu]; simp [DepGraph.addEdge, Function.update_of_ne hu]
    · intro n x
      rw [h4]
      simp only [DepGraph.addEdge, List.mem_cons]
      by_cases hx : x = d
      · subst hx
        simp only [Function.update_self, List.mem_append, List.mem_singleton]
        constructor
        · rintro ((e | e) | ⟨e1, e2⟩)
          · exact Or.inl e
          · exact Or.inr ⟨e, Or.inl trivial⟩
          · exact Or.inr ⟨e1, Or.inr e2⟩
        · rintro (e | ⟨e1, e2 | e2⟩)
          · exact Or.inl (Or.inl e)
          · exact Or.inl (Or.inr e1)
          · exact Or.inr ⟨e1, e2⟩
      · have hx' : (some x : Node) ≠ some d := fun e => hx (Option.some.inj e)
        rw [Function.update_of_ne hx']
        simp [hx]
    · rw [h5]
      simp [DepGraph.addEdge]

theorem link_loop_missing (targets : Targets) (t : Str) (l : List Str) (g : DepGraph)
    (hl : ∃ d ∈ l, d ∉ targets.names) :
    ∃ d ∈ l, d ∉ targets.names ∧ l.foldlM (linkStep targets t) g =
      Except.error (GraphErr.notFound d t) := by
  induction l generalizing g with
  | nil => simp at hl
  | cons d ds ih =>
    by_cases hd : d ∈ targets.names
    · obtain ⟨s, hs⟩ := Option.isSome_iff_exists.mp
        ((Targets.get?_isSome (ts := targets) d).mpr hd)
      obtain ⟨x, hx, hxn⟩ := hl
      have hx' : x ∈ ds := by
        rcases List.mem_cons.mp hx with rfl | h
        · exact absurd hd hxn
        · exact h
      obtain ⟨y, hy, hyn, e⟩ := ih (g.addEdge (some t) (some d)) ⟨x, hx', hxn⟩
      refine ⟨y, by simp [hy], hyn, ?_⟩
      rw [List.foldlM_cons, linkStep, hs]
      exact e
    · refine ⟨d, by simp, hd, ?_⟩
      rw [List.foldlM_cons, linkStep, (Targets.get?_none d).mpr hd]
      rfl

theorem linkTarget_ok (targets done : Targets) (e : Str × TSpec) (g : DepGraph)
    (h : LInv targets done g) (hnew : e.1 ∉ done.names)
    (hk : ∀ d ∈ e.2.deps, d ∈ targets.names) :
    ∃ g', linkTarget targets g e = .ok g' ∧ LInv targets (done ++ [e]) g' := by
  have hne : ∀ e' ∈ done, (some e'.1 : Node) ≠ some e.1 := by
    intro e' he' hc
    rw [Option.some.injEq] at hc
    exact hnew (hc ▸ List.mem_map_of_mem (f := Prod.fst) he')
  unfold linkTarget
  by_cases hd : e.2.deps = []
  · rw [if_pos hd]
    refine ⟨_, rfl, ?_, ?_, ?_, ?_, ?_⟩
    · intro e' he'
      rcases List.mem_append.mp he' with he' | he'
      · show Function.update g.dependencies _ _ _ = _
        rw [Function.update_of_ne (hne e' he')]; exact h.deps e' he'
      · rw [List.mem_singleton] at he'
        subst he'
        simp [hd]
    · intro t ht
      have ht' : t ∉ done.names ∧ t ≠ e.1 := by simpa [Targets.names] using ht
      show Function.update g.dependencies _ _ _ = _
      rw [Function.update_of_ne (by simpa using ht'.2)]
      exact h.todo t ht'.1
    · intro n d
      show n ∈ Function.update g.dependents none (g.dependents none ++ [some e.1]) (some d) ↔ _
      rw [Function.update_of_ne (by simp), h.dependents]
      simp only [List.mem_append, List.mem_singleton]
      constructor
      · rintro ⟨x, hx, h1, h2⟩; exact ⟨x, Or.inl hx, h1, h2⟩
      · rintro ⟨x, hx | rfl, h1, h2⟩
        · exact ⟨x, hx, h1, h2⟩
        · rw [hd] at h2; simp at h2
    · intro n
      show n ∈ Function.update g.dependents none (g.dependents none ++ [some e.1]) none ↔ _
      rw [Function.update_self, List.mem_append, h.roots, List.mem_singleton]
      simp only [List.mem_append, List.mem_singleton]
      constructor
      · rintro (⟨x, hx, h1, h2⟩ | h1)
        · exact ⟨x, Or.inl hx, h1, h2⟩
        · exact ⟨e, Or.inr rfl, h1, hd⟩
      · rintro ⟨x, hx | rfl, h1, h2⟩
        · exact Or.inl ⟨x, hx, h1, h2⟩
        · exact Or.inr h1
    · intro e' he' d hdm
      rcases List.mem_append.mp he' with he' | he'
      · exact h.known e' he' d hdm
      · rw [List.mem_singleton] at he'
        subst he'
        exact hk d hdm
  · rw [if_neg hd]
    obtain ⟨g', h1, h2, h3, h4, h5⟩ := link_loop targets e.1 e.2.deps g hk
    refine ⟨g', h1, ?_, ?_, ?_, ?_, ?_⟩
    · intro e' he'
      rcases List.mem_append.mp he' with he' | he'
      · rw [h3 _ (hne e' he')]; exact h.deps e' he'
      · rw [List.mem_singleton] at he'
        subst he'
        rw [h2, h.todo _ hnew, if_neg hd]; rfl
    · intro t ht
      have ht' : t ∉ done.names ∧ t ≠ e.1 := by simpa [Targets.names] using ht
      rw [h3 _ (by simpa using ht'.2)]
      exact h.todo t ht'.1
    · intro n d
      rw [h4, h.dependents]
      simp only [List.mem_append, List.mem_singleton]
      constructor
      · rintro (⟨x, hx, a, b⟩ | ⟨a, b⟩)
        · exact ⟨x, Or.inl hx, a, b⟩
        · exact ⟨e, Or.inr rfl, a, b⟩
      · rintro ⟨x, hx | rfl, a, b⟩
        · exact Or.inl ⟨x, hx, a, b⟩
        · exact Or.inr ⟨a, b⟩
    · intro n
      rw [h5, h.roots]
      simp only [List.mem_append, List.mem_singleton]
      constructor
      · rintro ⟨x, hx, a, b⟩; exact ⟨x, Or.inl hx, a, b⟩
      · rintro ⟨x, hx | rfl, a, b⟩
        · exact ⟨x, hx, a, b⟩
        · exact absurd b hd
    · intro e' he' d hdm
      rcases List.mem_append.mp he' with he' | he'
      · exact h.known e' he' d hdm
      · rw [List.mem_singleton] at he'
        subst he'
        exact hk d hdm

theorem linkTargets_ok (targets : Targets) (hn : targets.names.Nodup)
    (hk : ∀ e ∈ targets, ∀ d ∈ e.2.deps, d ∈ targets.names) :
    ∃ g, linkTargets targets = .ok g ∧ LInv targets targets g := by
  have : ∀ (todo done : Targets) (g : DepGraph), targets = done ++ todo → LInv targets done g →
      ∃ g', todo.foldlM (linkTarget targets) g = .ok g' ∧ LInv targets targets g' := by
    intro todo
    induction todo with
    | nil =>
      intro done g e h
      refine ⟨g, rfl, ?_⟩
      rw [List.append_nil] at e
      rw [← e] at h
      exact h
    | cons x xs ih =>
      intro done g e h
      have hx : x.1 ∉ done.names := by
        rw [e] at hn
        simp only [Targets.names, List.map_append, List.map_cons, List.nodup_append] at hn
        intro hm
        exact hn.2.2 x.1 hm x.1 (by simp) rfl
      obtain ⟨g1, e1, h1⟩ := linkTarget_ok targets done x g h hx
        (hk x (by rw [e]; simp))
      rw [List.foldlM_cons, e1]
      exact ih (done ++ [x]) g1 (by rw [e]; simp) h1
  refine this targets [] ⟨fun _ => [], fun _ => []⟩ rfl ⟨by simp, by simp, by simp, by simp, by simp⟩

theorem linkTargets_missing (targets : Targets)
    (hk : ∃ e ∈ targets, ∃ d ∈ e.2.deps, d ∉ targets.names) :
    ∃ e ∈ targets, ∃ d ∈ e.2.deps, d ∉ targets.names ∧
      linkTargets targets = .error (.notFound d e.1) := by
  have : ∀ (todo : Targets) (g : DepGraph), (∀ e ∈ todo, e ∈ targets) →
      (∃ e ∈ todo, ∃ d ∈ e.2.deps, d ∉ targets.names) →
      ∃ e ∈ targets, ∃ d ∈ e.2.deps, d ∉ targets.names ∧
        todo.foldlM (linkTarget targets) g = .error (.notFound d e.1) := by
    intro todo
    induction todo with
    | nil => intro g _ h; simp at h
    | cons x xs ih =>
      intro g hs h
      by_cases hx : ∃ d ∈ x.2.deps, d ∉ targets.names
      · have hne : x.2.deps ≠ [] := by
          obtain ⟨d, hd, -⟩ := hx
          intro e; rw [e] at hd; simp at hd
        obtain ⟨d, hd, hdn, e⟩ := link_loop_missing targets x.1 x.2.deps g hx
        refine ⟨x, hs x (by simp), d, hd, hdn, ?_⟩
        rw [List.foldlM_cons, linkTarget, if_neg hne, e]
        rfl
      · have hx' : ∀ d ∈ x.2.deps, d ∈ targets.names := by
          intro d hd
          by_contra hc
          exact hx ⟨d, hd, hc⟩
        obtain ⟨y, hy, d, hd, hdn⟩ := h
        have hy' : y ∈ xs := by
          rcases List.mem_cons.mp hy with rfl | h
          · exact absurd ⟨d, hd, hdn⟩ hx
          · exact h
        have hlt : ∃ g', linkTarget targets g x = .ok g' := by
          unfold linkTarget
          by_cases hd : x.2.deps = []
          · rw [if_pos hd]; exact ⟨_, rfl⟩
          · rw [if_neg hd]
            obtain ⟨g', h1, -⟩ := link_loop targets x.1 x.2.deps g hx'
            exact ⟨g', h1⟩
        obtain ⟨g', hg'⟩ := hlt
        obtain ⟨z, hz, d', h1, h2, h3⟩ := ih g' (fun e he => hs e (by simp [he]))
          ⟨y, hy', d, hd, hdn⟩
        refine ⟨z, hz, d', h1, h2, ?_⟩
        rw [List.foldlM_cons, hg']
        exact h3
  exact this targets _ (fun _ h => h) hk

theorem graphOK_of_linv {targets : Targets} {g : DepGraph} (hn : targets.names.Nodup)
    (h : LInv targets targets g) : GraphOK g targets.names targets.edges := by
  have hedge : ∀ e ∈ targets, targets.edges e.1 = e.2.deps := by
    intro e he
    unfold Targets.edges
    rw [(Targets.get?_eq_some hn e.1 e.2).mpr he]
  constructor
  · intro t ht
    obtain ⟨e, he, rfl⟩ := List.mem_map.mp ht
    rw [hedge e he]
    exact h.deps e he
  · intro t d
    rw [h.dependents]
    constructor
    · rintro ⟨e, he, e1, e2⟩
      obtain rfl := Option.some.inj e1
      exact ⟨List.mem_map_of_mem he, by rw [hedge e he]; exact e2⟩
    · rintro ⟨ht, hd⟩
      obtain ⟨e, he, rfl⟩ := List.mem_map.mp ht
      rw [hedge e he] at hd
      exact ⟨e, he, rfl, hd⟩
  · intro t
    rw [h.roots]
    constructor
    · rintro ⟨e, he, e1, e2⟩
      obtain rfl := Option.some.inj e1
      exact ⟨List.mem_map_of_mem he, by rw [hedge e he]; exact e2⟩
    · rintro ⟨ht, hd⟩
      obtain ⟨e, he, rfl⟩ := List.mem_map.mp ht
      rw [hedge e he] at hd
      exact ⟨e, he, rfl, hd⟩
  · intro n hn'
    cases n with
    | none =>
      obtain ⟨e, -, e1, -⟩ := (h.roots none).mp hn'
      cases e1
    | some d =>
      obtain ⟨e, -, e1, -⟩ := (h.dependents none d).mp hn'
      cases e1
  · intro t ht d hd
    obtain ⟨e, he, rfl⟩ := List.mem_map.mp ht
    rw [hedge e he] at hd
    exact h.known e he d hd

end Gyp
