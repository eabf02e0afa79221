import Verif.Props.DepSettings
/-
C19: adjusting the dependencies of static libraries and linked targets.
-/
namespace Gyp
open Spec

/-- The parts of a target that the adjustment never changes. -/
def TSpec.core (s : TSpec) : TSpec := { s with dependencies := none, original := none }

/-- Two tables that agree on everything but the dependency lists. -/
def SameCore (a b : Targets) : Prop :=
  ∀ n, (a.get? n).map TSpec.core = (b.get? n).map TSpec.core

theorem SameCore.cases {a b : Targets} (h : SameCore a b) (n : Str) :
    (a.get? n = none ∧ b.get? n = none) ∨
    ∃ x y, a.get? n = some x ∧ b.get? n = some y ∧ x.core = y.core := by
  have := h n
  cases ha : a.get? n <;> cases hb : b.get? n <;> simp_all

theorem core_fields {x y : TSpec} (h : x.core = y.core) :
    x.type = y.type ∧ x.exports = y.exports ∧ x.traverse = y.traverse ∧ x.hard = y.hard ∧
    x.propagate = y.propagate := by
  unfold TSpec.core at h
  simp only [TSpec.mk.injEq] at h
  exact ⟨h.1, h.2.2.1, h.2.2.2.1, h.2.2.2.2.1, h.2.2.2.2.2.1⟩

theorem importLoop_congr {a b : Targets} (h : SameCore a b) (fuel index : Nat) (deps : List Str) :
    importLoop a fuel index deps = importLoop b fuel index deps := by
  induction fuel generalizing index deps with
  | zero => rfl
  | succ fuel ih =>
    unfold importLoop
    cases hd : deps[index]? with
    | none => rfl
    | some d =>
      simp only
      rcases h.cases d with ⟨h1, h2⟩ | ⟨x, y, h1, h2, hc⟩
      · rw [h1, h2]
      · rw [h1, h2]
        simp only [(core_fields hc).2.1]
        exact ih _ _

theorem linkDeps_congr {a b : Targets} (h : SameCore a b) (g : DepGraph) (shared : Bool)
    (fuel : Nat) (initial : Bool) (deps : List Str) (n : Node) :
    linkDepsInternal a g shared fuel initial deps n =
      linkDepsInternal b g shared fuel initial deps n := by
  induction fuel generalizing initial deps n with
  | zero => cases n <;> rfl
  | succ fuel ih =>
    cases n with
    | none => rfl
    | some n =>
      have hfun : linkDepsInternal a g shared fuel false = linkDepsInternal b g shared fuel false := by
        funext x y; exact ih _ _ _
      unfold linkDepsInternal
      rcases h.cases n with ⟨h1, h2⟩ | ⟨x, y, h1, h2, hc⟩
      · rw [h1, h2]
      · rw [h1, h2]
        obtain ⟨c1, -, c3, -⟩ := core_fields hc
        simp only [c1, c3, hfun]

theorem filterStatic_congr {a b : Targets} (h : SameCore a b) (own l : List Str) :
    filterStatic a own l = filterStatic b own l := by
  induction l with
  | nil => rfl
  | cons d l ih =>
    unfold filterStatic
    rcases h.cases d with ⟨h1, h2⟩ | ⟨x, y, h1, h2, hc⟩
    · rw [h1, h2]
    · rw [h1, h2]
      obtain ⟨c1, -, -, c4, -⟩ := core_fields hc
      have hdrop : dropsFromStatic own d x = dropsFromStatic own d y := by
        simp only [dropsFromStatic, c1, c4]
      simp only [ih, hdrop]

theorem adjustTarget_congr {a b : Targets} (h : SameCore a b) (g : DepGraph) (fuel : Nat)
    (flat : List Str) (sort : Bool) (n : Str) (t : TSpec) :
    adjustTarget a g fuel flat sort n t = adjustTarget b g fuel flat sort n t := by
  unfold adjustTarget DirectAndImportedDependencies DependenciesToLinkAgainst
  simp only [importLoop_congr h, filterStatic_congr h, linkDeps_congr h]

theorem adjustTarget_core {a : Targets} {g : DepGraph} {fuel : Nat}
    {flat : List Str} {sort : Bool} {n : Str} {t t' : TSpec}
    (h : adjustTarget a g fuel flat sort n t = .ok t') : t'.core = t.core := by
  unfold adjustTarget at h
  by_cases h1 : t.type = c!"static_library"
  · rw [if_pos h1] at h
    cases hd : t.dependencies with
    | none => rw [hd] at h; simp only at h; rw [← Except.ok.inj h]
    | some own =>
      rw [hd] at h
      simp only [bind, Except.bind] at h
      split at h
      · cases h
      · split at h
        · cases h
        · rw [← Except.ok.inj h]; rfl
  · rw [if_neg h1] at h
    by_cases h2 : t.type ∈ linkableTypes
    · rw [if_pos h2] at h
      simp only [bind, Except.bind] at h
      split at h
      · cases h
      · rw [← Except.ok.inj h]; rfl
    · rw [if_neg h2] at h; rw [← Except.ok.inj h]

theorem set_get? (ts : Targets) (n m : Str) (t : TSpec) (hn : n ∈ ts.names) :
    (ts.set n t).get? m = if m = n then some t else ts.get? m := by
  unfold Targets.set Targets.get? Targets.names at *
  induction ts with
  | nil => simp at hn
  | cons e ts ih =>
    rw [List.map_cons, List.find?_cons, List.find?_cons]
    by_cases he : e.1 = n
    · rw [if_pos he]
      by_cases hm : m = n
      · simp [hm]
      · have : ¬ n = m := fun h => hm h.symm
        have h2 : ¬ e.1 = m := fun h => this (he ▸ h)
        simp only [this, h2, decide_false, if_neg hm]
        by_cases hmem : n ∈ ts.map Prod.fst
        · rw [ih hmem, if_neg hm]
        · have hid : (ts.map fun e => if e.1 = n then (n, t) else e) = ts := by
            refine (List.map_congr_left ?_).trans (List.map_id _)
            intro x hx
            rw [if_neg]
            · rfl
            · rintro rfl
              exact hmem (List.mem_map_of_mem hx)
          rw [hid]
    · rw [if_neg he]
      have hmem : n ∈ ts.map Prod.fst := by
        rcases List.mem_cons.mp hn with h | h
        · exact absurd h.symm he
        · exact h
      by_cases hem : e.1 = m
      · have : ¬ m = n := fun h => he (hem.trans h)
        simp [hem, this]
      · simp only [hem, decide_false]
        exact ih hmem

theorem set_names (ts : Targets) (n : Str) (t : TSpec) : (ts.set n t).names = ts.names := by
  unfold Targets.set Targets.names
  rw [List.map_map]
  apply List.map_congr_left
  intro e _
  simp only [Function.comp_apply]
  split
  · next h => exact h.symm
  · rfl

theorem filterStatic_ok (ts : Targets) (own l : List Str) (hk : ∀ d ∈ l, d ∈ ts.names) :
    ∃ r, filterStatic ts own l = .ok r ∧ r.Sublist l ∧
      ∀ d, d ∈ r ↔ d ∈ l ∧ ∃ s, ts.get? d = some s ∧ dropsFromStatic own d s = false := by
  induction l with
  | nil => exact ⟨[], rfl, by simp, by simp⟩
  | cons x l ih =>
    obtain ⟨r, e, h1, h2⟩ := ih fun d hd => hk d (by simp [hd])
    obtain ⟨s, hs⟩ := Option.isSome_iff_exists.mp ((Targets.get?_isSome (ts := ts) x).mpr
      (hk x (by simp)))
    unfold filterStatic
    rw [hs]
    simp only [e, bind, Except.bind]
    by_cases hd : dropsFromStatic own x s
    · refine ⟨r, by rw [if_pos hd], h1.cons _, ?_⟩
      intro d
      rw [h2 d, List.mem_cons]
      constructor
      · rintro ⟨a, b⟩; exact ⟨Or.inr a, b⟩
      · rintro ⟨rfl | a, s', b, c⟩
        · rw [hs] at b
          obtain rfl := Option.some.inj b
          rw [hd] at c; cases c
        · exact ⟨a, s', b, c⟩
    · refine ⟨x :: r, by rw [if_neg hd], h1.cons_cons _, ?_⟩
      intro d
      rw [List.mem_cons, h2 d, List.mem_cons]
      constructor
      · rintro (rfl | ⟨a, b⟩)
        · exact ⟨Or.inl rfl, s, hs, by simpa using hd⟩
        · exact ⟨Or.inr a, b⟩
      · rintro ⟨rfl | a, b⟩
        · exact Or.inl rfl
        · exact Or.inr ⟨a, b⟩

/-- A dependency that a static library has to be built after: a static library only if
it is declared hard, anything else only if it is a direct dependency. -/
def Targets.StaysBehind (ts : Targets) (own : List Str) (d : Str) : Prop :=
  ∃ s, (d, s) ∈ ts ∧ (s.type = c!"static_library" → s.hard = true) ∧
    (s.type ≠ c!"static_library" → d ∈ own)

/-- The dependencies of a linked target after the adjustment. -/
structure LinkedDeps (ts : Targets) (flat : List Str) (sort : Bool) (t : Str)
    (before after : List Str) : Prop where
  /-- all written dependencies and all link dependencies, and nothing else -/
  mem : ∀ d, d ∈ after ↔ d ∈ before ∨ (ts.LinkSet true t d ∧ d ≠ t)
  /-- written dependencies first and in their order -/
  plain : sort = false → ∃ new, after = before ++ new ∧ new.Nodup ∧ ∀ d ∈ new, d ∉ before
  /-- with sorting: each once, dependents before what they depend on -/
  sorted : sort = true → after.Nodup ∧ ∀ a b, a ∈ after → b ∈ after → ts.DependsOn a b →
    Before after a b

/-- The adjusted form of one target. -/
structure Adjusted (ts : Targets) (flat : List Str) (sort : Bool) (t : Str) (s s' : TSpec) :
    Prop where
  /-- nothing but the dependency lists changes -/
  core : s'.core = s.core
  /-- a static library records its original list and keeps what it must be built after -/
  static : s.type = c!"static_library" → ∀ own, s.dependencies = some own →
    s'.original = some own ∧ s'.deps.Nodup ∧ s'.dependencies ≠ some [] ∧
    ∀ d, d ∈ s'.deps ↔ ts.Imported t d ∧ ts.StaysBehind own d
  /-- a static library without a list is left alone -/
  staticNone : s.type = c!"static_library" → s.dependencies = none → s' = s
  linked : s.type ∈ linkedProducts → s'.original = s.original ∧
    LinkedDeps ts flat sort t s.deps s'.deps
  other : s.type ≠ c!"static_library" → s.type ∉ linkedProducts → s' = s

theorem link_fold (t : Str) (link : List Str) (hn : link.Nodup) (ds : Option (List Str)) :
    ∃ new, (link.foldl (fun (ds : Option (List Str)) dependency =>
        if dependency = t then ds
        else some (listAdd (ds.getD []) dependency)) ds).getD [] = ds.getD [] ++ new ∧
      new.Nodup ∧ (∀ d ∈ new, d ∉ ds.getD []) ∧
      (∀ d ∈ new, d ∈ link ∧ d ≠ t) ∧
      (∀ d ∈ link, d ≠ t → d ∈ ds.getD [] ++ new) ∧
      ((link.foldl (fun (ds : Option (List Str)) dependency =>
        if dependency = t then ds
        else some (listAdd (ds.getD []) dependency)) ds) = none → ds = none) := by
  induction link generalizing ds with
  | nil => exact ⟨[], by simp, by simp, by simp, by simp, by simp, fun h => h⟩
  | cons x link ih =>
    rw [List.foldl_cons]
    have hn' := List.nodup_cons.mp hn
    by_cases hx : x = t
    · rw [if_pos hx]
      obtain ⟨new, h1, h2, h3, h4, h5, h6⟩ := ih hn'.2 ds
      refine ⟨new, h1, h2, h3, fun d hd => ⟨List.mem_cons_of_mem _ (h4 d hd).1, (h4 d hd).2⟩, ?_, h6⟩
      intro d hd hdt
      rcases List.mem_cons.mp hd with rfl | hd
      · exact absurd hx hdt
      · exact h5 d hd hdt
    · rw [if_neg hx]
      obtain ⟨new, h1, h2, h3, h4, h5, h6⟩ := ih hn'.2 (some (listAdd (ds.getD []) x))
      simp only [Option.getD_some] at h1 h3 h5
      by_cases hm : x ∈ ds.getD []
      · rw [listAdd_of_mem hm] at h1 h3 h5
        refine ⟨new, ?_, h2, h3, fun d hd => ⟨List.mem_cons_of_mem _ (h4 d hd).1, (h4 d hd).2⟩,
          ?_, fun h => by cases h6 h⟩
        · rw [listAdd_of_mem hm]; exact h1
        · intro d hd hdt
          rcases List.mem_cons.mp hd with rfl | hd
          · exact List.mem_append_left _ hm
          · exact h5 d hd hdt
      · rw [listAdd_of_notMem hm] at h1 h3 h5
        refine ⟨x :: new, ?_, ?_, ?_, ?_, ?_, fun h => by cases h6 h⟩
        · rw [listAdd_of_notMem hm, h1]; simp
        · refine List.nodup_cons.mpr ⟨?_, h2⟩
          intro hxn
          exact hn'.1 (h4 x hxn).1
        · intro d hd
          rcases List.mem_cons.mp hd with rfl | hd
          · exact hm
          · intro hc
            exact h3 d hd (List.mem_append_left _ hc)
        · intro d hd
          rcases List.mem_cons.mp hd with rfl | hd
          · exact ⟨by simp, hx⟩
          · exact ⟨List.mem_cons_of_mem _ (h4 d hd).1, (h4 d hd).2⟩
        · intro d hd hdt
          rcases List.mem_cons.mp hd with rfl | hd
          · simp
          · have := h5 d hd hdt
            simpa using this

theorem before_filter {α : Type} {l : List α} {a b : α} (p : α → Bool) (h : Before l a b)
    (ha : p a) (hb : p b) : Before (l.filter p) a b := by
  obtain ⟨x, y, z, rfl⟩ := h
  refine ⟨x.filter p, y.filter p, z.filter p, ?_⟩
  simp [ha, hb]

theorem before_reverse {α : Type} {l : List α} {a b : α} (h : Before l a b) :
    Before l.reverse b a := by
  obtain ⟨x, y, z, rfl⟩ := h
  exact ⟨z.reverse, y.reverse, x.reverse, by simp⟩

theorem adjustTarget_spec (targets : Targets) (hn : targets.names.Nodup) (g : DepGraph)
    (flat : List Str) (h : Accepted targets g flat) (fuel : Nat) (hf : targets.length < fuel)
    (sort : Bool) (t : Str) (s : TSpec) (hs : (t, s) ∈ targets)
    (hk : ∀ d, targets.Imported t d → d ∈ targets.names) :
    ∃ s', adjustTarget targets g fuel flat sort t s = .ok s' ∧
      Adjusted targets flat sort t s s' := by
  have ht : t ∈ targets.names := List.mem_map_of_mem (f := Prod.fst) hs
  have hnl : c!"static_library" ∉ linkableTypes := by decide
  by_cases h1 : s.type = c!"static_library"
  · have hnot : s.type ∉ linkableTypes := by rw [h1]; exact hnl
    cases hd : s.dependencies with
    | none =>
      have e : adjustTarget targets g fuel flat sort t s = .ok s := by
        unfold adjustTarget; rw [if_pos h1, hd]
      refine ⟨s, e, rfl, ?_, fun _ _ => rfl, fun h => absurd h hnot, fun h => absurd h1 h⟩
      intro _ own ho; rw [hd] at ho; cases ho
    | some own =>
      rcases imported_outcome targets hn g flat h t ht fuel hf with
        ⟨l, l1, l2, l3, l4, -, -⟩ | ⟨x, -, x2, x3⟩
      · obtain ⟨r, r1, r2, r3⟩ := filterStatic_ok targets own l l4
        have e : adjustTarget targets g fuel flat sort t s = .ok { s with
            original := some own
            dependencies := if r = [] then none else some r } := by
          unfold adjustTarget
          rw [if_pos h1, hd]
          simp only [l1, bind, Except.bind, r1]
        have hdeps : ({ s with
            original := some own
            dependencies := if r = [] then none else some r } : TSpec).deps = r := by
          unfold TSpec.deps
          by_cases hr : r = []
          · simp [hr]
          · simp [hr]
        refine ⟨_, e, rfl, ?_, fun _ ho => ?_, fun h => absurd h hnot, fun h => absurd h1 h⟩
        · intro _ own' ho
          rw [hd] at ho
          obtain rfl := Option.some.inj ho
          rw [hdeps]
          refine ⟨rfl, l2.sublist r2, ?_, ?_⟩
          · by_cases hr : r = []
            · simp [hr]
            · simp [hr]
          · intro d
            rw [r3 d, l3 d]
            constructor
            · rintro ⟨a, sd, b, c⟩
              refine ⟨a, sd, (Targets.get?_eq_some hn d sd).mp b, ?_⟩
              unfold dropsFromStatic at c
              simp at c
              constructor
              · intro e; exact c.1 e
              · intro e; exact c.2 e
            · rintro ⟨a, sd, b, c, c'⟩
              refine ⟨a, sd, (Targets.get?_eq_some hn d sd).mpr b, ?_⟩
              unfold dropsFromStatic
              simp
              exact ⟨c, c'⟩
        · rw [hd] at ho; cases ho
      · exact absurd (hk x x2) x3
  · by_cases h2 : s.type ∈ linkableTypes
    · obtain ⟨l, l1, l2, l3⟩ := link_set targets hn g flat h true t s hs h2 fuel hf
      obtain ⟨new, n1, n2, n3, n4, n5, n6⟩ := link_fold t (t :: l) l2 s.dependencies
      have e : adjustTarget targets g fuel flat sort t s = .ok { s with
          dependencies := ((t :: l).foldl (fun (ds : Option (List Str)) dependency =>
            if dependency = t then ds
            else some (listAdd (ds.getD []) dependency)) s.dependencies).map fun ds =>
              if sort then flat.reverse.filter (· ∈ ds) else ds } := by
        unfold adjustTarget DependenciesToLinkAgainst
        rw [if_neg h1, if_pos h2, l1]
        rfl
      refine ⟨_, e, rfl, fun h => absurd h h1, fun h => absurd h h1, ?_, fun _ h => absurd h2 h⟩
      intro _
      refine ⟨rfl, ?_⟩
      -- the list before sorting
      generalize hF : (t :: l).foldl (fun (ds : Option (List Str)) dependency =>
            if dependency = t then ds
            else some (listAdd (ds.getD []) dependency)) s.dependencies = F at n1 n6
      have hdeps : ({ s with dependencies := F.map fun ds =>
            if sort then flat.reverse.filter (· ∈ ds) else ds } : TSpec).deps =
          if sort then flat.reverse.filter (· ∈ s.deps ++ new) else s.deps ++ new := by
        unfold TSpec.deps
        simp only
        rw [← n1]
        cases F with
        | none => simp
        | some ds => simp
      rw [hdeps]
      have hbefore : ∀ d, d ∈ s.deps ++ new ↔ d ∈ s.deps ∨ (targets.LinkSet true t d ∧ d ≠ t) := by
        intro d
        constructor
        · intro hd
          rcases List.mem_append.mp hd with hd | hd
          · exact Or.inl hd
          · exact Or.inr ⟨(l3 d).mp (n4 d hd).1, (n4 d hd).2⟩
        · rintro (hd | ⟨hd, hne⟩)
          · exact List.mem_append_left _ hd
          · exact n5 d ((l3 d).mpr hd) hne
      have hflat : ∀ d ∈ s.deps ++ new, d ∈ flat := by
        intro d hd
        rw [h.mem]
        rcases (hbefore d).mp hd with h1 | ⟨h1, h2⟩
        · apply h.edge_mem (t := t)
          rw [Targets.mem_edges hn]
          exact ⟨s, hs, h1⟩
        · cases h1 with
          | self => exact absurd rfl h2
          | dep _ _ hdep _ => exact h.edge_mem ((Targets.mem_edges hn _ _).mpr hdep)
      constructor
      · intro d
        rw [← hbefore d]
        by_cases hsort : sort
        · rw [if_pos hsort, List.mem_filter, List.mem_reverse]
          simp only [decide_eq_true_eq]
          exact ⟨fun h => h.2, fun h => ⟨hflat d h, h⟩⟩
        · rw [if_neg hsort]
      · intro hsort
        rw [if_neg (by simp [hsort])]
        exact ⟨new, rfl, n2, n3⟩
      · intro hsort
        rw [if_pos hsort]
        refine ⟨(List.nodup_reverse.mpr h.nodup).filter _, ?_⟩
        intro a b ha hb hab
        refine before_filter _ (before_reverse (h.order a b ((Targets.mem_edges hn a b).mpr hab))) ?_ ?_
        · exact (List.mem_filter.mp ha).2
        · exact (List.mem_filter.mp hb).2
    · refine ⟨s, ?_, rfl, fun h => absurd h h1, fun h => absurd h h1, fun h => absurd h h2,
        fun _ _ => rfl⟩
      unfold adjustTarget
      rw [if_neg h1, if_neg h2]

/-- One step of the loop over the flat list. -/
def adjustStep (g : DepGraph) (fuel : Nat) (flat : List Str) (sort : Bool) (ts : Targets)
    (name : Str) : Except GraphErr Targets :=
  match ts.get? name with
  | none => .error (.keyError name)
  | some t => do
    let t' ← adjustTarget ts g fuel flat sort name t
    .ok (ts.set name t')

/-- C19: the adjustment leaves each static library with its original list on record and
with exactly the dependencies it must be built after, and each linked target with every
library it links against; nothing else changes. -/
theorem C19_adjusted (targets : Targets) (hn : targets.names.Nodup) (fuel0 : Nat)
    (g : DepGraph) (flat : List Str) (hb : BuildDependencyList targets fuel0 = .ok (g, flat))
    (hk : ∀ t d, targets.Imported t d → d ∈ targets.names)
    (fuel : Nat) (hf : targets.length < fuel) (sort : Bool) :
    ∃ targets', AdjustStaticLibraryDependencies flat targets g fuel sort = .ok targets' ∧
      targets'.names = targets.names ∧
      ∀ t s, (t, s) ∈ targets → ∃ s', (t, s') ∈ targets' ∧ Adjusted targets flat sort t s s' := by
  have h := build_accepted hn hb
  -- the loop, with the part of the table that is done
  have loop : ∀ (todo : List Str) (ts : Targets), todo.Nodup → (∀ t ∈ todo, t ∈ targets.names) →
      ts.names = targets.names → SameCore ts targets →
      (∀ t ∈ todo, ts.get? t = targets.get? t) →
      ∃ ts', todo.foldlM (adjustStep g fuel flat sort) ts = .ok ts' ∧ ts'.names = targets.names ∧
        (∀ t, t ∉ todo → ts'.get? t = ts.get? t) ∧
        (∀ t ∈ todo, ∃ s s', targets.get? t = some s ∧ ts'.get? t = some s' ∧
          Adjusted targets flat sort t s s') := by
    intro todo
    induction todo with
    | nil => intro ts _ _ hnm _ _; exact ⟨ts, rfl, hnm, fun _ _ => rfl, by simp⟩
    | cons t todo ih =>
      intro ts hnd hmem hnm hcore hsame
      obtain ⟨hnt, hnd'⟩ := List.nodup_cons.mp hnd
      have htm := hmem t (by simp)
      obtain ⟨s, hs⟩ := Option.isSome_iff_exists.mp
        ((Targets.get?_isSome (ts := targets) t).mpr htm)
      have hts : ts.get? t = some s := by rw [hsame t (by simp), hs]
      obtain ⟨s', e, hadj⟩ := adjustTarget_spec targets hn g flat h fuel hf sort t s
        ((Targets.get?_eq_some hn t s).mp hs) (hk t)
      have hstep : adjustStep g fuel flat sort ts t = .ok (ts.set t s') := by
        unfold adjustStep
        rw [hts]
        simp only [adjustTarget_congr hcore, e, bind, Except.bind]
      have hset : ∀ m, (ts.set t s').get? m = if m = t then some s' else ts.get? m :=
        fun m => set_get? ts t m s' (by rw [hnm]; exact htm)
      obtain ⟨ts', e2, e3, e4, e5⟩ := ih (ts.set t s') hnd' (fun x hx => hmem x (by simp [hx]))
        (by rw [set_names, hnm]) (by
          intro m
          rw [hset m]
          by_cases hm : m = t
          · rw [if_pos hm, hm, hs]
            simp only [Option.map_some, Option.some.injEq]
            exact hadj.core
          · rw [if_neg hm]; exact hcore m) (by
          intro m hm
          have : m ≠ t := fun e => hnt (e ▸ hm)
          rw [hset m, if_neg this]
          exact hsame m (by simp [hm]))
      refine ⟨ts', ?_, e3, ?_, ?_⟩
      · rw [List.foldlM_cons, hstep]; exact e2
      · intro m hm
        have h1 : m ≠ t := fun e => hm (by simp [e])
        rw [e4 m (fun h => hm (by simp [h])), hset m, if_neg h1]
      · intro m hm
        rcases List.mem_cons.mp hm with rfl | hm
        · refine ⟨s, s', hs, ?_, hadj⟩
          rw [e4 m hnt, hset m, if_pos rfl]
        · exact e5 m hm
  obtain ⟨ts', e1, e2, -, e4⟩ := loop flat targets h.nodup (fun t ht => (h.mem t).mp ht) rfl
    (fun _ => rfl) (fun _ _ => rfl)
  refine ⟨ts', ?_, e2, ?_⟩
  · unfold AdjustStaticLibraryDependencies
    exact e1
  · intro t s hs
    have ht : t ∈ targets.names := List.mem_map_of_mem (f := Prod.fst) hs
    obtain ⟨s1, s', h1, h2, h3⟩ := e4 t ((h.mem t).mpr ht)
    rw [(Targets.get?_eq_some hn t s).mpr hs] at h1
    obtain rfl := Option.some.inj h1
    exact ⟨s', (Targets.get?_eq_some (by rw [e2]; exact hn) t s').mp h2, h3⟩

/-- The link example and a library with hard and soft dependencies. -/
example : ((BuildDependencyList linking 40).toOption.bind
    (fun r => (AdjustStaticLibraryDependencies r.2 linking r.1 11 false).toOption)).bind
    (fun ts => ts.get? c!"app" |>.map TSpec.deps) =
    some [c!"a", c!"tool", c!"grp", c!"stop", c!"b", c!"so", c!"c"] := by decide

def hardLib : Targets :=
  [(c!"lib", { type := c!"static_library", dependencies := some [c!"gen", c!"soft", c!"so"] }),
   (c!"gen", { type := c!"static_library", hard := true }),
   (c!"soft", { type := c!"static_library", dependencies := some [c!"deep", c!"so2"],
                exports := [c!"deep", c!"so2"] }),
   (c!"deep", { type := c!"static_library", hard := true }),
   (c!"so", { type := c!"shared_library" }),
   (c!"so2", { type := c!"shared_library" })]

example : hardLib.names.Nodup ∧ ((BuildDependencyList hardLib 40).toOption.bind
    (fun r => (AdjustStaticLibraryDependencies r.2 hardLib r.1 7 false).toOption)).bind
    (fun ts => ts.get? c!"lib" |>.map fun s => (s.deps, s.original)) =
    some ([c!"gen", c!"deep", c!"so"], some [c!"gen", c!"soft", c!"so"]) := by decide

end Gyp
