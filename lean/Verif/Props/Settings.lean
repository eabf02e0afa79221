import Verif.Model.Settings
import Verif.Spec.Settings
import Verif.Spec.Validate
import Verif.Props.Includes
import Verif.Props.DepSettings
/-
C69: settings for dependents reach the targets they are for.
-/
namespace Gyp
open Spec

/-- The settings of a kind that a target of the table has for others. -/
def settingsIn (table : Table) (key : Str) (d : Str) : Option Dict :=
  match (aget table d).bind (Dict.get? · key) with
  | some (.dict s) => some s
  | _ => none

/-- The settings that are read while settings are passed on, other than those passed on. -/
def structuralKeys : List Str :=
  [c!"type", c!"dependencies", c!"export_dependent_settings", c!"dependencies_traverse",
   c!"hard_dependency", c!"allow_sharedlib_linksettings_propagation"]

/-- Two tables with the same targets, whose dictionaries agree on the keys `W`. -/
def SameView (W : List Str) : Table → Table → Prop :=
  List.Forall₂ fun a b => a.1 = b.1 ∧ ∀ k ∈ W, a.2.get? k = b.2.get? k

theorem SameView.refl (W : List Str) (t : Table) : SameView W t t :=
  List.forall₂_same.mpr fun _ _ => ⟨rfl, fun _ _ => rfl⟩

theorem SameView.trans {W : List Str} {a b c : Table} (h : SameView W a b) (h' : SameView W b c) :
    SameView W a c := by
  induction h generalizing c with
  | nil => cases h'; exact .nil
  | cons e _ ih =>
    cases h' with
    | cons e' h' =>
      exact .cons ⟨e.1.trans e'.1, fun k hk => (e.2 k hk).trans (e'.2 k hk)⟩ (ih h')

theorem SameView.mono {W W' : List Str} {a b : Table} (hs : ∀ k ∈ W', k ∈ W)
    (h : SameView W a b) : SameView W' a b :=
  h.imp fun _ _ e => ⟨e.1, fun k hk => e.2 k (hs k hk)⟩

theorem SameView.get {W : List Str} {a b : Table} (h : SameView W a b) (x k : Str) (hk : k ∈ W) :
    (aget a x).bind (Dict.get? · k) = (aget b x).bind (Dict.get? · k) := by
  induction h with
  | nil => rfl
  | @cons p q _ _ e _ ih =>
    obtain ⟨n, d⟩ := p
    obtain ⟨m, d'⟩ := q
    obtain ⟨rfl, e2⟩ : n = m ∧ _ := e
    unfold aget
    by_cases hx : n = x
    · rw [if_pos hx, if_pos hx]
      exact e2 k hk
    · rw [if_neg hx, if_neg hx]; exact ih

theorem SameView.isSome {W : List Str} {a b : Table} (h : SameView W a b) (x : Str) :
    (aget a x).isSome = (aget b x).isSome := by
  induction h with
  | nil => rfl
  | @cons p q _ _ e _ ih =>
    obtain ⟨n, d⟩ := p
    obtain ⟨m, d'⟩ := q
    obtain ⟨rfl, e2⟩ : n = m ∧ _ := e
    unfold aget
    by_cases hx : n = x
    · rw [if_pos hx, if_pos hx]; rfl
    · rw [if_neg hx, if_neg hx]; exact ih

theorem SameView.aset {W : List Str} {a : Table} {x : Str} {d d' : Dict} (hx : aget a x = some d)
    (hd : ∀ k ∈ W, d'.get? k = d.get? k) : SameView W (aset a x d') a := by
  induction a with
  | nil => cases hx
  | cons p a ih =>
    obtain ⟨n, e⟩ := p
    unfold aget at hx
    unfold Gyp.aset
    by_cases h : n = x
    · rw [if_pos h] at hx ⊢
      cases hx
      exact .cons ⟨h.symm, hd⟩ (SameView.refl W a)
    · rw [if_neg h] at hx ⊢
      exact .cons ⟨rfl, fun _ _ => rfl⟩ (ih hx)

theorem specOf_congr {d d' : Dict} (h : ∀ k ∈ structuralKeys, d.get? k = d'.get? k) :
    specOf d = specOf d' := by
  unfold specOf depList flagOf
  rw [h c!"type" (by decide), h c!"dependencies" (by decide),
    h c!"export_dependent_settings" (by decide), h c!"dependencies_traverse" (by decide),
    h c!"hard_dependency" (by decide), h c!"allow_sharedlib_linksettings_propagation" (by decide)]

theorem SameView.specs {W : List Str} {a b : Table} (hW : ∀ k ∈ structuralKeys, k ∈ W)
    (h : SameView W a b) : specsOf a = specsOf b := by
  induction h with
  | nil => rfl
  | @cons p q _ _ e _ ih =>
    obtain ⟨n, d⟩ := p
    obtain ⟨m, d'⟩ := q
    obtain ⟨rfl, e2⟩ : n = m ∧ _ := e
    unfold specsOf
    rw [ih, specOf_congr fun k hk => e2 k (hW k hk)]

theorem SameView.settings {W : List Str} {a b : Table} (h : SameView W a b) {key : Str}
    (hk : key ∈ W) : settingsIn a key = settingsIn b key := by
  funext d
  unfold settingsIn
  rw [h.get d key hk]

theorem mergeSettings_result {cwd ps W : List Str} {key t : Str} (hk : key ∈ W)
    {deps : List Str} {tb tb' : Table} {own : Dict} (ht : aget tb t = some own)
    (hin : ∀ d s, settingsIn tb key d = some s → ∀ k ∈ W, Silent k s)
    (h : mergeSettings cwd ps key t deps tb = .ok tb') :
    ∃ own', aget tb' t = some own' ∧
      TakesOver cwd ps t (offered (settingsIn tb key) deps) own own' ∧
      (∀ x, x ≠ t → aget tb' x = aget tb x) ∧ SameView W tb' tb := by
  induction deps generalizing tb own with
  | nil => cases h; exact ⟨own, ht, .nil, fun _ _ => rfl, .refl _ _⟩
  | cons d rest ih =>
    unfold mergeSettings at h
    cases e : mergeSettingsOf cwd ps key t tb d with
    | error _ => rw [e] at h; cases h
    | ok tb1 =>
      rw [e] at h
      dsimp only at h
      unfold mergeSettingsOf at e
      cases hd : aget tb d with
      | none => rw [hd] at e; cases e
      | some dd =>
        rw [hd] at e
        dsimp only at e
        cases hs : Dict.get? dd key with
        | none =>
          rw [hs] at e
          cases e
          obtain ⟨own', h1, h2, h3, h4⟩ := ih ht hin h
          refine ⟨own', h1, ?_, h3, h4⟩
          unfold offered settingsIn
          rw [hd]
          simp only [Option.bind_some, hs]
          exact h2
        | some v =>
          rw [hs] at e
          cases v with
          | dict s =>
            dsimp only at e
            rw [ht] at e
            dsimp only at e
            cases hm : MergeDicts ⟨cwd, ps, (BuildFile t).getD [], (BuildFile d).getD []⟩ own s with
            | error _ => rw [hm] at e; cases e
            | ok own1 =>
              rw [hm] at e
              cases e
              have hset : settingsIn tb key d = some s := by
                unfold settingsIn
                rw [hd]
                simp only [Option.bind_some, hs]
              have hsil := hin d s hset
              have hview : SameView W (aset tb t own1) tb := SameView.aset ht fun k hkW =>
                C22_untouched _ _ _ _ hm k (hsil k hkW).1 (hsil k hkW).2
              have hsame := hview.settings hk
              obtain ⟨own', h1, h2, h3, h4⟩ := ih (tb := aset tb t own1) (own := own1)
                (by rw [aget_aset, if_pos rfl]) (by rw [hsame]; exact hin) h
              refine ⟨own', h1, ?_, ?_, h4.trans hview⟩
              · unfold offered
                rw [hset]
                rw [hsame] at h2
                exact .cons hm h2
              · intro x hx
                rw [h3 x hx, aget_aset, if_neg hx]
          | str s => cases e
          | int s => cases e
          | list s => cases e
          | other => cases e

/-- One round. -/
theorem round_result {cwd ps W : List Str} {key : Str} {g : DepGraph} {fuel : Nat}
    (hk : key ∈ W) (hW : ∀ k ∈ structuralKeys, k ∈ W) {flat : List Str} {tb tb' : Table}
    (hnd : flat.Nodup) {specs : Targets} (hspecs : specsOf tb = some specs)
    (hin : ∀ d s, settingsIn tb key d = some s → ∀ k ∈ W, Silent k s)
    (h : DoDependentSettings cwd ps key g fuel flat tb = .ok tb') :
    SameView W tb' tb ∧ (∀ x, x ∉ flat → aget tb' x = aget tb x) ∧
      ∀ t ∈ flat, ∃ own own' deps, aget tb t = some own ∧ aget tb' t = some own' ∧
        settingsFrom key specs g fuel t = .ok deps ∧
        TakesOver cwd ps t (offered (settingsIn tb key) deps) own own' := by
  induction flat generalizing tb with
  | nil => cases h; exact ⟨.refl _ _, fun _ _ => rfl, by simp⟩
  | cons t rest ih =>
    unfold DoDependentSettings at h
    rw [hspecs] at h
    cases ht : aget tb t with
    | none => rw [ht] at h; cases h
    | some own =>
      rw [ht] at h
      dsimp only at h
      cases e1 : settingsFrom key specs g fuel t with
      | error _ => rw [e1] at h; cases h
      | ok deps =>
        rw [e1] at h
        dsimp only at h
        cases e2 : mergeSettings cwd ps key t deps tb with
        | error _ => rw [e2] at h; cases h
        | ok tb1 =>
          rw [e2] at h
          dsimp only at h
          obtain ⟨own', h1, h2, h3, h4⟩ := mergeSettings_result hk ht hin e2
          obtain ⟨hnt, hnd'⟩ := List.nodup_cons.mp hnd
          have hsame := h4.settings hk
          obtain ⟨i1, i2, i3⟩ := ih hnd' ((h4.specs hW).trans hspecs) (by rw [hsame]; exact hin) h
          refine ⟨i1.trans h4, ?_, ?_⟩
          · intro x hx
            simp only [List.mem_cons, not_or] at hx
            rw [i2 x hx.2, h3 x hx.1]
          · intro x hx
            rcases List.mem_cons.mp hx with rfl | hx
            · exact ⟨own, own', deps, ht, by rw [i2 x hnt, h1], e1, h2⟩
            · obtain ⟨o, o', ds, j1, j2, j3, j4⟩ := i3 x hx
              have hne : x ≠ t := fun e => hnt (e ▸ hx)
              rw [h3 x hne] at j1
              rw [hsame] at j4
              exact ⟨o, o', ds, j1, j2, j3, j4⟩

theorem drop_get (key : Str) (flat : List Str) (tb : Table) (x : Str) :
    aget (dropSettings key flat tb) x =
      if x ∈ flat then (aget tb x).map (Dict.del · key) else aget tb x := by
  induction flat generalizing tb with
  | nil => simp [dropSettings]
  | cons t rest ih =>
    unfold dropSettings
    cases ht : aget tb t with
    | none =>
      dsimp only
      rw [ih]
      by_cases hx : x = t
      · subst hx
        simp [ht]
      · simp [hx]
    | some td =>
      dsimp only
      rw [ih, aget_aset]
      by_cases hx : x = t
      · subst hx
        simp only [if_true, ht, List.mem_cons, true_or, Option.map_some]
        by_cases hr : x ∈ rest
        · rw [if_pos hr]
          congr 1
          unfold Dict.del
          rw [List.filter_filter]
          simp
        · rw [if_neg hr]
      · simp [hx]

theorem drop_view {W : List Str} {key : Str} (hk : key ∉ W) (flat : List Str) (tb : Table) :
    SameView W (dropSettings key flat tb) tb := by
  induction flat generalizing tb with
  | nil => exact .refl _ _
  | cons t rest ih =>
    unfold dropSettings
    cases ht : aget tb t with
    | none => exact ih tb
    | some td =>
      refine (ih _).trans (SameView.aset ht fun k hkW => ?_)
      exact Dict.get?_del_ne _ fun e => hk (e ▸ hkW)

/-- The kinds of settings that are passed on. -/
def passedOn : List Str :=
  [c!"all_dependent_settings", c!"direct_dependent_settings", c!"link_settings"]

/-- No settings for others contain settings for others or change what the order of targets
depends on. -/
def PlainSettings (table : Table) : Prop :=
  ∀ key ∈ passedOn, ∀ d s, settingsIn table key d = some s →
    ∀ k ∈ passedOn ++ structuralKeys, Silent k s

theorem specs_get {table : Table} {specs : Targets} (h : specsOf table = some specs) (t : Str) :
    specs.get? t = (aget table t).bind specOf ∧ specs.names = akeys table := by
  induction table generalizing specs with
  | nil => cases h; exact ⟨rfl, rfl⟩
  | cons p rest ih =>
    obtain ⟨n, d⟩ := p
    unfold specsOf at h
    cases e1 : specOf d with
    | none => rw [e1] at h; cases h
    | some s =>
      rw [e1] at h
      cases e2 : specsOf rest with
      | none => rw [e2] at h; cases h
      | some l =>
        rw [e2] at h
        cases h
        obtain ⟨i1, i2⟩ := ih e2
        constructor
        · unfold Targets.get? aget
          rw [List.find?_cons]
          by_cases hn : n = t
          · simp [hn, e1]
          · simp only [hn, decide_false, if_false]
            exact i1
        · simp only [Targets.names, List.map_cons, akeys] at i2 ⊢
          rw [i2]

theorem mem_names_of_get {table : Table} {t : Str} {d : Dict} (h : aget table t = some d) :
    t ∈ akeys table := by
  induction table with
  | nil => cases h
  | cons p rest ih =>
    obtain ⟨n, e⟩ := p
    unfold aget at h
    by_cases hn : n = t
    · subst hn; simp [akeys]
    · rw [if_neg hn] at h
      have := ih h
      simp only [akeys, List.map_cons, List.mem_cons] at this ⊢
      exact Or.inr this

/-- A switch of a target: on or off as its value says, and as given when there is none. -/
def SwitchIs (d : Dict) (key : Str) (absent b : Bool) : Prop :=
  (d.get? key = none ∧ b = absent) ∨ ∃ v, d.get? key = some v ∧ (b = true ↔ True_ v)

/-- A list of names of a target; without one there are no names. -/
def NamesAre (d : Dict) (key : Str) (l : List Str) : Prop :=
  (d.get? key = none ∧ l = []) ∨ d.get? key = some (.list (l.map .str))

theorem flagOf_switch (d : Dict) (key : Str) (b : Bool) : SwitchIs d key b (flagOf d key b) := by
  unfold flagOf SwitchIs
  cases e : d.get? key with
  | none => exact Or.inl ⟨rfl, rfl⟩
  | some v =>
    refine Or.inr ⟨v, rfl, ?_⟩
    cases v <;> simp [Val.truthy, True_]

theorem mapStr_some {l : List Val} {names : List Str}
    (h : strList (.list l) = some names) : l = names.map .str := by
  have : ∀ (l : List Val) (names : List Str), strList (.list l) = some names →
      l = names.map .str := by
    intro l
    induction l with
    | nil => intro names h; simp [strList] at h; subst h; rfl
    | cons v l ih =>
      intro names h
      cases v with
      | str x =>
        simp only [strList, List.mapM_cons, Option.pure_def, Option.bind_eq_bind,
          Option.bind_some, Option.bind_eq_some_iff, Option.some.injEq] at h
        obtain ⟨r, hr, rfl⟩ := h
        rw [ih r hr]; rfl
      | _ => simp [strList, List.mapM_cons] at h
  exact this l names h

theorem depList_names {d : Dict} {key : Str} {o : Option (List Str)}
    (h : depList d key = .ok o) : NamesAre d key (o.getD []) := by
  unfold depList at h
  cases e : d.get? key with
  | none => rw [e] at h; injection h with h; subst h; exact Or.inl ⟨e, rfl⟩
  | some v =>
    rw [e] at h
    dsimp only at h
    cases e2 : strList v with
    | none => rw [e2] at h; cases h
    | some l =>
      rw [e2] at h; injection h with h; subst h
      refine Or.inr ?_
      rw [e]
      cases v with
      | list vs => rw [mapStr_some e2]; rfl
      | _ => simp [strList] at e2

/-- C69: what counts of a target: its type, its dependencies, the dependencies whose settings it
exports, whether what it depends on is looked through (unless it says otherwise, yes), whether
it has to be built first (no) and whether link settings of shared libraries go through it
(yes). -/
theorem C69_reads (d : Dict) (s : TSpec) (h : specOf d = some s) :
    d.get? c!"type" = some (.str s.type) ∧
    NamesAre d c!"dependencies" (s.dependencies.getD []) ∧
    NamesAre d c!"export_dependent_settings" s.exports ∧
    SwitchIs d c!"dependencies_traverse" true s.traverse ∧
    SwitchIs d c!"hard_dependency" false s.hard ∧
    SwitchIs d c!"allow_sharedlib_linksettings_propagation" true s.propagate := by
  unfold specOf at h
  cases e : d.get? c!"type" with
  | none => rw [e] at h; cases h
  | some v =>
    cases e1 : depList d c!"dependencies" with
    | error x => rw [e, e1] at h; cases v <;> cases h
    | ok deps =>
      cases e2 : depList d c!"export_dependent_settings" with
      | error x => rw [e, e1, e2] at h; cases v <;> cases h
      | ok exports =>
        rw [e, e1, e2] at h
        cases v with
        | str ty =>
          injection h with h; subst h
          exact ⟨rfl, depList_names e1, depList_names e2, flagOf_switch _ _ _,
            flagOf_switch _ _ _, flagOf_switch _ _ _⟩
        | _ => cases h

example : specOf [(c!"type", .str c!"shared_library"), (c!"dependencies", .list [.str c!"b.gyp:b#target"]),
    (c!"export_dependent_settings", .list [.str c!"b.gyp:b#target"]), (c!"hard_dependency", .int 1),
    (c!"dependencies_traverse", .int 0)] =
  some { type := c!"shared_library", dependencies := some [c!"b.gyp:b#target"],
         exports := [c!"b.gyp:b#target"], hard := true, traverse := false } := by decide

/-- C69: every target takes over, in this order, the settings for all dependents of everything
it depends on, the direct dependent settings of its direct dependencies and of what these
export, and the link settings of what is linked into it, in the order of the lists; afterwards
none of these settings are left. -/
theorem C69_passed_on (cwd ps : List Str) (table table' : Table) (specs : Targets)
    (hspecs : specsOf table = some specs) (hn : specs.names.Nodup) (fuel0 : Nat) (g : DepGraph)
    (flat : List Str) (hb : BuildDependencyList specs fuel0 = .ok (g, flat))
    (hplain : PlainSettings table) (fuel : Nat) (hf : specs.length < fuel)
    (h : publishSettings cwd ps g fuel flat table = .ok table')
    (t : Str) (own : Dict) (ht : aget table t = some own) :
    ∃ s deep direct link d1 d2 d3, specOf own = some s ∧
      (deep.Nodup ∧ (∀ d, d ∈ deep ↔ Relation.TransGen specs.DependsOn t d) ∧
        ∀ a ∈ deep, ∀ b, specs.DependsOn a b → Before deep b a) ∧
      (direct.Nodup ∧ ∀ d, d ∈ direct ↔ specs.Imported t d) ∧
      (s.type ∈ linkedProducts → link.Nodup ∧ ∀ d, d ∈ link ↔ specs.LinkSet s.propagate t d) ∧
      (s.type ∉ linkedProducts → link = []) ∧
      TakesOver cwd ps t (offered (settingsIn table c!"all_dependent_settings") deep) own d1 ∧
      TakesOver cwd ps t (offered (settingsIn table c!"direct_dependent_settings") direct)
        (d1.del c!"all_dependent_settings") d2 ∧
      TakesOver cwd ps t (offered (settingsIn table c!"link_settings") link)
        (d2.del c!"direct_dependent_settings") d3 ∧
      aget table' t = some (d3.del c!"link_settings") := by
  obtain ⟨hget, hnames⟩ := specs_get hspecs t
  have htn : t ∈ specs.names := hnames ▸ mem_names_of_get ht
  obtain ⟨hfnd, hfm, -⟩ := C10_order specs hn fuel0 g flat hb
  have htf : t ∈ flat := (hfm t).mpr htn
  rw [ht] at hget
  obtain ⟨s, hs⟩ := Option.isSome_iff_exists.mp ((Targets.get?_isSome (ts := specs) t).mpr htn)
  rw [hs] at hget
  have hsm : (t, s) ∈ specs := (Targets.get?_eq_some hn t s).mp hs
  unfold publishSettings publishRounds at h
  cases e1 : DoDependentSettings cwd ps c!"all_dependent_settings" g fuel flat table with
  | error _ => rw [e1] at h; cases h
  | ok a =>
  rw [e1] at h
  dsimp only at h
  unfold publishRounds at h
  cases e2 : DoDependentSettings cwd ps c!"direct_dependent_settings" g fuel flat
      (dropSettings c!"all_dependent_settings" flat a) with
  | error _ => rw [e2] at h; cases h
  | ok b =>
  rw [e2] at h
  dsimp only at h
  unfold publishRounds at h
  cases e3 : DoDependentSettings cwd ps c!"link_settings" g fuel flat
      (dropSettings c!"direct_dependent_settings" flat b) with
  | error _ => rw [e3] at h; cases h
  | ok c =>
  rw [e3] at h
  dsimp only at h
  unfold publishRounds at h
  cases h
  obtain ⟨v1, -, r1⟩ := round_result (W := passedOn ++ structuralKeys) (by decide)
    (fun k hk => List.mem_append_right _ hk) hfnd hspecs (hplain _ (by decide)) e1
  have w1 : SameView ([c!"direct_dependent_settings", c!"link_settings"] ++ structuralKeys)
      (dropSettings c!"all_dependent_settings" flat a) table :=
    (drop_view (by decide) flat a).trans (v1.mono (by decide))
  have f1 := w1.settings (key := c!"direct_dependent_settings") (by decide)
  have f1' := w1.settings (key := c!"link_settings") (by decide)
  obtain ⟨v2, -, r2⟩ := round_result
    (W := [c!"direct_dependent_settings", c!"link_settings"] ++ structuralKeys) (by decide)
    (fun k hk => List.mem_append_right _ hk) hfnd
    ((w1.specs fun k hk => List.mem_append_right _ hk).trans hspecs)
    (by
      rw [f1]
      intro d s hd k hk
      refine hplain c!"direct_dependent_settings" (by decide) d s hd k ?_
      revert k; decide) e2
  have w2 : SameView ([c!"link_settings"] ++ structuralKeys)
      (dropSettings c!"direct_dependent_settings" flat b)
      (dropSettings c!"all_dependent_settings" flat a) :=
    (drop_view (by decide) flat b).trans (v2.mono (by decide))
  have w3 := w2.trans (w1.mono (by decide))
  have f2 := w3.settings (key := c!"link_settings") (by decide)
  obtain ⟨-, -, r3⟩ := round_result (W := [c!"link_settings"] ++ structuralKeys) (by decide)
    (fun k hk => List.mem_append_right _ hk) hfnd
    ((w3.specs fun k hk => List.mem_append_right _ hk).trans hspecs)
    (by
      rw [f2]
      intro d s hd k hk
      refine hplain c!"link_settings" (by decide) d s hd k ?_
      revert k; decide) e3
  obtain ⟨o1, d1, deep, a1, a2, a3, a4⟩ := r1 t htf
  obtain ⟨o2, d2, direct, b1, b2, b3, b4⟩ := r2 t htf
  obtain ⟨o3, d3, link, c1, c2, c3, c4⟩ := r3 t htf
  rw [ht] at a1; cases a1
  rw [drop_get, if_pos htf, a2] at b1; cases b1
  rw [drop_get, if_pos htf, b2] at c1; cases c1
  rw [f1] at b4
  rw [f2] at c4
  refine ⟨s, deep, direct, link, d1, d2, d3, hget.symm, ?_, ?_, ?_, ?_, a4, b4, c4, ?_⟩
  · obtain ⟨l, h1, h2, h3, h4⟩ := C13_deep_dependencies specs hn fuel0 g flat hb t htn fuel
      (Nat.le_of_lt hf)
    unfold settingsFrom at a3
    rw [if_pos rfl, h1] at a3
    cases a3
    exact ⟨h2, h3, h4⟩
  · unfold settingsFrom at b3
    rw [if_neg (by decide), if_pos rfl] at b3
    have hk : ∀ d, specs.Imported t d → d ∈ specs.names := by
      intro d hd
      by_contra hdn
      obtain ⟨x, hx, -⟩ := C14_unknown_export specs hn fuel0 g flat hb t htn fuel hf d hd hdn
      rw [hx] at b3
      cases b3
    obtain ⟨l, h1, h2, h3, -⟩ := C14_direct_and_imported specs hn fuel0 g flat hb t htn fuel hf hk
    rw [h1] at b3
    cases b3
    exact ⟨h2, h3⟩
  · intro hl
    unfold settingsFrom at c3
    rw [if_neg (by decide), if_neg (by decide), if_pos rfl] at c3
    obtain ⟨l, h1, h2, h3⟩ := C15_link_settings specs hn fuel0 g flat hb t s hsm hl fuel hf
    rw [h1] at c3
    cases c3
    exact ⟨h2, h3⟩
  · intro hl
    unfold settingsFrom at c3
    rw [if_neg (by decide), if_neg (by decide), if_pos rfl,
      (C15_not_linkable specs hn g t s hsm hl fuel (by omega)).2] at c3
    cases c3
    rfl
  · rw [drop_get, if_pos htf, c2]
    rfl

theorem takesOver_silent {cwd ps : List Str} {t : Str} {offers : List (Str × Dict)} {d d' : Dict}
    (h : TakesOver cwd ps t offers d d') (k : Str) (hs : ∀ o ∈ offers, Silent k o.2) :
    d'.get? k = d.get? k := by
  induction h with
  | nil => rfl
  | cons hm _ ih =>
    obtain ⟨h1, h2⟩ := hs _ (List.mem_cons_self ..)
    rw [ih fun o ho => hs o (List.mem_cons_of_mem _ ho), C22_untouched _ _ _ _ hm k h1 h2]

theorem takesOver_append {cwd ps : List Str} {t : Str} {a b : List (Str × Dict)} {d d' : Dict} :
    TakesOver cwd ps t (a ++ b) d d' ↔ ∃ m, TakesOver cwd ps t a d m ∧ TakesOver cwd ps t b m d' := by
  induction a generalizing d with
  | nil => exact ⟨fun h => ⟨d, .nil, h⟩, by rintro ⟨m, h1, h2⟩; cases h1; exact h2⟩
  | cons x a ih =>
    constructor
    · intro h
      cases h with
      | cons hm h =>
        obtain ⟨m, h1, h2⟩ := ih.mp h
        exact ⟨m, .cons hm h1, h2⟩
    · rintro ⟨m, h1, h2⟩
      cases h1 with
      | cons hm h1 => exact .cons hm (ih.mpr ⟨m, h1, h2⟩)

/-- C69: what is offered wins over what the target has itself, and the last offer wins; a path
is adjusted to the file of the target. -/
theorem C69_last_offer (cwd ps : List Str) (t : Str) (before after : List (Str × Dict))
    (source : Str) (x d d' : Dict)
    (h : TakesOver cwd ps t (before ++ (source, x) :: after) d d') (hn : x.keys.Nodup)
    (k s : Str) (hk : (k, .str s) ∈ x) (hs : ∀ o ∈ after, Silent k o.2) :
    d'.get? k = some (.str (if IsPathSection ps k then
      MakePathRelative ⟨cwd, ps, (BuildFile t).getD [], (BuildFile source).getD []⟩ s else s)) := by
  obtain ⟨m, -, h2⟩ := takesOver_append.mp h
  cases h2 with
  | cons hm h3 =>
    rw [takesOver_silent h3 k hs, (C22_scalar _ _ _ _ hn hm k (.str s) rfl hk).1]
    rfl

/-- C69: what nobody offers is left alone. -/
theorem C69_not_offered (cwd ps : List Str) (t : Str) (offers : List (Str × Dict)) (d d' : Dict)
    (h : TakesOver cwd ps t offers d d') (k : Str) (hs : ∀ o ∈ offers, Silent k o.2) :
    d'.get? k = d.get? k := takesOver_silent h k hs

/-- A list of texts under a key; an absent key counts as the empty list. -/
def TextsAt (d : Dict) (k : Str) (l : List Str) : Prop :=
  d.get? k = some (.list (l.map .str)) ∨ d.get? k = none ∧ l = []

theorem map_str_inj {a b : List Str} (h : a.map Val.str = b.map Val.str) : a = b :=
  List.map_injective_iff.mpr (fun _ _ e => by cases e; rfl) h

/-- C69: lists of texts (such as `defines`) are extended by exactly the offered texts; what the
target had itself stays in front. -/
theorem C69_lists (cwd ps : List Str) (t : Str) (offers : List (Str × Dict)) (d d' : Dict)
    (h : TakesOver cwd ps t offers d d') (k : Str) (hp : IsPathSection ps k = false)
    (hplain : ∀ b, k ≠ b ++ c!"=" ∧ k ≠ b ++ c!"+" ∧ k ≠ b ++ c!"?") (own : List Str)
    (hown : TextsAt d k own)
    (ho : ∀ o ∈ offers, o.2.keys.Nodup ∧ (Silent k o.2 ∨
      k ++ c!"+" ∉ o.2.keys ∧ ∃ l : List Str, (k, .list (l.map .str)) ∈ o.2)) :
    ∃ all, TextsAt d' k all ∧ own <+: all ∧
      ∀ x, x ∈ all ↔ x ∈ own ∨ ∃ o ∈ offers, ∃ l : List Str, (k, .list (l.map .str)) ∈ o.2 ∧ x ∈ l := by
  induction h generalizing own with
  | nil => exact ⟨own, hown, List.prefix_rfl, by simp⟩
  | @cons source y rest d d1 d2 hm _ ih =>
    obtain ⟨hnd, hy⟩ := ho _ (List.mem_cons_self ..)
    have hrest := fun o ho' => ho o (List.mem_cons_of_mem _ ho')
    rcases hy with hy | ⟨hplus, l, hl⟩
    · have hsame := C22_untouched _ _ _ _ hm k hy.1 hy.2
      have hown' : TextsAt d1 k own := by unfold TextsAt at hown ⊢; rw [hsame]; exact hown
      obtain ⟨all, h1, h2, h3⟩ := ih own hown' hrest
      refine ⟨all, h1, h2, fun x => ?_⟩
      rw [h3]
      constructor
      · rintro (hx | ⟨o, ho', hx⟩)
        · exact Or.inl hx
        · exact Or.inr ⟨o, List.mem_cons_of_mem _ ho', hx⟩
      · rintro (hx | ⟨o, ho', l, hx, hxl⟩)
        · exact Or.inl hx
        · rcases List.mem_cons.mp ho' with rfl | ho'
          · exact absurd (List.mem_map_of_mem (f := Prod.fst) hx) hy.1
          · exact Or.inr ⟨o, ho', l, hx, hxl⟩
    · obtain ⟨old, new, hold, hmerge, hnew⟩ := C22_append _ _ _ _ hnd hm k _ hl hplain hplus
      have hp' : IsPathSection ps k = false := hp
      dsimp only at hmerge
      rw [hp'] at hmerge
      have hold' : old = own.map .str := by
        rcases hown with hown | ⟨hown, rfl⟩
        · rcases hold with ⟨e, -⟩ | e
          · rw [hown] at e; cases e
          · rw [hown] at e; cases e; rfl
        · rcases hold with ⟨-, rfl⟩ | e
          · rfl
          · rw [hown] at e; cases e
      subst hold'
      obtain ⟨added, e1, e2, e3, -⟩ := C20_strings
        ⟨cwd, ps, (BuildFile t).getD [], (BuildFile source).getD []⟩ (own.map .str) l
      rw [e1] at hmerge
      cases hmerge
      have hown' : TextsAt d1 k (own ++ added) := Or.inl (by rw [hnew, List.map_append])
      obtain ⟨all, h1, h2, h3⟩ := ih _ hown' hrest
      refine ⟨all, h1, (List.prefix_append _ _).trans h2, fun x => ?_⟩
      have huniq : ∀ l' : List Str, (k, Val.list (l'.map .str)) ∈ y → l' = l := by
        intro l' hl'
        have := Dict.get?_of_mem hnd hl'
        rw [Dict.get?_of_mem hnd hl] at this
        exact (map_str_inj (Val.list.inj (Option.some.inj this))).symm
      rw [h3, List.mem_append]
      constructor
      · rintro ((hx | hx) | ⟨o, ho', hx⟩)
        · exact Or.inl hx
        · exact Or.inr ⟨_, List.mem_cons_self .., l, hl, e2.subset hx⟩
        · exact Or.inr ⟨o, List.mem_cons_of_mem _ ho', hx⟩
      · rintro (hx | ⟨o, ho', l', hx, hxl⟩)
        · exact Or.inl (Or.inl hx)
        · rcases List.mem_cons.mp ho' with rfl | ho'
          · rw [huniq l' hx] at hxl
            rcases e3 x hxl with h | h
            · obtain ⟨z, hz, e⟩ := List.mem_map.mp h
              cases e
              exact Or.inl (Or.inl hz)
            · exact Or.inl (Or.inr h)
          · exact Or.inr ⟨o, ho', l', hx, hxl⟩

/-! ### A sample -/

/-- `app` depends on `lib`, which depends on `base`; `base` has settings for all dependents,
`lib` for direct ones and for whatever links it. -/
def settingsTable : Table :=
  [(c!"a.gyp:app#target", [(c!"type", .str c!"executable"), (c!"target_name", .str c!"app"),
      (c!"defines", .list [.str c!"APP"]),
      (c!"dependencies", .list [.str c!"d/b.gyp:lib#target"])]),
   (c!"d/b.gyp:lib#target", [(c!"type", .str c!"static_library"),
      (c!"dependencies", .list [.str c!"d/b.gyp:base#target"]),
      (c!"direct_dependent_settings", .dict [(c!"include_dirs", .list [.str c!"inc"])]),
      (c!"link_settings", .dict [(c!"libraries", .list [.str c!"-lm"])])]),
   (c!"d/b.gyp:base#target", [(c!"type", .str c!"none"),
      (c!"all_dependent_settings", .dict [(c!"defines", .list [.str c!"BASE", .str c!"APP"])])])]

def sampleRun : Except SetErr Table :=
  match specsOf settingsTable with
  | none => .error .malformed
  | some specs =>
    match BuildDependencyList specs 20 with
    | .error e => .error (.graph e)
    | .ok (g, flat) => publishSettings [c!"w"] basePathSections g 20 flat settingsTable

def strsAt (table : Table) (t k : Str) : Option (List Str) :=
  (aget table t).bind fun d => (d.get? k).bind strList

example : okAnd sampleRun (fun r =>
    strsAt r c!"a.gyp:app#target" c!"defines" == some [c!"APP", c!"BASE"] &&
    strsAt r c!"a.gyp:app#target" c!"include_dirs" == some [c!"d/inc"] &&
    strsAt r c!"a.gyp:app#target" c!"libraries" == some [c!"-lm"] &&
    strsAt r c!"d/b.gyp:lib#target" c!"defines" == some [c!"BASE", c!"APP"] &&
    strsAt r c!"d/b.gyp:lib#target" c!"include_dirs" == none) = true := by
  decide +kernel

example : PlainSettings settingsTable := by
  have key : ∀ (k : Str) (y : Dict), k ∉ y.keys → k ++ c!"=" ∉ y.keys → k ++ c!"+" ∉ y.keys →
      k ++ c!"?" ∉ y.keys → Silent k y := by
    intro k y h1 h2 h3 h4
    exact ⟨h1, fun l => ⟨fun h => h2 (List.mem_map_of_mem (f := Prod.fst) h),
      fun h => h3 (List.mem_map_of_mem (f := Prod.fst) h),
      fun h => h4 (List.mem_map_of_mem (f := Prod.fst) h)⟩⟩
  intro kind hkind d s hs k hk
  have hd : d ∈ akeys settingsTable := by
    unfold settingsIn at hs
    cases e : aget settingsTable d with
    | none => rw [e] at hs; cases hs
    | some x => exact mem_names_of_get e
  revert hk
  simp only [akeys, settingsTable, List.map_cons, List.map_nil, List.mem_cons, List.not_mem_nil,
    or_false, passedOn] at hd hkind
  rcases hd with rfl | rfl | rfl <;> rcases hkind with rfl | rfl | rfl <;>
    simp [settingsIn, aget, settingsTable, Dict.get?] at hs <;> subst hs <;>
    intro hk <;> apply key <;> revert k <;> decide

end Gyp
