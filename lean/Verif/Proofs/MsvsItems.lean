import Verif.Proofs.MsvsSources
/-
Lemmas about the items of Visual Studio projects.
-/
namespace Gyp
open Spec

/-- The generator stops at the source. -/
def Blocked (e : SourceEnv) (s : Str) : Prop :=
  s ∉ e.handled ∧ ((aget e.exclusions s).getD []).length ≠ e.configurations.length ∧
    (aget e.exclusions s).getD [] ≠ []

theorem addWinSource_none (e : SourceEnv) (exts : List Str) (s : Str) :
    addWinSource e exts s = none ↔ Blocked e s := by
  unfold addWinSource Blocked
  by_cases h1 : s ∈ e.handled
  · simp [h1]
  · rw [if_neg h1]
    simp only [Option.map_eq_none_iff]
    by_cases h2 : ((aget e.exclusions s).getD []).length = e.configurations.length
    · simp [h2]
    · rw [if_neg h2]
      by_cases h3 : (aget e.exclusions s).getD [] = []
      · simp [h3]
      · simp [h1, h2, h3]

theorem addWinSources_file (e : SourceEnv) (exts : List Str) (s : Str) (rest : List WinTree) :
    addWinSources e exts (.file s :: rest) = match addWinSource e exts s with
      | none => none
      | some (exts', items) => (addWinSources e exts' rest).map (items ++ ·) := by
  rw [addWinSources]
  rfl

theorem addWinSources_folder (e : SourceEnv) (exts : List Str) (n : Str) (cs rest : List WinTree) :
    addWinSources e exts (.folder n cs :: rest) = match addWinSources e [] cs with
      | none => none
      | some items => (addWinSources e exts rest).map (items ++ ·) := by
  rw [addWinSources]
  rfl

/-- The generator stops iff it stops at one of the sources. -/
theorem addWinSources_none (e : SourceEnv) (exts : List Str) (ts : List WinTree) :
    addWinSources e exts ts = none ↔ ∃ p ∈ treePaths ts, Blocked e p.2 := by
  induction ts using treePaths.induct generalizing exts with
  | case1 => simp [addWinSources, treePaths_nil]
  | case2 s rest ih =>
    rw [addWinSources_file, treePaths_file]
    rcases h : addWinSource e exts s with _ | ⟨x, items⟩
    · have := (addWinSource_none e exts s).mp h
      simp [this]
    · have : ¬ Blocked e s := fun hb => by
        rw [(addWinSource_none e exts s).mpr hb] at h
        cases h
      simp only [Option.map_eq_none_iff, List.mem_cons, or_and_right, exists_or, exists_eq_left, this,
        false_or]
      exact ih x
  | case3 n cs rest ih1 ih2 =>
    rw [addWinSources_folder, treePaths_folder]
    rcases h : addWinSources e [] cs with _ | items
    · obtain ⟨p, hp, hb⟩ := (ih1 []).mp h
      simp only [true_iff]
      exact ⟨(n :: p.1, p.2), List.mem_append_left _ (List.mem_map.mpr ⟨p, hp, rfl⟩), hb⟩
    · have hno : ¬ ∃ p ∈ treePaths cs, Blocked e p.2 := fun hb => by
        rw [(ih1 []).mpr hb] at h
        cases h
      simp only [Option.map_eq_none_iff]
      rw [ih2 exts]
      constructor
      · rintro ⟨p, hp, hb⟩
        exact ⟨p, List.mem_append_right _ hp, hb⟩
      · rintro ⟨p, hp, hb⟩
        rcases List.mem_append.mp hp with hp | hp
        · obtain ⟨q, hq, rfl⟩ := List.mem_map.mp hp
          exact absurd ⟨q, hq, hb⟩ hno
        · exact ⟨p, hp, hb⟩

/-- What `addWinSource` gives for a source that is not handled by an action. -/
theorem addWinSource_some {e : SourceEnv} {exts exts' : List Str} {s : Str} {items : List (Str × Item)}
    (h : addWinSource e exts s = some (exts', items)) :
    (s ∈ e.handled ∧ exts' = exts ∧ items = []) ∨
    (s ∉ e.handled ∧ ∃ first,
      ((((aget e.exclusions s).getD []).length = e.configurations.length ∧
          first = [⟨c!"ExcludedFromBuild", none, c!"true"⟩]) ∨
        (((aget e.exclusions s).getD []).length ≠ e.configurations.length ∧
          (aget e.exclusions s).getD [] = [] ∧ first = [])) ∧
      exts' = (e.configurations.foldl (precompileStep e.paths e.toolset s) (exts, first)).1 ∧
      items = [((sourceType e.rules e.dependencies e.platforms e.toolset s).1,
        ⟨(sourceType e.rules e.dependencies e.platforms e.toolset s).2, s,
          (e.configurations.foldl (precompileStep e.paths e.toolset s) (exts, first)).2 ++
          (if (sourceType e.rules e.dependencies e.platforms e.toolset s).1 = c!"compile" ∧
              e.paths.isabs s = false then
            [⟨c!"ObjectFileName", none, c!"$(IntDir)\\" ++ objectName s⟩] else [])⟩)]) := by
  unfold addWinSource at h
  by_cases h1 : s ∈ e.handled
  · rw [if_pos h1] at h
    obtain ⟨rfl, rfl⟩ := Prod.mk.inj (Option.some.inj h)
    exact Or.inl ⟨h1, rfl, rfl⟩
  · rw [if_neg h1] at h
    refine Or.inr ⟨h1, ?_⟩
    simp only [Option.map_eq_some_iff] at h
    obtain ⟨first, h2, h3⟩ := h
    obtain ⟨rfl, rfl⟩ := Prod.mk.inj h3
    refine ⟨first, ?_, rfl, rfl⟩
    by_cases h4 : ((aget e.exclusions s).getD []).length = e.configurations.length
    · rw [if_pos h4] at h2
      exact Or.inl ⟨h4, (Option.some.inj h2).symm⟩
    · rw [if_neg h4] at h2
      by_cases h5 : (aget e.exclusions s).getD [] = []
      · rw [if_pos h5] at h2
        exact Or.inr ⟨h4, h5, (Option.some.inj h2).symm⟩
      · rw [if_neg h5] at h2
        cases h2

/-- The sources of the items, in order. -/
theorem addWinSources_sources {e : SourceEnv} {exts : List Str} {ts : List WinTree}
    {items : List (Str × Item)} (h : addWinSources e exts ts = some items) :
    items.map (·.2.source) = ((treePaths ts).map (·.2)).filter (· ∉ e.handled) := by
  induction ts using treePaths.induct generalizing exts items with
  | case1 =>
    simp only [addWinSources, Option.some.injEq] at h
    subst h
    simp [treePaths_nil]
  | case2 s rest ih =>
    rw [addWinSources_file] at h
    rcases h1 : addWinSource e exts s with _ | ⟨x, first⟩
    · simp only [h1] at h
      cases h
    · simp only [h1, Option.map_eq_some_iff] at h
      obtain ⟨more, h2, rfl⟩ := h
      rw [List.map_append, ih h2, treePaths_file]
      rcases addWinSource_some h1 with ⟨hs, _, rfl⟩ | ⟨hs, f, _, _, rfl⟩
      · simp [hs]
      · simp [hs]
  | case3 n cs rest ih1 ih2 =>
    rw [addWinSources_folder] at h
    rcases h1 : addWinSources e [] cs with _ | first
    · simp only [h1] at h
      cases h
    · simp only [h1, Option.map_eq_some_iff] at h
      obtain ⟨more, h2, rfl⟩ := h
      rw [List.map_append, ih1 h1, ih2 h2, treePaths_folder]
      simp [List.map_map, Function.comp_def]

/-- What is left of `extensions_excluded_from_precompile` after the configurations. -/
def pchKind (w : WinPaths) : List (Str × WinConfig) → List Str
  | [] => []
  | c :: cs => if c.2.pchSource ≠ [] then otherKind w c.2.pchSource else pchKind w cs

theorem otherKind_ne (w : WinPaths) (s : Str) : otherKind w s ≠ [] := by
  unfold otherKind
  split <;> simp

theorem precompileStep_fst (w : WinPaths) (toolset s : Str) (acc : List Str × List Detail)
    (c : Str × WinConfig) : (precompileStep w toolset s acc c).1 =
      if c.2.pchSource ≠ [] ∧ acc.1 = [] then otherKind w c.2.pchSource else acc.1 := by
  unfold precompileStep
  by_cases h : (if c.2.pchSource ≠ [] then fixPath w c.2.pchSource else []) = s
  · simp only [h, if_true]
  · simp only [h, if_false]

theorem precompile_fst (w : WinPaths) (toolset s : Str) (cs : List (Str × WinConfig))
    (acc : List Str × List Detail) :
    (cs.foldl (precompileStep w toolset s) acc).1 = if acc.1 = [] then pchKind w cs else acc.1 := by
  induction cs generalizing acc with
  | nil =>
    simp only [List.foldl_nil, pchKind]
    split
    · assumption
    · rfl
  | cons c cs ih =>
    rw [List.foldl_cons, ih, precompileStep_fst]
    by_cases h1 : acc.1 = []
    · by_cases h2 : c.2.pchSource = []
      · simp [h1, h2, pchKind]
      · simp [h1, h2, pchKind, otherKind_ne]
    · simp [h1]

/-- The extensions a frame of `_AddSources2` can have. -/
def GoodExts (e : SourceEnv) (exts : List Str) : Prop :=
  exts = [] ∨ exts = pchKind e.paths e.configurations

theorem goodExts_step {e : SourceEnv} {exts exts' : List Str} {s : Str} {items : List (Str × Item)}
    (hg : GoodExts e exts) (h : addWinSource e exts s = some (exts', items)) : GoodExts e exts' := by
  rcases addWinSource_some h with ⟨_, rfl, _⟩ | ⟨_, f, _, rfl, _⟩
  · exact hg
  · rw [precompile_fst]
    split
    · exact Or.inr rfl
    · exact hg

/-- Every item comes from one call of `addWinSource`. -/
theorem addWinSources_item {e : SourceEnv} {exts : List Str} {ts : List WinTree}
    {items : List (Str × Item)} (hg : GoodExts e exts) (h : addWinSources e exts ts = some items) :
    ∀ i ∈ items, ∃ ex ex', GoodExts e ex ∧ addWinSource e ex i.2.source = some (ex', [i]) := by
  induction ts using treePaths.induct generalizing exts items with
  | case1 =>
    simp only [addWinSources, Option.some.injEq] at h
    subst h
    simp
  | case2 s rest ih =>
    rw [addWinSources_file] at h
    rcases h1 : addWinSource e exts s with _ | ⟨x, first⟩
    · simp only [h1] at h
      cases h
    · simp only [h1, Option.map_eq_some_iff] at h
      obtain ⟨more, h2, rfl⟩ := h
      intro i hi
      rcases List.mem_append.mp hi with hi | hi
      · rcases addWinSource_some h1 with ⟨hs, _, rfl⟩ | ⟨hs, f, _, _, hf⟩
        · simp at hi
        · have : i.2.source = s ∧ first = [i] := by
            rw [hf, List.mem_singleton] at hi
            rw [hf, ← hi]
            exact ⟨by rw [hi], rfl⟩
          rw [this.1, ← this.2]
          exact ⟨exts, x, hg, h1⟩
      · exact ih (goodExts_step hg h1) h2 i hi
  | case3 n cs rest ih1 ih2 =>
    rw [addWinSources_folder] at h
    rcases h1 : addWinSources e [] cs with _ | first
    · simp only [h1] at h
      cases h
    · simp only [h1, Option.map_eq_some_iff] at h
      obtain ⟨more, h2, rfl⟩ := h
      intro i hi
      rcases List.mem_append.mp hi with hi | hi
      · exact ih1 (Or.inl rfl) h1 i hi
      · exact ih2 hg h2 i hi

/-! ### Groups -/

theorem sourceType_group (rules : List (Str × Str)) (deps platforms : List Str) (toolset s : Str) :
    (sourceType rules deps platforms toolset s).1 ∈ sourceGroups := by
  unfold sourceType
  simp only
  split
  · show c!"rule" ∈ sourceGroups
    decide
  · repeat' split
    all_goals decide

theorem perm_groups {α : Type} (groups : List Str) (hn : groups.Nodup) (l : List (Str × α))
    (h : ∀ i ∈ l, i.1 ∈ groups) :
    List.Perm ((groups.map fun g => (l.filter (·.1 = g)).map (·.2)).flatten) (l.map (·.2)) := by
  induction l with
  | nil => simp
  | cons i l ih =>
    have ih := ih fun j hj => h j (List.mem_cons_of_mem _ hj)
    obtain ⟨a, b, hab⟩ := List.append_of_mem (h i (by simp))
    have hia : ∀ g ∈ a, i.1 ≠ g := by
      intro g hg rfl'
      rw [hab, List.nodup_append] at hn
      exact hn.2.2 g hg i.1 (by simp) rfl'.symm
    have hib : ∀ g ∈ b, i.1 ≠ g := by
      intro g hg rfl'
      rw [hab, List.nodup_append] at hn
      exact (List.nodup_cons.mp hn.2.1).1 (rfl' ▸ hg)
    have same : ∀ gs : List Str, (∀ g ∈ gs, i.1 ≠ g) →
        (gs.map fun g => ((i :: l).filter (·.1 = g)).map (·.2)) = gs.map fun g => (l.filter (·.1 = g)).map (·.2) := by
      intro gs hgs
      apply List.map_congr_left
      intro g hg
      rw [List.filter_cons_of_neg (by simpa using hgs g hg)]
    rw [hab, List.map_append, List.map_cons, same a hia, same b hib, List.filter_cons_of_pos (by simp)]
    rw [hab, List.map_append, List.map_cons] at ih
    simp only [List.flatten_append, List.flatten_cons, List.map_cons, List.cons_append] at ih ⊢
    exact List.perm_middle.trans (ih.cons _)

theorem flatten_filter_ne {α : Type} [DecidableEq α] (l : List (List α)) :
    (l.filter (· ≠ [])).flatten = l.flatten := by
  induction l with
  | nil => rfl
  | cons x l ih =>
    by_cases h : x = []
    · rw [List.filter_cons_of_neg (by simpa using h), ih, h]; rfl
    · rw [List.filter_cons_of_pos (by simpa using h), List.flatten_cons, List.flatten_cons, ih]

/-- The items of the project are the items of its sources. -/
theorem projectItems_perm {e : SourceEnv} {tree : List WinTree} {groups : List (List Item)}
    (h : projectItems e tree = some groups) :
    ∃ items, addWinSources e [] tree = some items ∧ List.Perm groups.flatten (items.map (·.2)) := by
  unfold projectItems at h
  obtain ⟨items, h1, rfl⟩ := Option.map_eq_some_iff.mp h
  refine ⟨items, h1, ?_⟩
  rw [flatten_filter_ne]
  refine perm_groups sourceGroups (by decide) items ?_
  intro i hi
  obtain ⟨ex, ex', _, h2⟩ := addWinSources_item (Or.inl rfl) h1 i hi
  rcases addWinSource_some h2 with ⟨_, _, h3⟩ | ⟨_, f, _, _, h3⟩
  · simp at h3
  · rw [List.singleton_inj] at h3
    rw [h3]
    exact sourceType_group ..

end Gyp
