import Verif.Proofs.MsvsDetails
/-
C80: the sources of a target in its Visual Studio project.
-/
namespace Gyp
open Spec
open scoped Classical

/-- The set of files the model works with. -/
def allSet (t : WinTarget) (sources excluded : List Str) : List Str :=
  winUpdate sources (winUpdate excluded (winUpdate [] t.sourcesExcluded))

/-- The files that are excluded. -/
def excludedSet (w : WinPaths) (t : WinTarget) (excluded : List Str) : List Str :=
  (winUpdate excluded (winUpdate [] t.sourcesExcluded)).map (fixPath w)

def fullySet (w : WinPaths) (t : WinTarget) (excluded : List Str) : List Str :=
  (excludedSet w t excluded).filter (· ∉ precompileRelated w t.configurations)

def attachedSet (p : ProjectInput) : List Str := if p.target.external then [] else p.attached

/-- What the sources are turned into items with. -/
def envOf (p : ProjectInput) (sources excluded : List Str) : SourceEnv where
  paths := p.paths
  configurations := p.target.configurations
  toolset := p.target.toolset
  platforms := uniquePlatforms p.target.configurations
  rules := p.rules
  dependencies := p.dependencies
  exclusions := excludedFromBuild p.paths p.target.configurations
    (if p.target.external then excludedSet p.paths p.target excluded
      else keepAttached p.paths (excludedSet p.paths p.target excluded) (attachedSet p))
    (idlByRule p.target ((allSet p.target sources excluded).map (fixPath p.paths)))
  handled := (attachedSet p).map (fixPath p.paths)

def typeIn (p : ProjectInput) (s : Str) : Str :=
  (sourceType p.rules p.dependencies (uniquePlatforms p.target.configurations) p.target.toolset s).2

theorem projectSources_eq (p : ProjectInput) (sources excluded : List Str) :
    projectSources p sources excluded =
      match pruneFolders (sourceHierarchy p.paths (fullySet p.paths p.target excluded) p.listExcluded
        (((allSet p.target sources excluded).map (fixPath p.paths)).map (splitOn '\\'))) with
      | none => none
      | some tree => (projectItems (envOf p sources excluded) tree).map fun groups =>
          ⟨groups, (filterEntries (typeIn p) [] tree).1, (filterEntries (typeIn p) [] tree).2⟩ := by
  unfold projectSources adjustSources
  simp only [allSet, fullySet, excludedSet]
  rcases pruneFolders _ with _ | tree
  · rfl
  · rfl

/-! ### Membership -/

theorem perm_allSet {all sources excluded : List Str} {t : WinTarget} (hn : sources.Nodup)
    (h : AllFiles all sources excluded t) : List.Perm all (allSet t sources excluded) := by
  unfold allSet
  rw [List.perm_ext_iff_of_nodup h.1 (nodup_winUpdate hn)]
  intro f
  rw [h.2 f, mem_winUpdate, mem_winUpdate, mem_winUpdate]
  simp

theorem mem_excludedSet {w : WinPaths} {t : WinTarget} {excluded : List Str} {s : Str} :
    s ∈ excludedSet w t excluded ↔ WasExcluded w t excluded s := by
  unfold excludedSet WasExcluded
  rw [List.mem_map]
  constructor
  · rintro ⟨f, h1, h2⟩
    rw [mem_winUpdate, mem_winUpdate] at h1
    refine ⟨f, ?_, h2⟩
    simpa using h1
  · rintro ⟨f, h1, h2⟩
    refine ⟨f, ?_, h2⟩
    rw [mem_winUpdate, mem_winUpdate]
    simpa using h1

theorem mem_precompileRelated {w : WinPaths} {cs : List (Str × WinConfig)} {s : Str} :
    s ∈ precompileRelated w cs ↔ ∃ c ∈ cs, PrecompilesIn w c.2 s := by
  unfold precompileRelated PrecompilesIn
  rw [List.mem_flatMap]
  constructor
  · rintro ⟨c, hc, h⟩
    refine ⟨c, hc, ?_⟩
    obtain ⟨f, h1, h2⟩ := List.mem_map.mp h
    rw [List.mem_filter] at h1
    obtain ⟨h3, h4⟩ := h1
    simp only [List.mem_cons, List.not_mem_nil, or_false] at h3
    rcases h3 with rfl | rfl
    · exact Or.inl ⟨by simpa using h4, h2⟩
    · exact Or.inr ⟨by simpa using h4, h2⟩
  · rintro ⟨c, hc, h⟩
    refine ⟨c, hc, ?_⟩
    rcases h with ⟨h1, h2⟩ | ⟨h1, h2⟩
    · exact List.mem_map.mpr ⟨_, List.mem_filter.mpr ⟨by simp, by simpa using h1⟩, h2⟩
    · exact List.mem_map.mpr ⟨_, List.mem_filter.mpr ⟨by simp, by simpa using h1⟩, h2⟩

theorem mem_fullySet {w : WinPaths} {t : WinTarget} {excluded : List Str} {s : Str} :
    s ∈ fullySet w t excluded ↔ FullyExcluded w t excluded s := by
  unfold fullySet FullyExcluded
  rw [List.mem_filter, mem_excludedSet]
  simp only [decide_eq_true_eq, mem_precompileRelated]
  simp

theorem mem_handled {p : ProjectInput} {s : Str} :
    s ∈ (attachedSet p).map (fixPath p.paths) ↔ HasAction p s := by
  unfold attachedSet HasAction
  cases p.target.external <;> simp

theorem normal_of {w : WinPaths} {s : Str} (h : NormalPath w s) : normalizedSource w s = s := by
  unfold normalizedSource
  rcases h with h | h
  · rw [h]; simp
  · rw [if_neg]
    exact fun h' => h h'.symm

/-- The parts of a successful result. -/
theorem projectSources_some {p : ProjectInput} {sources excluded : List Str} {r : ProjectSources}
    (h : projectSources p sources excluded = some r) : ∃ tree items,
    pruneFolders (sourceHierarchy p.paths (fullySet p.paths p.target excluded) p.listExcluded
        (((allSet p.target sources excluded).map (fixPath p.paths)).map (splitOn '\\'))) = some tree ∧
    addWinSources (envOf p sources excluded) [] tree = some items ∧
    List.Perm r.groups.flatten (items.map (·.2)) ∧
    r.folders = (filterEntries (typeIn p) [] tree).1 ∧ r.entries = (filterEntries (typeIn p) [] tree).2 := by
  rw [projectSources_eq] at h
  rcases ht : pruneFolders (sourceHierarchy p.paths (fullySet p.paths p.target excluded) p.listExcluded
        (((allSet p.target sources excluded).map (fixPath p.paths)).map (splitOn '\\'))) with _ | tree
  · rw [ht] at h
    cases h
  · rw [ht] at h
    obtain ⟨groups, h1, rfl⟩ := Option.map_eq_some_iff.mp h
    obtain ⟨items, h2, h3⟩ := projectItems_perm h1
    exact ⟨tree, items, rfl, h2, h3, rfl, rfl⟩

/-- The files of the pruned tree. -/
theorem tree_paths {p : ProjectInput} {all sources excluded : List Str} {tree : List WinTree}
    (hn : sources.Nodup) (ha : AllFiles all sources excluded p.target) (hu : UsualFiles p.paths all)
    (ht : pruneFolders (sourceHierarchy p.paths (fullySet p.paths p.target excluded) p.listExcluded
        (((allSet p.target sources excluded).map (fixPath p.paths)).map (splitOn '\\'))) = some tree) :
    folderName tree = none ∧ ∃ outer, List.Perm
      ((treePaths tree).map fun q => (outer ++ q.1, q.2))
      (((all.map (fixPath p.paths)).filter fun s => Shown p excluded s).map fun s =>
        (foldersOf s (FullyExcluded p.paths p.target excluded s), s)) := by
  obtain ⟨h1, outer, h2⟩ := pruneFolders_paths _ _ ht
  refine ⟨h1, outer, ?_⟩
  rw [← h2]
  have hperm := (perm_allSet hn ha).map (fixPath p.paths)
  have hs : ∀ s ∈ (allSet p.target sources excluded).map (fixPath p.paths), normalizedSource p.paths s = s := by
    intro s hs
    obtain ⟨f, hf, rfl⟩ := List.mem_map.mp (hperm.symm.subset hs)
    exact normal_of (hu f hf).2.2
  refine (sourceHierarchy_paths _ _ _ _ hs).trans ?_
  refine ((hperm.symm.filter _).map _).trans ?_
  have e1 : ((all.map (fixPath p.paths)).filter fun s =>
      decide (¬ (s ∈ fullySet p.paths p.target excluded ∧ p.listExcluded = false))) =
      (all.map (fixPath p.paths)).filter fun s => decide (Shown p excluded s) := by
    apply List.filter_congr
    intro s _
    rw [decide_eq_decide, mem_fullySet, Shown]
    cases p.listExcluded <;> simp
  rw [e1]
  have e2 : (fun s => (foldersOf s (s ∈ fullySet p.paths p.target excluded), s)) =
      fun s => (foldersOf s (FullyExcluded p.paths p.target excluded s), s) := by
    funext s
    unfold foldersOf
    by_cases h : FullyExcluded p.paths p.target excluded s
    · rw [if_pos h, if_pos (mem_fullySet.mpr h)]
    · rw [if_neg h, if_neg (fun h' => h (mem_fullySet.mp h'))]
  rw [e2]

/-! ### The theorems -/

/-- Every file of the target that no action is attached to is an item of the project, as often
as there are files with its path, and there are no other items. -/
theorem C80_items {p : ProjectInput} {all sources excluded : List Str} {r : ProjectSources}
    (hn : sources.Nodup) (ha : AllFiles all sources excluded p.target) (hu : UsualFiles p.paths all)
    (h : projectSources p sources excluded = some r) :
    List.Perm (r.groups.flatten.map (·.source))
      ((all.map (fixPath p.paths)).filter fun s => Shown p excluded s ∧ ¬ HasAction p s) := by
  obtain ⟨tree, items, h1, h2, h3, _, _⟩ := projectSources_some h
  obtain ⟨_, outer, h4⟩ := tree_paths hn ha hu h1
  refine (h3.map _).trans ?_
  rw [List.map_map]
  have e1 : items.map ((fun i : Item => i.source) ∘ fun x => x.2) = items.map (·.2.source) := rfl
  rw [e1, addWinSources_sources h2]
  have h5 := (h4.map Prod.snd).filter fun s => decide (s ∉ (envOf p sources excluded).handled)
  simp only [List.map_map, Function.comp_def, List.map_id'] at h5
  refine h5.trans ?_
  rw [List.filter_filter]
  have e2 : ∀ l : List Str, (l.filter fun s => decide (s ∉ (envOf p sources excluded).handled) &&
      decide (Shown p excluded s)) = l.filter fun s => decide (Shown p excluded s ∧ ¬ HasAction p s) := by
    intro l
    apply List.filter_congr
    intro s _
    have : (s ∈ (envOf p sources excluded).handled) ↔ HasAction p s := mem_handled
    by_cases g1 : Shown p excluded s <;> by_cases g2 : HasAction p s <;> simp [this, g1, g2]
  rw [e2]

/-- Each item comes from one source. -/
theorem item_source {p : ProjectInput} {sources excluded : List Str} {r : ProjectSources}
    (h : projectSources p sources excluded = some r) {i : Item} (hi : i ∈ r.groups.flatten) :
    ∃ g ex ex', GoodExts (envOf p sources excluded) ex ∧
      addWinSource (envOf p sources excluded) ex i.source = some (ex', [(g, i)]) := by
  obtain ⟨tree, items, _, h2, h3, _, _⟩ := projectSources_some h
  obtain ⟨⟨g, j⟩, hj, rfl⟩ := List.mem_map.mp (h3.subset hi)
  obtain ⟨ex, ex', h4, h5⟩ := addWinSources_item (Or.inl rfl) h2 (g, j) hj
  exact ⟨g, ex, ex', h4, h5⟩

theorem item_file {p : ProjectInput} {all sources excluded : List Str} {r : ProjectSources}
    (hn : sources.Nodup) (ha : AllFiles all sources excluded p.target) (hu : UsualFiles p.paths all)
    (h : projectSources p sources excluded = some r) {i : Item} (hi : i ∈ r.groups.flatten) :
    ∃ f ∈ all, fixPath p.paths f = i.source ∧ ¬ HasAction p i.source := by
  have := (C80_items hn ha hu h).subset (List.mem_map.mpr ⟨i, hi, rfl⟩)
  rw [List.mem_filter] at this
  obtain ⟨f, hf, hs⟩ := List.mem_map.mp this.1
  refine ⟨f, hf, hs, ?_⟩
  have := this.2
  rw [decide_eq_true_eq] at this
  exact this.2

theorem related_iff {p : ProjectInput} {c : WinConfig} {s : Str} (hs : s ≠ fixPath p.paths []) :
    s ∈ [fixPath p.paths c.pchHeader, fixPath p.paths c.pchSource] ↔ PrecompilesIn p.paths c s := by
  unfold PrecompilesIn
  simp only [List.mem_cons, List.not_mem_nil, or_false]
  constructor
  · rintro (h | h)
    · exact Or.inl ⟨fun h' => hs (by rw [h, h']), h.symm⟩
    · exact Or.inr ⟨fun h' => hs (by rw [h, h']), h.symm⟩
  · rintro (⟨_, h⟩ | ⟨_, h⟩)
    · exact Or.inl h.symm
    · exact Or.inr h.symm

/-- The configurations a file is excluded in. -/
theorem exclusions_of {p : ProjectInput} {sources excluded : List Str} {s : Str}
    (hs : s ∈ (allSet p.target sources excluded).map (fixPath p.paths))
    (hs' : s ≠ fixPath p.paths []) (hact : ¬ HasAction p s) :
    (aget (envOf p sources excluded).exclusions s).getD [] =
      p.target.configurations.filter fun c => NotBuilt p excluded c.2 s := by
  simp only [envOf, aget_excludedFromBuild]
  have hidl : s ∈ idlByRule p.target ((allSet p.target sources excluded).map (fixPath p.paths)) ↔
      (p.target.idlRule = true ∧ ∃ front, s = front ++ c!".idl") := by
    unfold idlByRule
    cases p.target.idlRule with
    | false => simp
    | true =>
      rw [if_pos rfl, List.mem_filter]
      constructor
      · rintro ⟨_, h⟩
        refine ⟨rfl, ?_⟩
        unfold endsWith at h
        obtain ⟨t, ht⟩ := List.isSuffixOf_iff_suffix.mp h
        exact ⟨t, ht.symm⟩
      · rintro ⟨_, t, ht⟩
        refine ⟨hs, ?_⟩
        unfold endsWith
        exact List.isSuffixOf_iff_suffix.mpr ⟨t, ht.symm⟩
  have hexc : s ∈ (if p.target.external then excludedSet p.paths p.target excluded
      else keepAttached p.paths (excludedSet p.paths p.target excluded) (attachedSet p)) ↔
      WasExcluded p.paths p.target excluded s := by
    split
    · exact mem_excludedSet
    · unfold keepAttached
      rw [List.mem_filter, mem_excludedSet]
      simp only [decide_eq_true_eq, mem_winUpdate, List.not_mem_nil, false_or, mem_handled, hact,
        not_false_eq_true, and_true]
  by_cases h1 : s ∈ idlByRule p.target ((allSet p.target sources excluded).map (fixPath p.paths))
  · rw [if_pos h1, Option.getD_some]
    symm
    rw [List.filter_eq_self]
    intro c _
    rw [decide_eq_true_eq]
    exact Or.inl (hidl.mp h1)
  · rw [if_neg h1]
    by_cases h2 : s ∈ (if p.target.external then excludedSet p.paths p.target excluded
      else keepAttached p.paths (excludedSet p.paths p.target excluded) (attachedSet p))
    · rw [if_pos h2, Option.getD_some]
      apply List.filter_congr
      intro c _
      rw [decide_eq_decide, related_iff hs']
      unfold NotBuilt
      have h3 := fun h => h1 (hidl.mpr h)
      have h4 := hexc.mp h2
      constructor
      · intro h; exact Or.inr ⟨h4, h⟩
      · rintro (h | h)
        · exact absurd h h3
        · exact h.2
    · rw [if_neg h2, Option.getD_none]
      symm
      rw [List.filter_eq_nil_iff]
      intro c _
      rw [decide_eq_true_eq]
      rintro (h | h)
      · exact h1 (hidl.mpr h)
      · exact h2 (hexc.mpr h.1)

/-- An item is left out of the build of a configuration exactly if its file is. -/
theorem C80_excluded {p : ProjectInput} {all sources excluded : List Str} {r : ProjectSources}
    (hn : sources.Nodup) (ha : AllFiles all sources excluded p.target) (hu : UsualFiles p.paths all)
    (h : projectSources p sources excluded = some r) (i : Item) (hi : i ∈ r.groups.flatten)
    (c : Str × WinConfig) (hc : c ∈ p.target.configurations) :
    metadata i.details c!"ExcludedFromBuild" (conditionOf p.target.toolset c) =
      if NotBuilt p excluded c.2 i.source then some c!"true" else none := by
  obtain ⟨g, ex, ex', _, h1⟩ := item_source h hi
  obtain ⟨f, hf, hfs, hact⟩ := item_file hn ha hu h hi
  have hs : i.source ∈ (allSet p.target sources excluded).map (fixPath p.paths) :=
    List.mem_map.mpr ⟨f, (perm_allSet hn ha).subset hf, hfs⟩
  have hs' : i.source ≠ fixPath p.paths [] := hfs ▸ (hu f hf).2.1
  have hex := exclusions_of hs hs' hact
  have hnone : ∀ xs : List Detail, (∀ d ∈ xs, d.name ≠ c!"ExcludedFromBuild") →
      ∀ t, metadata xs c!"ExcludedFromBuild" t = none :=
    fun xs hx t => metadata_skip fun d hd hd' => absurd hd' (hx d hd)
  rcases addWinSource_some h1 with ⟨_, _, h2⟩ | ⟨_, first, h2, _, h3⟩
  · simp at h2
  · rw [List.singleton_inj] at h3
    have hd := congrArg (fun x : Str × Item => x.2.details) h3
    simp only at hd
    obtain ⟨added, ha1, ha2⟩ := precompile_names (envOf p sources excluded).paths
      (envOf p sources excluded).toolset i.source (envOf p sources excluded).configurations ex first
    rw [hd, ha1, metadata_append, metadata_append, hnone added, hnone, Option.none_or, Option.none_or]
    · rw [hex] at h2
      rcases h2 with ⟨h4, rfl⟩ | ⟨h4, h5, rfl⟩
      · have hall := List.length_filter_eq_length_iff.mp h4
        have := hall c hc
        rw [decide_eq_true_eq] at this
        rw [if_pos this]
        rfl
      · have := List.filter_eq_nil_iff.mp h5 c hc
        rw [decide_eq_true_eq] at this
        rw [if_neg this]
        rfl
    · intro d hd
      split at hd
      · rw [List.mem_singleton] at hd
        rw [hd]
        show c!"ObjectFileName" ≠ c!"ExcludedFromBuild"
        decide
      · simp at hd
    · intro d hd
      rcases ha2 d hd with h | h <;> rw [h] <;> decide

/-- The header a file makes or does not use. -/
theorem C80_precompiled {p : ProjectInput} {all sources excluded : List Str} {r : ProjectSources}
    (hn : sources.Nodup) (ha : AllFiles all sources excluded p.target) (hu : UsualFiles p.paths all)
    (h : projectSources p sources excluded = some r)
    (hk : OneKind p.paths p.target) (hd : DistinctConditions p.target)
    (i : Item) (hi : i ∈ r.groups.flatten) (c : Str × WinConfig) (hc : c ∈ p.target.configurations) :
    metadata i.details c!"PrecompiledHeader" (conditionOf p.target.toolset c) =
      if c.2.pchSource ≠ [] ∧ fixPath p.paths c.2.pchSource = i.source then some c!"Create"
      else if ∃ c' ∈ p.target.configurations, c'.2.pchSource ≠ [] ∧
          ∃ ext, WrongKind (fixPath p.paths c'.2.pchSource) ext ∧ ∃ front, i.source = front ++ ext then
        some []
      else none := by
  obtain ⟨g, ex, ex', hg, h1⟩ := item_source h hi
  obtain ⟨f, hf, hfs, hact⟩ := item_file hn ha hu h hi
  have hwrong : ∀ s e, e ∈ otherKind p.paths s ↔ WrongKind (fixPath p.paths s) e := by
    intro s e
    unfold otherKind WrongKind
    have := winSplitext_ext (fixPath p.paths s) c!".c" (by decide)
    by_cases hx : (winSplitext (fixPath p.paths s)).2 = c!".c"
    · rw [if_pos hx, if_pos (this.mp hx)]
    · rw [if_neg hx, if_neg fun h => hx (this.mpr h)]
      simp
  have hends : ∀ s e : Str, endsWith s e = true ↔ ∃ front, s = front ++ e := by
    intro s e
    unfold endsWith
    rw [List.isSuffixOf_iff_suffix]
    constructor
    · rintro ⟨t, ht⟩; exact ⟨t, ht.symm⟩
    · rintro ⟨t, ht⟩; exact ⟨t, ht.symm⟩
  have hmeta := fun first hfirst => precompile_metadata p.paths p.target.toolset i.source
    p.target.configurations ex first hg (hfs ▸ (hu f hf).1) hfirst (by
      intro c1 h1 c2 h2 n1 n2 e he
      have := hk c1 h1 c2 h2 n1 n2 e ((hwrong _ _).mp he)
      rw [← hends] at this
      simpa using this) hd c hc
  rcases addWinSource_some h1 with ⟨_, _, h2⟩ | ⟨_, first, h2, _, h3⟩
  · simp at h2
  · rw [List.singleton_inj] at h3
    have hdet := congrArg (fun x : Str × Item => x.2.details) h3
    simp only at hdet
    rw [hdet, metadata_append, metadata_skip, Option.none_or]
    · refine (hmeta first ?_).trans ?_
      · rcases h2 with ⟨_, rfl⟩ | ⟨_, _, rfl⟩
        · simp
        · simp
      · congr 1
        have : (∃ c' ∈ p.target.configurations, c'.2.pchSource ≠ [] ∧
            ∃ e ∈ otherKind p.paths c'.2.pchSource, endsWith i.source e = true) ↔
            ∃ c' ∈ p.target.configurations, c'.2.pchSource ≠ [] ∧
              ∃ ext, WrongKind (fixPath p.paths c'.2.pchSource) ext ∧ ∃ front, i.source = front ++ ext := by
          simp only [hwrong, hends]
        simp only [this]
    · intro d hd hname
      split at hd
      · rw [List.mem_singleton] at hd
        rw [hd] at hname
        exact absurd (show c!"ObjectFileName" = c!"PrecompiledHeader" from hname) (by decide)
      · simp at hd

/-- Nothing is written exactly if some file is left out of some configurations but not of
all. (Two or more excluded files next to the project, with nothing else outside of a folder
`_excluded_files`, are the case left out.) -/
theorem C80_stops {p : ProjectInput} {all sources excluded : List Str}
    (hn : sources.Nodup) (ha : AllFiles all sources excluded p.target) (hu : UsualFiles p.paths all)
    (hl : p.listExcluded = true)
    (hok : (∃ f ∈ all, (foldersOf (fixPath p.paths f)
        (FullyExcluded p.paths p.target excluded (fixPath p.paths f))).head? ≠ some c!"_excluded_files") ∨
      ((all.map (fixPath p.paths)).filter fun s =>
        FullyExcluded p.paths p.target excluded s ∧ '\\' ∉ s).length ≤ 1) :
    projectSources p sources excluded = none ↔
      ∃ f ∈ all, ¬ HasAction p (fixPath p.paths f) ∧
        (∃ c ∈ p.target.configurations, NotBuilt p excluded c.2 (fixPath p.paths f)) ∧
        ∃ c ∈ p.target.configurations, ¬ NotBuilt p excluded c.2 (fixPath p.paths f) := by
  have hperm := (perm_allSet hn ha).map (fixPath p.paths)
  have hs : ∀ s ∈ (allSet p.target sources excluded).map (fixPath p.paths), normalizedSource p.paths s = s := by
    intro s hs
    obtain ⟨f, hf, rfl⟩ := List.mem_map.mp (hperm.symm.subset hs)
    exact normal_of (hu f hf).2.2
  have hfold : ∀ s, foldersOf s (s ∈ fullySet p.paths p.target excluded) =
      foldersOf s (FullyExcluded p.paths p.target excluded s) := by
    intro s
    unfold foldersOf
    by_cases h : FullyExcluded p.paths p.target excluded s
    · rw [if_pos h, if_pos (mem_fullySet.mpr h)]
    · rw [if_neg h, if_neg (fun h' => h (mem_fullySet.mp h'))]
  obtain ⟨tree, ht⟩ := prune_hierarchy_some p.paths (fullySet p.paths p.target excluded)
    ((allSet p.target sources excluded).map (fixPath p.paths)) hs (by
      rcases hok with ⟨f, hf, h⟩ | h
      · exact Or.inl ⟨_, hperm.subset (List.mem_map.mpr ⟨f, hf, rfl⟩), by rw [hfold]; exact h⟩
      · right
        refine le_of_eq_of_le ?_ h
        rw [← (hperm.filter _).length_eq]
        congr 1
        apply List.filter_congr
        intro s _
        rw [decide_eq_decide, mem_fullySet])
  rw [← hl] at ht
  have hpaths := (tree_paths hn ha hu ht).2
  obtain ⟨outer, hpaths⟩ := hpaths
  have hfiles : ∀ s, (∃ q ∈ treePaths tree, q.2 = s) ↔ s ∈ all.map (fixPath p.paths) := by
    intro s
    have h1 := (hpaths.map Prod.snd).mem_iff (a := s)
    simp only [List.map_map, Function.comp_def, List.map_id'] at h1
    rw [List.mem_filter] at h1
    have : Shown p excluded s := Or.inl hl
    simp only [this, decide_true, and_true] at h1
    rw [← h1, List.mem_map]
  rw [projectSources_eq, ht]
  simp only [Option.map_eq_none_iff, projectItems, addWinSources_none]
  have key : ∀ f ∈ all, Blocked (envOf p sources excluded) (fixPath p.paths f) ↔
      ¬ HasAction p (fixPath p.paths f) ∧
        (∃ c ∈ p.target.configurations, NotBuilt p excluded c.2 (fixPath p.paths f)) ∧
        ∃ c ∈ p.target.configurations, ¬ NotBuilt p excluded c.2 (fixPath p.paths f) := by
    intro f hf
    unfold Blocked
    have hh : fixPath p.paths f ∉ (envOf p sources excluded).handled ↔ ¬ HasAction p (fixPath p.paths f) :=
      not_congr mem_handled
    rw [hh]
    by_cases hact : HasAction p (fixPath p.paths f)
    · simp [hact]
    · rw [exclusions_of (List.mem_map.mpr ⟨f, (perm_allSet hn ha).subset hf, rfl⟩) (hu f hf).2.1 hact]
      have g1 : (p.target.configurations.filter fun c => NotBuilt p excluded c.2 (fixPath p.paths f)).length ≠
          (envOf p sources excluded).configurations.length ↔
          ∃ c ∈ p.target.configurations, ¬ NotBuilt p excluded c.2 (fixPath p.paths f) := by
        show _ ≠ p.target.configurations.length ↔ _
        rw [ne_eq, List.length_filter_eq_length_iff]
        simp
      have g2 : (p.target.configurations.filter fun c => NotBuilt p excluded c.2 (fixPath p.paths f)) ≠ [] ↔
          ∃ c ∈ p.target.configurations, NotBuilt p excluded c.2 (fixPath p.paths f) := by
        rw [ne_eq, List.filter_eq_nil_iff]
        simp
      rw [g1, g2]
      tauto
  constructor
  · rintro ⟨q, hq, hb⟩
    obtain ⟨f, hf, hfs⟩ := List.mem_map.mp ((hfiles q.2).mp ⟨q, hq, rfl⟩)
    rw [← hfs] at hb
    exact ⟨f, hf, (key f hf).mp hb⟩
  · rintro ⟨f, hf, h⟩
    obtain ⟨q, hq, hqs⟩ := (hfiles (fixPath p.paths f)).mpr (List.mem_map.mpr ⟨f, hf, rfl⟩)
    exact ⟨q, hq, by rw [hqs]; exact (key f hf).mpr h⟩

/-- What an item is. -/
theorem item_element {p : ProjectInput} {sources excluded : List Str} {r : ProjectSources}
    (h : projectSources p sources excluded = some r) {i : Item} (hi : i ∈ r.groups.flatten) :
    i.element = typeIn p i.source := by
  obtain ⟨g, ex, ex', hg, h1⟩ := item_source h hi
  rcases addWinSource_some h1 with ⟨_, _, h2⟩ | ⟨_, first, h2, _, h3⟩
  · simp at h2
  · rw [List.singleton_inj] at h3
    exact congrArg (fun x : Str × Item => x.2.element) h3

theorem mem_uniquePlatforms {configs : List (Str × WinConfig)} {x : Str} :
    x ∈ uniquePlatforms configs ↔ ∃ c ∈ configs, c.2.platform = x := by
  unfold uniquePlatforms
  rw [mem_winUpdate]
  simp

/-- The type of an item: by a rule for the extension, by the extension, as a dependency of a
rule, or none. -/
theorem C80_type {p : ProjectInput} {sources excluded : List Str} {r : ProjectSources}
    (h : projectSources p sources excluded = some r) (i : Item) (hi : i ∈ r.groups.flatten) :
    (∀ ext, HasExtension i.source ext →
      (∀ name, aget p.rules (lowerStr ext) = some name → i.element = name) ∧
      (aget p.rules (lowerStr ext) = none →
        (∀ kind, (lowerStr ext, kind) ∈ knownKinds → i.element =
          if kind = c!"MASM" ∧ p.target.toolset = c!"target" ∧
            ∃ c ∈ p.target.configurations, c.2.platform = c!"arm64" then c!"MARMASM" else kind) ∧
        (lowerStr ext ∉ knownKinds.map (·.1) →
          i.element = if i.source ∈ p.dependencies then c!"CustomBuild" else c!"None"))) ∧
    ((¬ ∃ ext, HasExtension i.source ext) → aget p.rules [] = none →
      i.element = if i.source ∈ p.dependencies then c!"CustomBuild" else c!"None") := by
  rw [item_element h hi]
  unfold typeIn sourceType
  have plat := mem_uniquePlatforms (configs := p.target.configurations) (x := c!"arm64")
  have hmasm : (if c!"arm64" ∈ uniquePlatforms p.target.configurations ∧ p.target.toolset = c!"target" then
        c!"MARMASM" else c!"MASM") =
      if c!"MASM" = c!"MASM" ∧ p.target.toolset = c!"target" ∧
        ∃ c ∈ p.target.configurations, c.2.platform = c!"arm64" then c!"MARMASM" else c!"MASM" := by
    by_cases hp : p.target.toolset = c!"target" ∧ ∃ c ∈ p.target.configurations, c.2.platform = c!"arm64"
    · rw [if_pos ⟨plat.mpr hp.2, hp.1⟩, if_pos ⟨rfl, hp⟩]
    · rw [if_neg fun h => hp ⟨h.2, plat.mp h.1⟩, if_neg fun h => hp h.2]
  refine ⟨?_, ?_⟩
  · intro ext hext
    have hne : ext ≠ [] := by
      obtain ⟨_, _, e, _, h, _⟩ := hext
      rw [h]
      simp
    rw [(winSplitext_ext i.source ext hne).mpr hext]
    generalize lowerStr ext = e
    refine ⟨?_, ?_⟩
    · intro name hname
      simp only [hname]
    · intro hno
      simp only [hno]
      refine ⟨?_, ?_⟩
      · intro kind hkind
        simp only [knownKinds, List.mem_cons, Prod.mk.injEq, List.not_mem_nil, or_false] at hkind
        rcases hkind with ⟨rfl, rfl⟩ | ⟨rfl, rfl⟩ | ⟨rfl, rfl⟩ | ⟨rfl, rfl⟩ | ⟨rfl, rfl⟩ | ⟨rfl, rfl⟩ |
          ⟨rfl, rfl⟩ | ⟨rfl, rfl⟩ | ⟨rfl, rfl⟩ | ⟨rfl, rfl⟩ | ⟨rfl, rfl⟩
        · rfl
        · rfl
        · rfl
        · rfl
        · rfl
        · rfl
        · rfl
        · rfl
        · exact hmasm
        · exact hmasm
        · rfl
      · intro hno'
        simp only [knownKinds, List.map_cons, List.map_nil, List.mem_cons, List.not_mem_nil, or_false,
          not_or] at hno'
        obtain ⟨h1, h2, h3, h4, h5, h6, h7, h8, h9, h10, h11⟩ := hno'
        simp only [List.mem_cons, List.not_mem_nil, or_false, h1, h2, h3, h4, h5, h6, h7, h8, h9, h10, h11,
          if_false]
        split <;> rfl
  · intro hno hr
    have : (winSplitext i.source).2 = [] := by
      by_contra hne
      exact hno ⟨_, (winSplitext_ext i.source _ hne).mp rfl⟩
    rw [this]
    have h0 : lowerStr [] = [] := rfl
    simp only [h0, hr]
    rw [if_neg (by decide), if_neg (by decide), if_neg (by decide), if_neg (by decide), if_neg (by decide)]
    split <;> rfl

/-! ### Objects -/

theorem dropParents_parents (n : Nat) (s : Str) : dropParents (parents n ++ s) = dropParents s := by
  induction n with
  | zero => rfl
  | succ n ih => simp only [parents, List.cons_append, dropParents, ih]

theorem dropParents_self {s : Str} (h : ¬ c!"..\\" <+: s) : dropParents s = s := by
  rw [dropParents.eq_def]
  split
  · rename_i rest
    exact absurd ⟨rest, rfl⟩ h
  · rfl

/-- The object element of an item that is compiled. -/
theorem object_element {p : ProjectInput} {sources excluded : List Str} {r : ProjectSources}
    (h : projectSources p sources excluded = some r) {i : Item} (hi : i ∈ r.groups.flatten)
    {ext : Str} (hext : HasExtension i.source ext)
    (hkind : lowerStr ext ∈ [c!".cc", c!".cpp", c!".c", c!".cxx", c!".mm"])
    (hrule : aget p.rules (lowerStr ext) = none) (habs : p.paths.isabs i.source = false) (t : Str) :
    metadata i.details c!"ObjectFileName" t = some (c!"$(IntDir)\\" ++ objectName i.source) := by
  obtain ⟨g, ex, ex', hg, h1⟩ := item_source h hi
  have hne : ext ≠ [] := by
    obtain ⟨_, _, e, _, h, _⟩ := hext
    rw [h]
    simp
  have htype : (sourceType (envOf p sources excluded).rules (envOf p sources excluded).dependencies
      (envOf p sources excluded).platforms (envOf p sources excluded).toolset i.source).1 = c!"compile" := by
    unfold sourceType
    have hr : aget (envOf p sources excluded).rules (lowerStr ext) = none := hrule
    simp only [(winSplitext_ext i.source ext hne).mpr hext, hr, if_pos hkind]
  rcases addWinSource_some h1 with ⟨_, _, h2⟩ | ⟨_, first, h2, _, h3⟩
  · simp at h2
  · rw [List.singleton_inj] at h3
    have hdet := congrArg (fun x : Str × Item => x.2.details) h3
    simp only at hdet
    rw [hdet, htype, if_pos ⟨rfl, habs⟩, metadata_append]
    rfl

/-- The object of a compiled file: its path without the directories that lead up, and with
the extension replaced. -/
theorem C80_object {p : ProjectInput} {sources excluded : List Str} {r : ProjectSources}
    (h : projectSources p sources excluded = some r) (i : Item) (hi : i ∈ r.groups.flatten)
    {n : Nat} {stem ext : Str} (hsrc : i.source = parents n ++ stem ++ ext)
    (hext : HasExtension i.source ext)
    (hkind : lowerStr ext ∈ [c!".cc", c!".cpp", c!".c", c!".cxx", c!".mm"])
    (hrule : aget p.rules (lowerStr ext) = none) (habs : p.paths.isabs i.source = false)
    (hup : ¬ c!"..\\" <+: stem) (hvar : ¬ c!"$(" <+: stem) (t : Str) :
    metadata i.details c!"ObjectFileName" t = some (c!"$(IntDir)\\" ++ stem ++ c!".obj") := by
  rw [object_element h hi hext hkind hrule habs]
  have hne : ext ≠ [] := by
    obtain ⟨_, _, e, _, h, _⟩ := hext
    rw [h]
    simp
  have hstem : (winSplitext i.source).1 = parents n ++ stem := by
    have h1 := winSplitext_append i.source
    rw [(winSplitext_ext i.source ext hne).mpr hext] at h1
    exact List.append_cancel_right (h1.trans hsrc)
  have hup' : ¬ c!"..\\" <+: stem ++ c!".obj" := by
    rintro ⟨t, ht⟩
    rcases stem with _ | ⟨a, _ | ⟨b, _ | ⟨c, stem⟩⟩⟩
    · simp at ht
    · simp at ht
    · simp at ht
    · simp only [List.cons_append, List.nil_append, List.cons.injEq] at ht
      obtain ⟨rfl, rfl, rfl, _⟩ := ht
      exact hup ⟨stem, rfl⟩
  have hobj : objectName i.source = stem ++ c!".obj" := by
    unfold objectName
    simp only [hstem]
    cases n with
    | zero =>
      rw [show parents 0 ++ stem = stem from rfl, if_neg (by simpa [startsWith] using hup'), if_neg]
      intro hs
      obtain ⟨t, ht⟩ := List.isPrefixOf_iff_prefix.mp hs
      rcases stem with _ | ⟨a, _ | ⟨b, stem⟩⟩
      · simp at ht
      · simp at ht
      · simp only [List.cons_append, List.nil_append, List.cons.injEq] at ht
        obtain ⟨rfl, rfl, _⟩ := ht
        exact hvar ⟨stem, rfl⟩
    | succ n =>
      rw [if_pos, List.append_assoc, dropParents_parents, dropParents_self hup']
      simp [parents, startsWith]
  rw [hobj, List.append_assoc]

/-- The object of a file below a variable: its path without the variable, with the extension
replaced. -/
theorem C80_object_variable {p : ProjectInput} {sources excluded : List Str} {r : ProjectSources}
    (h : projectSources p sources excluded = some r) (i : Item) (hi : i ∈ r.groups.flatten)
    {var stem ext : Str} (hsrc : i.source = c!"$(" ++ var ++ c!")\\" ++ stem ++ ext)
    (hvar : var ≠ []) (hclose : ')' ∉ var) (hext : HasExtension i.source ext)
    (hkind : lowerStr ext ∈ [c!".cc", c!".cpp", c!".c", c!".cxx", c!".mm"])
    (hrule : aget p.rules (lowerStr ext) = none) (habs : p.paths.isabs i.source = false) (t : Str) :
    metadata i.details c!"ObjectFileName" t = some (c!"$(IntDir)\\" ++ stem ++ c!".obj") := by
  rw [object_element h hi hext hkind hrule habs]
  have hne : ext ≠ [] := by
    obtain ⟨_, _, e, _, h, _⟩ := hext
    rw [h]
    simp
  have hstem : (winSplitext i.source).1 = c!"$(" ++ var ++ c!")\\" ++ stem := by
    have h1 := winSplitext_append i.source
    rw [(winSplitext_ext i.source ext hne).mpr hext] at h1
    exact List.append_cancel_right (h1.trans hsrc)
  have hname : c!"$(" ++ var ++ c!")\\" ++ stem ++ c!".obj" =
      '$' :: '(' :: (var ++ ')' :: ('\\' :: (stem ++ c!".obj"))) := by simp
  have hobj : objectName i.source = stem ++ c!".obj" := by
    unfold objectName
    simp only [hstem, hname]
    rw [if_neg (by simp [startsWith]), if_pos (by simp [startsWith])]
    unfold dropVariable
    simp only [List.drop_succ_cons, List.drop_zero, split1_append hclose, if_neg hvar]
  rw [hobj, List.append_assoc]

/-- Files with different paths, apart from the directories that lead up and from the
extensions, have different objects; also when upper and lower case are the same. -/
theorem C80_objects_apart {p : ProjectInput} {sources excluded : List Str} {r : ProjectSources}
    (h : projectSources p sources excluded = some r) (fold : Char → Char)
    (i j : Item) (hi : i ∈ r.groups.flatten) (hj : j ∈ r.groups.flatten)
    {n m : Nat} {stem₁ ext₁ stem₂ ext₂ : Str}
    (hsrc₁ : i.source = parents n ++ stem₁ ++ ext₁) (hsrc₂ : j.source = parents m ++ stem₂ ++ ext₂)
    (hext₁ : HasExtension i.source ext₁) (hext₂ : HasExtension j.source ext₂)
    (hkind₁ : lowerStr ext₁ ∈ [c!".cc", c!".cpp", c!".c", c!".cxx", c!".mm"])
    (hkind₂ : lowerStr ext₂ ∈ [c!".cc", c!".cpp", c!".c", c!".cxx", c!".mm"])
    (hrule₁ : aget p.rules (lowerStr ext₁) = none) (hrule₂ : aget p.rules (lowerStr ext₂) = none)
    (habs₁ : p.paths.isabs i.source = false) (habs₂ : p.paths.isabs j.source = false)
    (hup₁ : ¬ c!"..\\" <+: stem₁) (hvar₁ : ¬ c!"$(" <+: stem₁)
    (hup₂ : ¬ c!"..\\" <+: stem₂) (hvar₂ : ¬ c!"$(" <+: stem₂)
    (hne : stem₁.map fold ≠ stem₂.map fold) (t t' : Str) :
    (metadata i.details c!"ObjectFileName" t).map (List.map fold) ≠
      (metadata j.details c!"ObjectFileName" t').map (List.map fold) := by
  rw [C80_object h i hi hsrc₁ hext₁ hkind₁ hrule₁ habs₁ hup₁ hvar₁,
    C80_object h j hj hsrc₂ hext₂ hkind₂ hrule₂ habs₂ hup₂ hvar₂]
  intro heq
  have := Option.some.inj heq
  simp only [List.map_append] at this
  exact hne (List.append_cancel_left (List.append_cancel_right this))

/-! ### The filters file -/

/-- Every file is in the folder named after its directory, without the directories all files
share; every folder that is named is declared, and so are the folders around it. -/
theorem C80_folders {p : ProjectInput} {all sources excluded : List Str} {r : ProjectSources}
    (hn : sources.Nodup) (ha : AllFiles all sources excluded p.target) (hu : UsualFiles p.paths all)
    (hparts : ∀ f ∈ all, ∀ part ∈ splitOn '\\' (fixPath p.paths f), part ≠ [])
    (h : projectSources p sources excluded = some r) :
    ∃ outer : List Str,
      (∀ f ∈ all, Shown p excluded (fixPath p.paths f) →
        outer <+: foldersOf (fixPath p.paths f) (FullyExcluded p.paths p.target excluded (fixPath p.paths f))) ∧
      List.Perm (r.entries.map fun e => (e.source, e.folder))
        (((all.map (fixPath p.paths)).filter fun s => Shown p excluded s).map fun s =>
          (s, folderText ((foldersOf s (FullyExcluded p.paths p.target excluded s)).drop outer.length))) ∧
      (∀ f ∈ all, Shown p excluded (fixPath p.paths f) → ∀ front, front ≠ [] →
        front <+: (foldersOf (fixPath p.paths f)
          (FullyExcluded p.paths p.target excluded (fixPath p.paths f))).drop outer.length →
        joinWith ['\\'] front ∈ r.folders) := by
  obtain ⟨tree, items, h1, h2, h3, h4, h5⟩ := projectSources_some h
  obtain ⟨_, outer, hp⟩ := tree_paths hn ha hu h1
  have hnames : ∀ q ∈ treePaths tree, ∀ m ∈ q.1, m ≠ [] := by
    intro q hq m hm
    have := hp.subset (List.mem_map.mpr ⟨q, hq, rfl⟩)
    obtain ⟨s, hs, heq⟩ := List.mem_map.mp this
    obtain ⟨f, hf, rfl⟩ := List.mem_map.mp (List.mem_filter.mp hs).1
    have hfold : foldersOf (fixPath p.paths f) (FullyExcluded p.paths p.target excluded (fixPath p.paths f)) =
        outer ++ q.1 := congrArg Prod.fst heq
    have : m ∈ foldersOf (fixPath p.paths f) (FullyExcluded p.paths p.target excluded (fixPath p.paths f)) := by
      rw [hfold]
      exact List.mem_append_right _ hm
    unfold foldersOf at this
    rcases List.mem_append.mp this with this | this
    · exact hparts f hf m ((List.dropLast_sublist _).subset this)
    · split at this
      · rw [List.mem_singleton] at this
        rw [this]
        decide
      · simp at this
  have hentry := filterEntries_entries (typeIn p) [] (by simp) tree hnames
  have hdecl := filterEntries_declared (typeIn p) [] (by simp) tree hnames
  simp only [joinWith] at hentry hdecl
  have hmem : ∀ f ∈ all, Shown p excluded (fixPath p.paths f) → ∃ q ∈ treePaths tree,
      foldersOf (fixPath p.paths f) (FullyExcluded p.paths p.target excluded (fixPath p.paths f)) = outer ++ q.1 := by
    intro f hf hsh
    have := hp.symm.subset (List.mem_map.mpr ⟨fixPath p.paths f,
      List.mem_filter.mpr ⟨List.mem_map.mpr ⟨f, hf, rfl⟩, by simpa using hsh⟩, rfl⟩)
    obtain ⟨q, hq, heq⟩ := List.mem_map.mp this
    exact ⟨q, hq, (congrArg Prod.fst heq).symm⟩
  refine ⟨outer, ?_, ?_, ?_⟩
  · intro f hf hsh
    obtain ⟨q, _, hq⟩ := hmem f hf hsh
    rw [hq]
    exact List.prefix_append ..
  · rw [h5, hentry, List.map_map]
    have := hp.map fun q : List Str × Str => (q.2, folderText (q.1.drop outer.length))
    simp only [List.map_map, Function.comp_def] at this
    simpa [Function.comp_def] using this
  · intro f hf hsh front hne hpre
    obtain ⟨q, hq1, hq2⟩ := hmem f hf hsh
    rw [hq2, List.drop_left] at hpre
    rw [h4]
    have := hdecl q hq1 front hne hpre
    simpa using this

/-! ### Where the files come from -/

theorem prepareAction_mem (w : WinPaths) (ext : Bool) (acts : List WinAction) (acc : List Str × List Str)
    (f : Str) :
    (f ∈ (acts.foldl (prepareAction w ext) acc).1 ↔ f ∈ acc.1 ∨ ∃ a ∈ acts,
      (∃ x ∈ a.inputs, normalizedSource w x = f) ∨
        (a.asSources = true ∧ ∃ x ∈ a.outputs, normalizedSource w x = f)) ∧
    (f ∈ (acts.foldl (prepareAction w ext) acc).2 ↔ f ∈ acc.2 ∨
      (ext = false ∧ ∃ a ∈ acts, ∃ x ∈ a.inputs, normalizedSource w x = f)) := by
  induction acts generalizing acc with
  | nil => simp
  | cons a acts ih =>
    rw [List.foldl_cons]
    obtain ⟨h1, h2⟩ := ih (prepareAction w ext acc a)
    constructor
    · rw [h1]
      have : f ∈ (prepareAction w ext acc a).1 ↔ f ∈ acc.1 ∨ (∃ x ∈ a.inputs, normalizedSource w x = f) ∨
          (a.asSources = true ∧ ∃ x ∈ a.outputs, normalizedSource w x = f) := by
        unfold prepareAction
        cases a.asSources <;> simp [mem_winUpdate, or_assoc]
      rw [this]
      simp [or_assoc]
    · rw [h2]
      have : f ∈ (prepareAction w ext acc a).2 ↔ f ∈ acc.2 ∨
          (ext = false ∧ ∃ x ∈ a.inputs, normalizedSource w x = f) := by
        unfold prepareAction
        cases ext <;> simp [mem_winUpdate]
      rw [this]
      cases ext <;> simp [or_assoc]

theorem prepareCopies_mem (w : WinPaths) (copies : List (List Str)) (acc : List Str) (f : Str) :
    f ∈ copies.foldl (fun s files => winUpdate s (files.map (normalizedSource w))) acc ↔
      f ∈ acc ∨ ∃ files ∈ copies, ∃ x ∈ files, normalizedSource w x = f := by
  induction copies generalizing acc with
  | nil => simp
  | cons c copies ih =>
    rw [List.foldl_cons, ih, mem_winUpdate]
    simp [or_assoc]

/-- The files of a target: its sources, its build file, the inputs of its actions, the outputs
that are sources, and the files that are copied; the inputs are excluded from being built as
sources. -/
theorem C80_sources (w : WinPaths) (t : WinTarget) (standalone : Bool) (gypFile f : Str) :
    (f ∈ (prepareSources w t standalone gypFile).1 ↔
      (∃ x ∈ t.sources, normalizedSource w x = f) ∨ (standalone = false ∧ f = gypFile) ∨
      (∃ a ∈ t.actions, (∃ x ∈ a.inputs, normalizedSource w x = f) ∨
        (a.asSources = true ∧ ∃ x ∈ a.outputs, normalizedSource w x = f)) ∨
      ∃ files ∈ t.copies, ∃ x ∈ files, normalizedSource w x = f) ∧
    (f ∈ (prepareSources w t standalone gypFile).2 ↔
      t.external = false ∧ ∃ a ∈ t.actions, ∃ x ∈ a.inputs, normalizedSource w x = f) := by
  unfold prepareSources
  simp only
  constructor
  · rw [prepareCopies_mem, (prepareAction_mem _ _ _ _ _).1]
    cases standalone <;> simp [mem_winUpdate, mem_listAdd_str, or_assoc]
  · rw [(prepareAction_mem _ _ _ _ _).2]
    simp

/-- They are listed once each. -/
theorem C80_sources_once (w : WinPaths) (t : WinTarget) (standalone : Bool) (gypFile : Str) :
    (prepareSources w t standalone gypFile).1.Nodup := by
  unfold prepareSources
  simp only
  have h1 : ∀ (copies : List (List Str)) (acc : List Str), acc.Nodup →
      (copies.foldl (fun s files => winUpdate s (files.map (normalizedSource w))) acc).Nodup := by
    intro copies
    induction copies with
    | nil => intro acc h; exact h
    | cons c copies ih => intro acc h; exact ih _ (nodup_winUpdate h)
  have h2 : ∀ (acts : List WinAction) (acc : List Str × List Str), acc.1.Nodup →
      (acts.foldl (prepareAction w t.external) acc).1.Nodup := by
    intro acts
    induction acts with
    | nil => intro acc h; exact h
    | cons a acts ih =>
      intro acc h
      refine ih _ ?_
      unfold prepareAction
      cases a.asSources
      · exact nodup_winUpdate h
      · exact nodup_winUpdate (nodup_winUpdate h)
  refine h1 _ _ (h2 _ _ ?_)
  cases standalone
  · exact nodup_listAdd_str (nodup_winUpdate List.nodup_nil)
  · exact nodup_winUpdate List.nodup_nil

/-! ### Examples -/

/-- Paths that are normal already, in projects one directory below the build file. -/
def examplePaths : WinPaths where
  norm := fun s => if s = [] then c!"." else s
  isabs := fun s => startsWith s c!"\\"
  join := fun a b => a ++ c!"\\" ++ b
  base := c!".."

/-- An addon with sources, an excluded source and an action. -/
def exampleAddon : WinTarget where
  sources := [c!"src/addon.cc", c!"src/util.c", c!"src/util.h"]
  sourcesExcluded := [c!"src/posix.cc"]
  actions := [⟨[c!"src/gen.py", c!"src/table.txt"], [c!"gen.cc"], true⟩]
  copies := []
  configurations := [(c!"Debug_x64", { pchSource := c!"src/addon.cc", platform := c!"x64" }),
    (c!"Release_x64", { platform := c!"x64" })]
  toolset := c!"target"

def exampleProject : ProjectInput where
  paths := examplePaths
  target := exampleAddon
  listExcluded := true
  rules := []
  dependencies := []
  attached := [c!"src/gen.py"]

def exampleFiles : List Str :=
  [c!"src/addon.cc", c!"src/util.c", c!"src/util.h", c!"binding.gyp", c!"src/gen.py", c!"src/table.txt",
    c!"gen.cc", c!"src/posix.cc"]

def exampleResult : ProjectSources :=
  ⟨[[⟨c!"None", c!"..\\binding.gyp", []⟩,
     ⟨c!"None", c!"..\\src\\table.txt", [⟨c!"ExcludedFromBuild", none, c!"true"⟩]⟩],
    [⟨c!"ClInclude", c!"..\\src\\util.h", []⟩],
    [⟨c!"ClCompile", c!"..\\src\\addon.cc",
        [⟨c!"PrecompiledHeader", some c!"'$(Configuration)|$(Platform)'=='Debug|x64'", c!"Create"⟩,
         ⟨c!"ObjectFileName", none, c!"$(IntDir)\\src\\addon.obj"⟩]⟩,
     ⟨c!"ClCompile", c!"..\\src\\util.c",
        [⟨c!"PrecompiledHeader", none, []⟩, ⟨c!"ForcedIncludeFiles", none, []⟩,
         ⟨c!"PrecompiledHeader", none, []⟩, ⟨c!"ForcedIncludeFiles", none, []⟩,
         ⟨c!"ObjectFileName", none, c!"$(IntDir)\\src\\util.obj"⟩]⟩,
     ⟨c!"ClCompile", c!"..\\gen.cc", [⟨c!"ObjectFileName", none, c!"$(IntDir)\\gen.obj"⟩]⟩,
     ⟨c!"ClCompile", c!"..\\src\\posix.cc",
        [⟨c!"ExcludedFromBuild", none, c!"true"⟩,
         ⟨c!"ObjectFileName", none, c!"$(IntDir)\\src\\posix.obj"⟩]⟩]],
   [c!"src", c!"src", c!"src", c!"src", c!"src\\_excluded_files", c!"src", c!"src\\_excluded_files",
     c!"src", c!"src\\_excluded_files"],
   [⟨c!"ClCompile", c!"..\\src\\addon.cc", some c!"src"⟩,
    ⟨c!"ClCompile", c!"..\\src\\util.c", some c!"src"⟩,
    ⟨c!"ClInclude", c!"..\\src\\util.h", some c!"src"⟩,
    ⟨c!"None", c!"..\\binding.gyp", none⟩,
    ⟨c!"None", c!"..\\src\\gen.py", some c!"src\\_excluded_files"⟩,
    ⟨c!"None", c!"..\\src\\table.txt", some c!"src\\_excluded_files"⟩,
    ⟨c!"ClCompile", c!"..\\gen.cc", none⟩,
    ⟨c!"ClCompile", c!"..\\src\\posix.cc", some c!"src\\_excluded_files"⟩]⟩

theorem example_result : projectSources exampleProject
    (prepareSources examplePaths exampleAddon false c!"binding.gyp").1
    (prepareSources examplePaths exampleAddon false c!"binding.gyp").2 = some exampleResult := by
  decide +kernel

theorem example_all : AllFiles exampleFiles
    (prepareSources examplePaths exampleAddon false c!"binding.gyp").1
    (prepareSources examplePaths exampleAddon false c!"binding.gyp").2 exampleAddon := by
  refine ⟨by decide, ?_⟩
  have h1 : (prepareSources examplePaths exampleAddon false c!"binding.gyp").1 =
      [c!"src/addon.cc", c!"src/util.c", c!"src/util.h", c!"binding.gyp", c!"src/gen.py", c!"src/table.txt",
        c!"gen.cc"] := by decide +kernel
  have h2 : (prepareSources examplePaths exampleAddon false c!"binding.gyp").2 =
      [c!"src/gen.py", c!"src/table.txt"] := by decide +kernel
  rw [h1, h2]
  intro f
  simp only [exampleFiles, exampleAddon, List.mem_cons, List.not_mem_nil, or_false]
  tauto

theorem example_usual : UsualFiles examplePaths exampleFiles := by
  unfold UsualFiles NormalPath
  have : ∀ f ∈ exampleFiles, fixPath examplePaths f ≠ [] ∧ fixPath examplePaths f ≠ fixPath examplePaths [] ∧
      examplePaths.norm (fixPath examplePaths f) = fixPath examplePaths f := by decide +kernel
  exact fun f hf => ⟨(this f hf).1, (this f hf).2.1, Or.inl (this f hf).2.2⟩

/-- The items are the files, without the one the action is attached to. -/
example : List.Perm (exampleResult.groups.flatten.map (·.source))
    ((exampleFiles.map (fixPath examplePaths)).filter fun s =>
      Shown exampleProject (prepareSources examplePaths exampleAddon false c!"binding.gyp").2 s ∧
        ¬ HasAction exampleProject s) :=
  C80_items (p := exampleProject) (C80_sources_once ..) example_all example_usual example_result

/-- The excluded source is not built. -/
example : metadata [⟨c!"ExcludedFromBuild", none, c!"true"⟩,
      ⟨c!"ObjectFileName", none, c!"$(IntDir)\\src\\posix.obj"⟩] c!"ExcludedFromBuild"
    (conditionOf c!"target" (c!"Debug_x64", { pchSource := c!"src/addon.cc", platform := c!"x64" })) =
      some c!"true" :=
  (C80_excluded (p := exampleProject) (C80_sources_once ..) example_all example_usual example_result
    ⟨c!"ClCompile", c!"..\\src\\posix.cc", _⟩ (by decide +kernel)
    (c!"Debug_x64", { pchSource := c!"src/addon.cc", platform := c!"x64" }) (by decide)).trans
    (if_pos (Or.inr ⟨⟨c!"src/posix.cc", Or.inr (by decide), by decide +kernel⟩, by
      rintro (⟨h, _⟩ | ⟨_, h⟩)
      · exact h rfl
      · revert h
        decide +kernel⟩))

theorem example_oneKind : OneKind examplePaths exampleAddon := by
  intro c hc c' hc' h1 h2 ext hw
  have hcs : ∀ c ∈ exampleAddon.configurations, c.2.pchSource ≠ [] →
      fixPath examplePaths c.2.pchSource = c!"..\\src\\addon.cc" := by decide +kernel
  rw [hcs c hc h1] at hw
  rw [hcs c' hc' h2]
  have hno : ¬ HasExtension c!"..\\src\\addon.cc" c!".c" := by
    rw [← winSplitext_ext _ _ (by decide)]
    decide +kernel
  unfold WrongKind at hw
  rw [if_neg hno] at hw
  subst hw
  rintro ⟨front, h⟩
  have := congrArg List.reverse h
  rw [List.reverse_append] at this
  revert this
  simp

/-- The source of the precompiled header makes it. -/
example : metadata [⟨c!"PrecompiledHeader", some c!"'$(Configuration)|$(Platform)'=='Debug|x64'", c!"Create"⟩,
      ⟨c!"ObjectFileName", none, c!"$(IntDir)\\src\\addon.obj"⟩] c!"PrecompiledHeader"
    (conditionOf c!"target" (c!"Debug_x64", { pchSource := c!"src/addon.cc", platform := c!"x64" })) =
      some c!"Create" :=
  (C80_precompiled (p := exampleProject) (C80_sources_once ..) example_all example_usual example_result
    example_oneKind (by unfold DistinctConditions; decide +kernel)
    ⟨c!"ClCompile", c!"..\\src\\addon.cc", _⟩ (by decide +kernel)
    (c!"Debug_x64", { pchSource := c!"src/addon.cc", platform := c!"x64" }) (by decide)).trans
    (if_pos ⟨by decide, by decide +kernel⟩)

/-- A C file is compiled, below the directory for objects. -/
example (t : Str) : metadata [⟨c!"PrecompiledHeader", none, []⟩, ⟨c!"ForcedIncludeFiles", none, []⟩,
         ⟨c!"PrecompiledHeader", none, []⟩, ⟨c!"ForcedIncludeFiles", none, []⟩,
         ⟨c!"ObjectFileName", none, c!"$(IntDir)\\src\\util.obj"⟩] c!"ObjectFileName" t =
    some c!"$(IntDir)\\src\\util.obj" :=
  C80_object (n := 1) (stem := c!"src\\util") (ext := c!".c") example_result
    ⟨c!"ClCompile", c!"..\\src\\util.c", _⟩ (by decide +kernel) rfl
    ((winSplitext_ext _ _ (by decide)).mp (by decide +kernel)) (by decide +kernel) rfl (by decide +kernel)
    (by decide) (by decide) t

/-- The objects of the two sources differ, also when case does not count. -/
example (t t' : Str) :
    (metadata [⟨c!"ObjectFileName", none, c!"$(IntDir)\\gen.obj"⟩] c!"ObjectFileName" t).map (List.map Char.toLower) ≠
    (metadata [⟨c!"ExcludedFromBuild", none, c!"true"⟩,
         ⟨c!"ObjectFileName", none, c!"$(IntDir)\\src\\posix.obj"⟩] c!"ObjectFileName" t').map
      (List.map Char.toLower) :=
  C80_objects_apart (n := 1) (m := 1) (stem₁ := c!"gen") (ext₁ := c!".cc") (stem₂ := c!"src\\posix")
    (ext₂ := c!".cc") example_result Char.toLower
    ⟨c!"ClCompile", c!"..\\gen.cc", _⟩ ⟨c!"ClCompile", c!"..\\src\\posix.cc", _⟩
    (by decide +kernel) (by decide +kernel) rfl rfl
    ((winSplitext_ext _ _ (by decide)).mp (by decide +kernel))
    ((winSplitext_ext _ _ (by decide)).mp (by decide +kernel))
    (by decide +kernel) (by decide +kernel) rfl rfl (by decide +kernel) (by decide +kernel)
    (by decide) (by decide) (by decide) (by decide) (by decide) t t'

/-- A header is a `ClInclude` item. -/
example : c!"ClInclude" = if c!"ClInclude" = c!"MASM" ∧ exampleAddon.toolset = c!"target" ∧
    ∃ c ∈ exampleAddon.configurations, c.2.platform = c!"arm64" then c!"MARMASM" else c!"ClInclude" :=
  ((C80_type example_result ⟨c!"ClInclude", c!"..\\src\\util.h", []⟩ (by decide +kernel)).1 c!".h"
    ((winSplitext_ext _ _ (by decide)).mp (by decide +kernel))).2 rfl |>.1 c!"ClInclude" (by decide +kernel)

/-- An input of the action is a file of the target and excluded. -/
example : c!"src/table.txt" ∈ (prepareSources examplePaths exampleAddon false c!"binding.gyp").1 ∧
    c!"src/table.txt" ∈ (prepareSources examplePaths exampleAddon false c!"binding.gyp").2 :=
  ⟨(C80_sources ..).1.mpr (Or.inr (Or.inr (Or.inl ⟨_, List.mem_singleton_self _,
      Or.inl ⟨c!"src/table.txt", by decide, by decide +kernel⟩⟩))),
   (C80_sources ..).2.mpr ⟨rfl, _, List.mem_singleton_self _, c!"src/table.txt", by decide, by decide +kernel⟩⟩

/-- The files are in the folder `src`, or outside of folders. -/
example : ∃ outer : List Str, List.Perm (exampleResult.entries.map fun e => (e.source, e.folder))
    (((exampleFiles.map (fixPath examplePaths)).filter fun s =>
        Shown exampleProject (prepareSources examplePaths exampleAddon false c!"binding.gyp").2 s).map fun s =>
      (s, folderText ((foldersOf s (FullyExcluded examplePaths exampleAddon
        (prepareSources examplePaths exampleAddon false c!"binding.gyp").2 s)).drop outer.length))) := by
  obtain ⟨outer, _, h, _⟩ := C80_folders (p := exampleProject) (C80_sources_once ..) example_all example_usual
    (by decide +kernel) example_result
  exact ⟨outer, h⟩

/-! ### What goes wrong -/

/-- A target with one excluded source that is the precompiled source of one configuration. -/
def partlyExcluded : ProjectInput where
  paths := examplePaths
  target := { sources := [c!"a.cc"], sourcesExcluded := [c!"pch.cc"], actions := [], copies := [],
              configurations := [(c!"Debug", { pchSource := c!"pch.cc" }), (c!"Release", {})],
              toolset := c!"target" }
  listExcluded := true
  rules := []
  dependencies := []
  attached := []

/-- A source that is excluded in some configurations but not in all ends the run: the
condition is asked for with an argument missing (msvs.py:3573). -/
theorem C80_partly_excluded : projectSources partlyExcluded [c!"a.cc"] [] = none := by decide +kernel

/-- The theorem about failures applies to it. -/
example : ∃ f ∈ [c!"a.cc", c!"pch.cc"], ¬ HasAction partlyExcluded (fixPath examplePaths f) ∧
    (∃ c ∈ partlyExcluded.target.configurations, NotBuilt partlyExcluded [] c.2 (fixPath examplePaths f)) ∧
    ∃ c ∈ partlyExcluded.target.configurations, ¬ NotBuilt partlyExcluded [] c.2 (fixPath examplePaths f) := by
  refine (C80_stops (p := partlyExcluded) (all := [c!"a.cc", c!"pch.cc"]) (sources := [c!"a.cc"]) (excluded := [])
    (by decide) ⟨by decide, ?_⟩ ?_ rfl (Or.inl ⟨c!"a.cc", by decide, ?_⟩)).mp C80_partly_excluded
  · intro f
    simp [partlyExcluded]
  · intro f hf
    have : ∀ f ∈ [c!"a.cc", c!"pch.cc"], fixPath examplePaths f ≠ [] ∧
        fixPath examplePaths f ≠ fixPath examplePaths [] ∧
        examplePaths.norm (fixPath examplePaths f) = fixPath examplePaths f := by decide +kernel
    exact ⟨(this f hf).1, (this f hf).2.1, Or.inl (this f hf).2.2⟩
  · have h : fixPath partlyExcluded.paths c!"a.cc" = c!"..\\a.cc" := by decide +kernel
    rw [h]
    simp [foldersOf, splitOn]

/-- Sources that share a stem, or that only differ in the directories that lead up. -/
def clashing : ProjectInput where
  paths := { examplePaths with base := [] }
  target := { sources := [], sourcesExcluded := [], actions := [], copies := [],
              configurations := [(c!"Release", {})], toolset := c!"target" }
  listExcluded := true
  rules := []
  dependencies := []
  attached := []

/-- Two sources of one directory that differ in their extension have one object, and so have
two sources of which one is in the directory above. -/
theorem C80_shared_objects :
    (projectSources clashing [c!"a.c", c!"a.cc", c!"..\\a.cc"] []).map (fun r => r.groups.flatten.map fun i =>
      (i.source, metadata i.details c!"ObjectFileName" [])) =
    some [(c!"a.c", some c!"$(IntDir)\\a.obj"), (c!"a.cc", some c!"$(IntDir)\\a.obj"),
      (c!"..\\a.cc", some c!"$(IntDir)\\a.obj")] := by decide +kernel

theorem variable_result : projectSources clashing [c!"$(ROOT)\\d\\a.cc"] [] =
    some ⟨[[⟨c!"ClCompile", c!"$(ROOT)\\d\\a.cc", [⟨c!"ObjectFileName", none, c!"$(IntDir)\\d\\a.obj"⟩]⟩]],
      [], [⟨c!"ClCompile", c!"$(ROOT)\\d\\a.cc", none⟩]⟩ := by decide +kernel

/-- A source below a variable. -/
example (t : Str) : metadata [⟨c!"ObjectFileName", none, c!"$(IntDir)\\d\\a.obj"⟩] c!"ObjectFileName" t =
    some (c!"$(IntDir)\\" ++ c!"d\\a" ++ c!".obj") :=
  C80_object_variable variable_result
    ⟨c!"ClCompile", c!"$(ROOT)\\d\\a.cc", [⟨c!"ObjectFileName", none, c!"$(IntDir)\\d\\a.obj"⟩]⟩
    (by decide) (var := c!"ROOT") (stem := c!"d\\a") (ext := c!".cc") (by decide) (by decide) (by decide)
    ⟨c!"$(ROOT)\\d\\", c!"a", c!"cc", by decide, by decide, by decide, by decide, by decide, by decide, 'a', by decide, by decide⟩
    (by decide) (by decide) (by decide) t

/-- Two spellings of an excluded source are two items: `sources_excluded` is not normalised
before it is merged. -/
theorem C80_listed_twice :
    (projectSources { clashing with target := { clashing.target with sourcesExcluded := [c!"d/a.c", c!"d\\a.c"] } }
      [c!"b.c"] []).map (fun r => r.groups.flatten.map (·.source)) =
    some [c!"b.c", c!"d\\a.c", c!"d\\a.c"] := by decide +kernel

/-- When excluded files are not listed, an excluded file below the common directory of all
files ends the run: its folder is empty (the assertion of msvs.py:1577). -/
theorem C80_unlisted_fails :
    projectSources { clashing with
      target := { clashing.target with sourcesExcluded := [c!"d\\a.c"] }, listExcluded := false }
      [c!"d\\b.c"] [] = none := by decide +kernel

end Gyp
