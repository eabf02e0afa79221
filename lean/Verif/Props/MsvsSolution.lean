import Verif.Proofs.SlnRead
/-
C86: The Visual Studio solution of a build file and the references between projects.
-/
namespace Gyp
open Spec

/-! ### Configurations -/

theorem configBaseName_base (name platform : Str) : ConfigBase name platform (configBaseName name platform) := by
  unfold configBaseName ConfigBase
  by_cases h : endsWith name ('_' :: platform) = true
  · rw [if_pos h]
    unfold endsWith at h
    rw [List.isSuffixOf_iff_suffix] at h
    obtain ⟨b, rfl⟩ := h
    left
    simp
  · rw [if_neg h]
    right
    refine ⟨rfl, ?_⟩
    rintro ⟨b, e⟩
    exact h (by rw [e]; exact endsWith_append _ _)

theorem configBase_unique {name platform a b : Str} (ha : ConfigBase name platform a)
    (hb : ConfigBase name platform b) : a = b := by
  rcases ha with ha | ⟨ha, na⟩
  · rcases hb with hb | ⟨hb, nb⟩
    · rw [ha] at hb; exact List.append_cancel_right hb
    · exact absurd ⟨a, ha⟩ nb
  · rcases hb with hb | ⟨hb, nb⟩
    · exact absurd ⟨b, hb⟩ na
    · rw [← ha, ← hb]

theorem fullName_iff (c : Str × SlnConfig) (v : Str) : FullName c v ↔ v = configFullName c.1 c.2 := by
  constructor
  · rintro ⟨b, hb, rfl⟩
    rw [configBase_unique hb (configBaseName_base _ _)]
    rfl
  · rintro rfl
    exact ⟨_, configBaseName_base _ _, rfl⟩

theorem builds_iff (env : SlnEnv) (t : SlnTarget) (c : Str × SlnConfig) (w : Str) :
    Builds env t c w ↔ w = fixedName env t c := by
  unfold Builds fixedName
  split
  · exact Iff.rfl
  · constructor
    · rintro ⟨b, hb, rfl⟩
      rw [configBase_unique hb (configBaseName_base _ _)]
    · rintro rfl
      exact ⟨_, configBaseName_base _ _, rfl⟩

theorem mapsTo_overrides (env : SlnEnv) (t : SlnTarget) (v : Str) :
    MapsTo env t v ((aget (platformOverrides env t) v).getD v) := by
  rw [platformOverrides_eq]
  unfold MapsTo
  have key : ∀ (cs : List (Str × SlnConfig)),
      (∃ pre c post, cs = pre ++ c :: post ∧ FullName c v ∧ (∀ c' ∈ post, ¬ FullName c' v) ∧
        aget (cs.foldl (fun d c => aset d (configFullName c.1 c.2) (fixedName env t c)) []) v =
          some (fixedName env t c)) ∨
      ((∀ c ∈ cs, ¬ FullName c v) ∧
        aget (cs.foldl (fun d c => aset d (configFullName c.1 c.2) (fixedName env t c)) []) v = none) := by
    intro cs
    induction cs using List.reverseRecOn with
    | nil => exact Or.inr ⟨by simp, rfl⟩
    | append_singleton cs c ih =>
      rw [List.foldl_append]
      simp only [List.foldl_cons, List.foldl_nil, aget_aset]
      by_cases h : v = configFullName c.1 c.2
      · left
        exact ⟨cs, c, [], rfl, (fullName_iff c v).mpr h, by simp, by rw [if_pos h]⟩
      · rw [if_neg h]
        have hc : ¬ FullName c v := fun e => h ((fullName_iff c v).mp e)
        rcases ih with ⟨pre, c', post, e, h1, h2, h3⟩ | ⟨h1, h2⟩
        · left
          refine ⟨pre, c', post ++ [c], by rw [e]; simp, h1, ?_, h3⟩
          intro c'' hc''
          rcases List.mem_append.mp hc'' with h | h
          · exact h2 c'' h
          · rw [List.mem_singleton.mp h]; exact hc
        · right
          refine ⟨fun c'' hc'' => ?_, h2⟩
          rcases List.mem_append.mp hc'' with h | h
          · exact h1 c'' h
          · rw [List.mem_singleton.mp h]; exact hc
  rcases key t.configurations with ⟨pre, c, post, e, h1, h2, h3⟩ | ⟨h1, h2⟩
  · left
    refine ⟨pre, c, post, e, h1, h2, ?_⟩
    rw [h3, builds_iff]
    rfl
  · right
    refine ⟨h1, ?_⟩
    rw [h2]
    rfl

/-! ### Sections -/

theorem SlnRead.variants {env : SlnEnv} {targets : List (Str × SlnTarget)} {file text : Str}
    {heap : List (Str × SlnProject)} {projects : List Str} {roots entries : List SEntry}
    {configs : List Str} (h : SlnRead env targets file text heap projects roots entries configs) :
    (readSln text).section_ c!"SolutionConfigurationPlatforms" =
      (writtenVariants (shownConfigs env configs)).map fun v => (v, v) := by
  rw [h.read]
  unfold SlnState.section_ sectionsOf
  simp only
  split <;> simp

theorem SlnRead.configured {env : SlnEnv} {targets : List (Str × SlnTarget)} {file text : Str}
    {heap : List (Str × SlnProject)} {projects : List Str} {roots entries : List SEntry}
    {configs : List Str} (h : SlnRead env targets file text heap projects roots entries configs) :
    (readSln text).section_ c!"ProjectConfigurationPlatforms" =
      (configGuids env heap entries).flatMap fun g =>
        (writtenVariants (shownConfigs env configs)).flatMap (configPairs (guidOverrides env heap entries) g) := by
  rw [h.read]
  unfold SlnState.section_ sectionsOf
  simp only
  split <;> simp

theorem SlnRead.nested {env : SlnEnv} {targets : List (Str × SlnTarget)} {file text : Str}
    {heap : List (Str × SlnProject)} {projects : List Str} {roots entries : List SEntry}
    {configs : List Str} (h : SlnRead env targets file text heap projects roots entries configs) :
    (readSln text).section_ c!"NestedProjects" = nestedPairs env heap entries := by
  rw [h.read]
  unfold SlnState.section_ sectionsOf
  simp only
  by_cases ha : entries.any (fun e => !(folderEntries e).isEmpty) = true
  · rw [if_pos ha]
    simp
  · rw [if_neg ha]
    have : nestedPairs env heap entries = [] := by
      unfold nestedPairs
      rw [List.flatMap_eq_nil_iff]
      intro e he
      simp only [List.any_eq_true, not_exists, not_and, Bool.not_eq_true, Bool.not_eq_false'] at ha
      have := ha e he
      simp only [List.isEmpty_iff] at this
      rw [this]
      rfl
    rw [this]
    simp

/-- The configurations a solution offers are exactly those of the targets, each once. -/
theorem C86_variants (env : SlnEnv) (targets : List (Str × SlnTarget)) (file text : Str)
    (hn : SlnNamed targets) (hf : SlnFine env targets) (hp : SlnPlaces targets)
    (h : IsSolution env targets file text) :
    ∃ vs : List Str,
      (readSln text).section_ c!"SolutionConfigurationPlatforms" = vs.map (fun v => (v, v)) ∧
      vs.Nodup ∧
      ((∃ v, Offered env targets v) → ∀ v, v ∈ vs ↔ Offered env targets v) ∧
      ((¬ ∃ v, Offered env targets v) → vs = [c!"Debug|Win32", c!"Release|Win32"]) := by
  obtain ⟨heap, projects, roots, entries, configs, hr⟩ := solution_read hn hf hp h
  refine ⟨_, hr.variants, ?_, ?_⟩
  · have hnd : configs.Nodup := hr.configs_perm.nodup_iff.mpr (solutionConfigs_nodup targets)
    unfold writtenVariants
    split
    · unfold shownConfigs
      split
      · exact hnd.filter _
      · exact hnd
    · decide
  · have hmem : ∀ v, v ∈ shownConfigs env configs ↔ Offered env targets v := by
      intro v
      unfold shownConfigs Offered
      have h1 : v ∈ configs ↔ ∃ x ∈ targets, ∃ c ∈ x.2.configurations,
          FullName c v ∨ (FullName c c!"Release|arm64" ∧ v = c!"Release|x64") := by
        rw [hr.configs_perm.mem_iff, mem_solutionConfigs]
        simp only [fullName_iff]
        constructor
        · rintro ⟨x, hx, c, hc, e | ⟨e1, e2⟩⟩
          · exact ⟨x, hx, c, hc, Or.inl e⟩
          · exact ⟨x, hx, c, hc, Or.inr ⟨e1.symm, e2⟩⟩
        · rintro ⟨x, hx, c, hc, e | ⟨e1, e2⟩⟩
          · exact ⟨x, hx, c, hc, Or.inl e⟩
          · exact ⟨x, hx, c, hc, Or.inr ⟨e1.symm, e2⟩⟩
      by_cases hm : env.multi = true
      · rw [if_pos hm, List.mem_filter, h1]
        refine and_congr_right' ?_
        simp only [hm, forall_const]
        unfold endsWith
        rw [List.isSuffixOf_iff_suffix]
        constructor
        · rintro ⟨b, rfl⟩; exact ⟨b, rfl⟩
        · rintro ⟨b, rfl⟩; exact ⟨b, rfl⟩
      · rw [if_neg hm, h1]
        simp [hm]
    unfold writtenVariants
    constructor
    · rintro ⟨v, hv⟩
      rw [if_pos (by intro e; rw [← hmem, e] at hv; cases hv)]
      exact hmem
    · intro hno
      rw [if_neg]
      intro hne
      obtain ⟨v, hv⟩ := List.exists_mem_of_ne_nil _ hne
      exact hno ⟨v, (hmem v).mp hv⟩

/-! ### Projects -/

/-- The targets of a solution. -/
theorem SlnRead.targets_list {env : SlnEnv} {targets : List (Str × SlnTarget)} {file text : Str}
    {heap : List (Str × SlnProject)} {projects : List Str} {roots entries : List SEntry}
    {configs : List Str} (hn : SlnNamed targets)
    (h : SlnRead env targets file text heap projects roots entries configs) :
    ∃ xs : List (Str × SlnTarget), xs.Nodup ∧ xs.map (·.1) = projectKeys entries ∧
      (∀ x, x ∈ xs ↔ x ∈ targets ∧ InSolution targets file x.1) := by
  have hk : ∀ q ∈ projectKeys entries, q ∈ targets.map (·.1) :=
    fun q hq => h.sub q (h.keys_perm.mem_iff.mp hq)
  have : ∀ qs : List Str, (∀ q ∈ qs, q ∈ targets.map (·.1)) →
      ∃ xs : List (Str × SlnTarget), xs.map (·.1) = qs ∧ ∀ x ∈ xs, x ∈ targets := by
    intro qs
    induction qs with
    | nil => intro _; exact ⟨[], rfl, by simp⟩
    | cons q qs ih =>
      intro hq
      obtain ⟨xs, h1, h2⟩ := ih fun q hq' => hq q (List.mem_cons_of_mem _ hq')
      obtain ⟨x, hx, e⟩ := List.mem_map.mp (hq q (by simp))
      exact ⟨x :: xs, by rw [List.map_cons, h1, e], by
        intro y hy
        rcases List.mem_cons.mp hy with rfl | hy
        · exact hx
        · exact h2 y hy⟩
  obtain ⟨xs, h1, h2⟩ := this _ hk
  have hnd : (xs.map (·.1)).Nodup := by rw [h1]; exact h.keys_perm.nodup_iff.mpr h.nodup
  refine ⟨xs, hnd.of_map _, h1, fun x => ⟨fun hx => ⟨h2 x hx, ?_⟩, ?_⟩⟩
  · rw [← h.mem, ← h.keys_perm.mem_iff, ← h1]
    exact List.mem_map.mpr ⟨x, hx, rfl⟩
  · rintro ⟨hx, hi⟩
    rw [← h.mem, ← h.keys_perm.mem_iff, ← h1] at hi
    obtain ⟨y, hy, e⟩ := List.mem_map.mp hi
    have : y = x := (List.inj_on_of_nodup_map hn.keys) (h2 y hy) hx e
    rw [← this]; exact hy

theorem SlnRead.get {env : SlnEnv} {targets : List (Str × SlnTarget)} {file text : Str}
    {heap : List (Str × SlnProject)} {projects : List Str} {roots entries : List SEntry}
    {configs : List Str} (hn : SlnNamed targets)
    (h : SlnRead env targets file text heap projects roots entries configs)
    {x : Str × SlnTarget} (hx : x ∈ targets) : aget heap x.1 = some (projectOf env x.1 x.2) := by
  rw [h.heap_eq, aget_map (projectOf env), aget_target hn.keys hx]
  rfl

theorem projects_records (env : SlnEnv) (heap : List (Str × SlnProject)) (sln : Str) (es : List SEntry) :
    (es.map (slnRecordOf env heap sln)).filter (fun r => r.kind = projectKind) =
      (projectKeys es).map fun q => slnRecordOf env heap sln (.project q) := by
  induction es with
  | nil => rfl
  | cons e es ih =>
    cases e with
    | project q =>
      simp only [List.map_cons, projectKeys]
      rw [List.filter_cons_of_pos (by simp [slnRecordOf, entryType, projectKind]), ih]
    | folder p n l =>
      simp only [List.map_cons, projectKeys]
      rw [List.filter_cons_of_neg (by simp [slnRecordOf, entryType, projectKind]), ih]

theorem projectFile_walk {env : SlnEnv} {targets : List (Str × SlnTarget)} (hn : SlnNamed targets)
    {x : Str × SlnTarget} (hx : x ∈ targets) :
    walk env.cwd.reverse (pathOfProject env x.1 x.2) = projectFile env x :=
  walk_projectPath env x.1 (fileOf x.1) x.2 (hn.buildFile hx) (hn.named x hx).2.2.2.2 _

theorem guid_known {env : SlnEnv} {targets : List (Str × SlnTarget)} {file text : Str}
    {heap : List (Str × SlnProject)} {projects : List Str} {roots entries : List SEntry}
    {configs : List Str} (hn : SlnNamed targets)
    (h : SlnRead env targets file text heap projects roots entries configs)
    {x : Str × SlnTarget} (hx : x ∈ targets) :
    entryGuid env heap (.project x.1) = projectGuid env x.1 x.2 := by
  have hsh : entryGuid env heap (.project x.1) = ((aget heap x.1).map (·.guid)).getD [] := rfl
  rw [hsh, h.get hn hx]
  rfl

/-- The projects of a solution are exactly the targets of the build file and all they need, directly
or not: each has one entry, with its name, the place of its project file, its GUID, and the GUIDs
of the projects it depends on (none for a project built from outside). -/
theorem C86_projects (env : SlnEnv) (targets : List (Str × SlnTarget)) (file text : Str)
    (hn : SlnNamed targets) (hf : SlnFine env targets) (hp : SlnPlaces targets)
    (hfile : validName (basename file)) (h : IsSolution env targets file text) :
    ∃ (xs : List (Str × SlnTarget)) (guid : Str → Str),
      xs.Nodup ∧ (∀ x, x ∈ xs ↔ x ∈ targets ∧ InSolution targets file x.1) ∧
      (∀ x ∈ targets, guid x.1 = projectGuid env x.1 x.2) ∧
      ((readSln text).projects.map fun r =>
        (r.name, slnWalk (slnDir env file) r.path, r.guid, r.dependencies)) =
      xs.map fun x => (projectTitle x.2, projectFile env x, guid x.1,
        if x.2.external = true then [] else x.2.spec.deps.map guid) := by
  obtain ⟨heap, projects, roots, entries, configs, hr⟩ := solution_read hn hf hp h
  obtain ⟨xs, h1, h2, h3⟩ := hr.targets_list hn
  refine ⟨xs, fun q => entryGuid env heap (.project q), h1, h3, fun x hx => guid_known hn hr hx, ?_⟩
  unfold SlnState.projects
  rw [hr.read, projects_records, ← h2, List.map_map, List.map_map]
  refine List.map_congr_left fun x hx => ?_
  have hxt := ((h3 x).mp hx).1
  have hg := hr.get hn hxt
  have e1 : entryName heap (.project x.1) = ((aget heap x.1).map (·.name)).getD [] := rfl
  have e2 : entryPath heap (.project x.1) = ((aget heap x.1).map (·.path)).getD [] := rfl
  have e3 : entryDeps heap (.project x.1) = ((aget heap x.1).map (·.dependencies)).getD [] := rfl
  rw [hg] at e1 e2 e3
  simp only [Function.comp_apply, slnRecordOf, Prod.mk.injEq, true_and]
  refine ⟨by rw [e1]; rfl, ?_, ?_⟩
  · rw [e2]
    have hw := slnWalk_shownPath env (solutionPath env file) (pathOfProject env x.1 x.2)
      (fun c hc => ⟨(hf.cwd c hc).1, fun hm => ((hf.cwd c hc).2 _ hm).2.2.2 rfl⟩)
      (fun hm => (slnText_path hf hn hxt _ hm).2.2.2 rfl)
    rw [walk_solution_dir env file hf.opts.2.2.2.2.2 hfile] at hw
    exact hw.trans (projectFile_walk hn hxt)
  · rw [e3]
    simp only [Option.map_some, Option.getD_some, projectOf]
    split <;> simp

/-- A GUID is the one given for the target, in braces; without one it is made from a path of the project
file. -/
theorem C86_guid (env : SlnEnv) (targets : List (Str × SlnTarget)) (hn : SlnNamed targets)
    (x : Str × SlnTarget) (hx : x ∈ targets) :
    (x.2.guid ≠ [] → projectGuid env x.1 x.2 = c!"{" ++ x.2.guid ++ c!"}") ∧
    (x.2.guid = [] → ∃ path, walk env.cwd.reverse path = projectFile env x ∧
      projectGuid env x.1 x.2 = env.makeGuid c!"msvs_new" path) := by
  unfold projectGuid
  constructor
  · intro h; rw [if_pos h]
  · intro h
    rw [if_neg (by simpa using h)]
    exact ⟨_, projectFile_walk hn hx, rfl⟩

/-- Whatever a project of a solution depends on is a project of the solution. -/
theorem C86_dependencies (env : SlnEnv) (targets : List (Str × SlnTarget)) (file text : Str)
    (hn : SlnNamed targets) (hf : SlnFine env targets) (hp : SlnPlaces targets)
    (hfile : validName (basename file)) (h : IsSolution env targets file text) :
    ∀ r ∈ (readSln text).projects, ∀ g ∈ r.dependencies,
      ∃ r' ∈ (readSln text).projects, r'.guid = g := by
  obtain ⟨xs, guid, h1, h2, h3, h4⟩ := C86_projects env targets file text hn hf hp hfile h
  intro r hr g hg
  have hm : (r.name, slnWalk (slnDir env file) r.path, r.guid, r.dependencies) ∈
      ((readSln text).projects.map fun r =>
        (r.name, slnWalk (slnDir env file) r.path, r.guid, r.dependencies)) := List.mem_map.mpr ⟨r, hr, rfl⟩
  rw [h4, List.mem_map] at hm
  obtain ⟨x, hx, e⟩ := hm
  simp only [Prod.mk.injEq] at e
  rw [← e.2.2.2] at hg
  split at hg
  · cases hg
  · obtain ⟨d, hd, rfl⟩ := List.mem_map.mp hg
    obtain ⟨hxt, r0, hr0, hf0, hreach⟩ := (h2 x).mp hx
    obtain ⟨y, hy, rfl⟩ := List.mem_map.mp (hn.known x hxt d (Or.inl hd))
    have hys : y ∈ xs := (h2 y).mpr ⟨hy, r0, hr0, hf0, hreach.tail ⟨x.2, hxt, Or.inl hd⟩⟩
    have := List.mem_map_of_mem (f := fun x => (projectTitle x.2, projectFile env x, guid x.1,
        if x.2.external = true then [] else x.2.spec.deps.map guid)) hys
    rw [← h4, List.mem_map] at this
    obtain ⟨r', hr', e'⟩ := this
    simp only [Prod.mk.injEq] at e'
    exact ⟨r', hr', e'.2.2.1⟩

/-! ### What is built -/

theorem guidOverrides_get {env : SlnEnv} {heap : List (Str × SlnProject)} {es : List SEntry} {q : Str}
    (hq : q ∈ projectKeys es)
    (hd : ∀ q' ∈ projectKeys es, entryGuid env heap (.project q') = entryGuid env heap (.project q) → q' = q) :
    aget (guidOverrides env heap es) (entryGuid env heap (.project q)) =
      some (((aget heap q).map (·.overrides)).getD []) := by
  cases ho : aget (guidOverrides env heap es) (entryGuid env heap (.project q)) with
  | some o =>
    obtain ⟨q', hq', e1, e2⟩ := guidOverrides_mem ho
    rw [hd q' hq' e1.symm] at e2
    rw [e2]
  | none =>
    exfalso
    have : ∀ (es : List SEntry) (d : List (Str × List (Str × Str))),
        (q ∈ projectKeys es ∨ aget d (entryGuid env heap (.project q)) ≠ none) →
        aget (es.foldl (fun d e => match e with
          | .project q => aset d (entryGuid env heap e) (((aget heap q).map (·.overrides)).getD [])
          | .folder .. => d) d) (entryGuid env heap (.project q)) ≠ none := by
      intro es
      induction es with
      | nil =>
        intro d h
        rcases h with h | h
        · cases h
        · exact h
      | cons e es ih =>
        intro d h
        rw [List.foldl_cons]
        apply ih
        cases e with
        | folder p n l =>
          simp only [projectKeys] at h
          exact h
        | project q' =>
          simp only [projectKeys, List.mem_cons] at h
          simp only [aget_aset]
          by_cases hk : entryGuid env heap (.project q) = entryGuid env heap (.project q')
          · right; rw [if_pos hk]; simp
          · rw [if_neg hk]
            rcases h with (rfl | h) | h
            · exact absurd rfl hk
            · exact Or.inl h
            · exact Or.inr h
    exact this es [] (Or.inl hq) ho

/-- For every project and every configuration of the solution, the solution says what the project
builds; and nothing else. -/
theorem C86_configurations (env : SlnEnv) (targets : List (Str × SlnTarget)) (file text : Str)
    (hn : SlnNamed targets) (hf : SlnFine env targets) (hp : SlnPlaces targets)
    (hg : ∀ x ∈ targets, ∀ y ∈ targets, projectGuid env x.1 x.2 = projectGuid env y.1 y.2 → x = y)
    (h : IsSolution env targets file text) :
    ∃ (vs : List Str) (xs : List (Str × SlnTarget)) (builds : Str × SlnTarget → Str → Str),
      (readSln text).section_ c!"SolutionConfigurationPlatforms" = vs.map (fun v => (v, v)) ∧
      xs.Nodup ∧ (∀ x, x ∈ xs ↔ x ∈ targets ∧ InSolution targets file x.1) ∧
      (∀ x ∈ xs, ∀ v ∈ vs, MapsTo env x.2 v (builds x v)) ∧
      ((readSln text).section_ c!"ProjectConfigurationPlatforms").Perm
        (xs.flatMap fun x => vs.flatMap fun v =>
          [(projectGuid env x.1 x.2 ++ c!"." ++ v ++ c!".ActiveCfg", builds x v),
           (projectGuid env x.1 x.2 ++ c!"." ++ v ++ c!".Build.0", builds x v)]) := by
  obtain ⟨heap, projects, roots, entries, configs, hr⟩ := solution_read hn hf hp h
  obtain ⟨xs, h1, h2, h3⟩ := hr.targets_list hn
  refine ⟨_, xs, fun x v => (aget (platformOverrides env x.2) v).getD v, hr.variants, h1, h3,
    fun x _ v _ => mapsTo_overrides env x.2 v, ?_⟩
  rw [hr.configured]
  have hcg : (configGuids env heap entries).Perm (xs.map fun x => projectGuid env x.1 x.2) := by
    refine (pySorted_perm strLe _).trans (List.Perm.of_eq ?_)
    have : (entries.filterMap fun e => match e with
        | .project _ => some (entryGuid env heap e)
        | .folder .. => none) = (projectKeys entries).map fun q => entryGuid env heap (.project q) := by
      rw [projectKeys_eq, List.map_filterMap]
      congr 1
      funext e
      cases e <;> rfl
    refine this.trans ?_
    rw [← h2, List.map_map]
    exact List.map_congr_left fun x hx => guid_known hn hr ((h3 x).mp hx).1
  refine (hcg.flatMap_right _).trans (List.Perm.of_eq ?_)
  rw [List.flatMap_map]
  refine List.flatMap_congr fun x hx => List.flatMap_congr fun v _ => ?_
  have hxt := ((h3 x).mp hx).1
  have hover : aget (guidOverrides env heap entries) (projectGuid env x.1 x.2) =
      some (platformOverrides env x.2) := by
    have := guidOverrides_get (env := env) (heap := heap) (es := entries) (q := x.1)
      (by rw [← h2]; exact List.mem_map.mpr ⟨x, hx, rfl⟩) (by
        intro q' hq' e
        rw [← h2] at hq'
        obtain ⟨y, hy, rfl⟩ := List.mem_map.mp hq'
        have hyt := ((h3 y).mp hy).1
        rw [guid_known hn hr hxt, guid_known hn hr hyt] at e
        rw [hg y hyt x hxt e])
    rw [guid_known hn hr hxt, hr.get hn hxt] at this
    exact this
  unfold configPairs
  rw [hover]
  rfl

/-- What the solution tells a project to build is one of the configurations of the project file, if
the names of its configurations have no underscore but the one before their platform and its target
platform is its platform. -/
theorem C86_exists (env : SlnEnv) (t : SlnTarget)
    (h : ∀ c ∈ t.configurations,
      (if t.toolset = c!"host" ∧ env.multi = true then
        '_' ∉ c.1 ∧ (c.2.platform = c!"arm64" ∨ c.2.platform = c!"x64")
      else ('_' ∉ c.1 ∨ ∃ b, c.1 = b ++ '_' :: c.2.platform ∧ '_' ∉ c.2.platform) ∧
        c.2.target.getD c.2.platform = c.2.platform ∧
        ¬ (t.toolset = c!"host" ∧ c.2.platform = c!"arm64")))
    (v w : Str) (hv : ∃ c ∈ t.configurations, FullName c v) (hw : MapsTo env t v w) :
    w ∈ projectConfigurations t := by
  rcases hw with ⟨pre, c, post, e, h1, -, h3⟩ | ⟨h1, -⟩
  · have hc : c ∈ t.configurations := by rw [e]; simp
    have hh := h c hc
    unfold projectConfigurations
    refine List.mem_map.mpr ⟨c, (pySorted_perm _ _).mem_iff.mpr hc, ?_⟩
    rw [builds_iff] at h3
    rw [h3]
    unfold fixedName
    by_cases hm : t.toolset = c!"host" ∧ env.multi = true
    · rw [if_pos hm] at hh ⊢
      unfold configurationAndPlatform
      rw [rsplit1_none_iff.mpr hh.1]
      simp only
      rcases hh.2 with hp | hp
      · rw [if_pos ⟨hm.1, hp⟩]; simp
      · rw [if_neg (by rw [hp]; simp), hp]; simp
    · rw [if_neg hm] at hh ⊢
      obtain ⟨hn, ht, hno⟩ := hh
      rw [ht]
      unfold configurationAndPlatform
      simp only
      rw [if_neg hno]
      congr 2
      rcases hn with hn | ⟨b, hb, hnp⟩
      · rw [rsplit1_none_iff.mpr hn]
        have : ConfigBase c.1 c.2.platform c.1 := Or.inr ⟨rfl, by
          rintro ⟨b, hb⟩
          rw [hb] at hn
          simp at hn⟩
        exact configBase_unique this (configBaseName_base _ _)
      · have : ConfigBase c.1 c.2.platform b := Or.inl hb
        rw [configBase_unique (configBaseName_base c.1 c.2.platform) this]
        rw [hb, rsplit1_append hnp]
  · obtain ⟨c, hc, hf⟩ := hv
    exact absurd hf (h1 c hc)

/-! ### Folders -/

theorem shown_entries (s : SlnState) (env : SlnEnv) (heap : List (Str × SlnProject)) (sln : Str)
    (entries : List SEntry)
    (hsec : s.section_ c!"NestedProjects" = nestedPairs env heap entries)
    (hrec : ∀ e ∈ entries, slnRecordOf env heap sln e ∈ s.records) (l : List SEntry)
    (hl : ∀ e ∈ allEntries l, e ∈ entries) (names : List Str)
    (hs : ∀ e ∈ l, ShownIn s (entryGuid env heap e) names) :
    ∀ x ∈ entryLeaves l, ShownIn s (entryGuid env heap (.project x.2)) (names ++ x.1) := by
  match l with
  | [] => intro x hx; simp [entryLeaves] at hx
  | .project q :: l =>
    intro x hx
    simp only [entryLeaves, List.mem_cons] at hx
    rcases hx with rfl | hx
    · rw [List.append_nil]; exact hs _ (by simp)
    · exact shown_entries s env heap sln entries hsec hrec l
        (fun e he => hl e (by simp [allEntries, he])) names (fun e he => hs e (by simp [he])) x hx
  | .folder p n es :: l =>
    intro x hx
    simp only [entryLeaves, List.mem_append, List.mem_map] at hx
    rcases hx with ⟨y, hy, rfl⟩ | hx
    · have hfold : SEntry.folder p n es ∈ entries := hl _ (by simp [allEntries])
      have := shown_entries s env heap sln entries hsec hrec es
        (fun e he => hl e (by simp [allEntries, he])) (names ++ [n]) (by
          intro e he
          refine ShownIn.inside _ (slnRecordOf env heap sln (.folder p n es)) names ?_ (hrec _ hfold) rfl
            (hs (.folder p n es) (by simp))
          rw [hsec]
          unfold nestedPairs
          rw [List.mem_flatMap]
          exact ⟨_, hfold, List.mem_map.mpr ⟨e, he, rfl⟩⟩) y hy
      simpa using this
    · exact shown_entries s env heap sln entries hsec hrec l
        (fun e he => hl e (by simp [allEntries, he])) names (fun e he => hs e (by simp [he])) x hx
termination_by entriesSize l
decreasing_by
  all_goals simp only [entriesSize, entrySize]; omega

/-- Projects are shown in folders like the directories of their build files: without the directories
common to all, and without the last directory when it has the name of the project and nothing else. -/
theorem C86_folders (env : SlnEnv) (targets : List (Str × SlnTarget)) (file text : Str)
    (hn : SlnNamed targets) (hf : SlnFine env targets) (hp : SlnPlaces targets)
    (hflat : env.flat = false) (h : IsSolution env targets file text)
    (hg : ((readSln text).records.map (·.guid)).Nodup) :
    ((readSln text).section_ c!"NestedProjects").Pairwise (fun a b => a.1 ≠ b.1) ∧
    ∃ top : List Str,
      ((∃ x ∈ targets, InSolution targets file x.1) → ¬ ∃ n, ∀ x ∈ targets, InSolution targets file x.1 →
        top ++ [n] <+: dirNames (fileOf x.1)) ∧
      ∀ x ∈ targets, InSolution targets file x.1 → ∃ rest, dirNames (fileOf x.1) = top ++ rest ∧
        (OnlyInFolder targets file x →
          ShownIn (readSln text) (projectGuid env x.1 x.2) (rest.dropLast.map fun n => c!"(" ++ n ++ c!")")) ∧
        (¬ OnlyInFolder targets file x →
          ShownIn (readSln text) (projectGuid env x.1 x.2) (rest.map fun n => c!"(" ++ n ++ c!")")) := by
  obtain ⟨heap, projects, roots, entries, configs, hr⟩ := solution_read hn hf hp h
  have hguids : (entries.map (entryGuid env heap)).Nodup := by
    rw [hr.read] at hg
    simp only [List.map_map] at hg
    exact hg
  have hperm : ((allEntries roots).map (entryGuid env heap)).Perm
      (roots.map (entryGuid env heap) ++
        ((allEntries roots).flatMap folderEntries).map (entryGuid env heap)) := by
    rw [← List.map_append]; exact (allEntries_perm roots).map _
  have hnd2 := hperm.nodup_iff.mp ((hr.entries_perm.map (entryGuid env heap)).nodup_iff.mp hguids)
  have hsubs : ((entries.flatMap folderEntries).map (entryGuid env heap)).Perm
      (((allEntries roots).flatMap folderEntries).map (entryGuid env heap)) :=
    (hr.entries_perm.flatMap_right _).map _
  have hkeys : (nestedPairs env heap entries).map (·.1) =
      (entries.flatMap folderEntries).map (entryGuid env heap) := by
    unfold nestedPairs
    rw [List.map_flatMap, List.map_flatMap]
    refine List.flatMap_congr fun e _ => ?_
    rw [List.map_map]; rfl
  constructor
  · rw [hr.nested, ← List.pairwise_map (f := fun p : Str × Str => p.1) (R := (· ≠ ·)), hkeys]
    exact hsubs.nodup_iff.mpr (List.nodup_append.mp hnd2).2.1
  obtain ⟨hd1, hd2⟩ := place_dirs hn hp hr.sub
  obtain ⟨roots', tops, L, g1, g2, g3, g4, g5⟩ := gatherFolders_leaves env heap projects hd1 hd2
    (projects_apart hn hp hr.nodup hr.sub)
  rw [hr.gather] at g1
  simp only [Except.ok.injEq] at g1
  subst g1
  simp only [hflat, Bool.false_eq_true, if_false] at g5
  -- the members of L
  have hL : ∀ y, y ∈ L ↔ ∃ x ∈ targets, InSolution targets file x.1 ∧
      (tops ++ y.1, y.2) = (dirNames (fileOf x.1) ++ [projectTitle x.2 ++ c!".vcproj"], x.1) := by
    intro y
    have h1 : y ∈ L ↔ (tops ++ y.1, y.2) ∈ L.map fun x => (tops ++ x.1, x.2) := by
      rw [List.mem_map]
      constructor
      · intro hy; exact ⟨y, hy, rfl⟩
      · rintro ⟨z, hz, e⟩
        simp only [Prod.mk.injEq, List.append_cancel_left_eq] at e
        rw [← Prod.ext e.1 e.2]; exact hz
    rw [h1, g2.mem_iff, List.mem_map]
    constructor
    · rintro ⟨q, hq, e⟩
      obtain ⟨x, hx, rfl⟩ := List.mem_map.mp (hr.sub q hq)
      rw [hn.place hx] at e
      exact ⟨x, hx, (hr.mem _).mp hq, e.symm⟩
    · rintro ⟨x, hx, hi, e⟩
      refine ⟨x.1, (hr.mem _).mpr hi, ?_⟩
      rw [hn.place hx]
      exact e.symm
  have hrest : ∀ x ∈ targets, InSolution targets file x.1 → ∃ rest, dirNames (fileOf x.1) = tops ++ rest ∧
      (rest ++ [projectTitle x.2 ++ c!".vcproj"], x.1) ∈ L := by
    intro x hx hi
    have hm : (dirNames (fileOf x.1) ++ [projectTitle x.2 ++ c!".vcproj"], x.1) ∈
        L.map fun x => (tops ++ x.1, x.2) := by
      rw [g2.mem_iff, List.mem_map]
      refine ⟨x.1, (hr.mem _).mpr hi, ?_⟩
      rw [hn.place hx]
      rfl
    obtain ⟨y, hy, e⟩ := List.mem_map.mp hm
    simp only [Prod.mk.injEq] at e
    obtain ⟨e1, e2⟩ := e
    rcases List.eq_nil_or_concat y.1 with hz | ⟨rest, last, hz⟩
    · exact absurd hz (g3 y hy)
    · rw [hz, List.concat_eq_append, ← List.append_assoc] at e1
      obtain ⟨e3, e4⟩ := List.append_inj' e1 rfl
      refine ⟨rest, e3.symm, ?_⟩
      rw [← e2, ← e4, ← List.concat_eq_append, ← hz]
      exact hy
  refine ⟨tops, ?_, ?_⟩
  · rintro ⟨x0, hx0, hi0⟩ ⟨n, hnn⟩
    obtain ⟨r0, -, hm0⟩ := hrest x0 hx0 hi0
    refine g4 (List.ne_nil_of_mem hm0) ⟨n, fun y hy => ?_⟩
    obtain ⟨x, hx, hi, e⟩ := (hL y).mp hy
    simp only [Prod.mk.injEq] at e
    obtain ⟨t, ht⟩ := hnn x hx hi
    rw [← ht, List.append_assoc, List.append_assoc, List.append_cancel_left_eq] at e
    rw [e.1]
    constructor
    · exact List.prefix_append _ _
    · intro e'
      have := congrArg List.length e'
      simp at this
  · intro x hx hi
    obtain ⟨rest, hd, hm⟩ := hrest x hx hi
    refine ⟨rest, hd, ?_⟩
    have hroot : ∀ e ∈ roots, ShownIn (readSln text) (entryGuid env heap e) [] := by
      intro e he
      refine ShownIn.top _ fun p hp' e' => ?_
      rw [hr.nested] at hp'
      have hk : p.1 ∈ (nestedPairs env heap entries).map (·.1) := List.mem_map.mpr ⟨p, hp', rfl⟩
      rw [hkeys, hsubs.mem_iff] at hk
      exact (List.nodup_append.mp hnd2).2.2 _ (List.mem_map.mpr ⟨e, he, rfl⟩) _ hk e'.symm
    have hshow := shown_entries (readSln text) env heap (solutionPath env file) entries hr.nested
      (by
        intro e he
        rw [hr.read]
        exact List.mem_map.mpr ⟨e, he, rfl⟩) roots (fun e he => hr.entries_perm.mem_iff.mpr he) [] hroot
    have hmem := g5.mem_iff.mpr (List.mem_map_of_mem (f := fun x : List Str × Str =>
      (List.map parens (shorten L x.1).dropLast, x.2)) hm)
    have := hshow _ hmem
    simp only [List.nil_append] at this
    rw [guid_known hn hr hx] at this
    -- being alone
    have halone : rest ≠ [] → (Alone L (rest ++ [projectTitle x.2 ++ c!".vcproj"]) ↔ OnlyInFolder targets file x) := by
      intro hne
      constructor
      · rintro ⟨pre, t, e, hal⟩
        have e' : rest ++ [projectTitle x.2 ++ c!".vcproj"] = (pre ++ [t]) ++ [t ++ c!".vcproj"] := by
          rw [e]; simp
        obtain ⟨e1, e2⟩ := List.append_inj' e' rfl
        simp only [List.cons.injEq, and_true] at e2
        have e3 := List.append_cancel_right e2
        refine ⟨⟨tops ++ pre, by rw [hd, e1, ← e3]; simp⟩, fun y hy hiy hpre => ?_⟩
        obtain ⟨resty, hdy, hmy⟩ := hrest y hy hiy
        rw [hd, hdy, List.prefix_append_right_inj] at hpre
        have := hal _ hmy (by rw [← e1]; exact hpre.trans (List.prefix_append _ _))
        obtain ⟨f1, f2⟩ := List.append_inj' this rfl
        simp only [List.cons.injEq, and_true] at f2
        have f3 := List.append_cancel_right f2
        exact (List.inj_on_of_nodup_map hp.apart) hy hx (by
          simp only [Prod.mk.injEq]
          exact ⟨by rw [hd, hdy, f1], f3⟩)
      · rintro ⟨⟨pre, e⟩, hal⟩
        rcases List.eq_nil_or_concat rest with hz | ⟨r, t, hz⟩
        · exact absurd hz hne
        · rw [List.concat_eq_append] at hz
          rw [hd, hz, ← List.append_assoc] at e
          obtain ⟨-, e2⟩ := List.append_inj' e rfl
          simp only [List.cons.injEq, and_true] at e2
          refine ⟨r, t, by rw [hz, e2]; simp, fun y hy hpre => ?_⟩
          obtain ⟨z, hzt, hiz, ez⟩ := (hL y).mp hy
          obtain ⟨restz, hdz, hmz⟩ := hrest z hzt hiz
          simp only [Prod.mk.injEq] at ez
          have ey : y.1 = restz ++ [projectTitle z.2 ++ c!".vcproj"] := by
            have := ez.1
            rw [hdz, List.append_assoc, List.append_cancel_left_eq] at this
            exact this
          rw [ey, ← hz] at hpre
          have hzx : z = x := by
            apply hal z hzt hiz
            rw [hd, hdz, List.prefix_append_right_inj]
            rcases List.prefix_concat_iff.mp hpre with h' | h'
            · exfalso
              rw [hz] at h'
              obtain ⟨-, h2⟩ := List.append_inj' h' rfl
              simp only [List.cons.injEq, and_true] at h2
              exact hp.dirs x hx t (by rw [hd, hz]; simp) _ h2
            · exact h'
          rw [ey, hzx]
          have : restz = rest := by
            have := hdz
            rw [hzx, hd, List.append_cancel_left_eq] at this
            exact this.symm
          rw [this]
    by_cases hne : rest = []
    · subst hne
      have hs : (shorten L ([] ++ [projectTitle x.2 ++ c!".vcproj"])).dropLast = [] := by
        unfold shorten
        split <;> simp
      rw [hs] at this
      exact ⟨fun _ => this, fun _ => this⟩
    · rw [← halone hne]
      constructor
      · intro ha
        unfold shorten at this
        rw [if_pos ha] at this
        rw [List.dropLast_concat] at this
        exact this
      · intro ha
        unfold shorten at this
        rw [if_neg ha, List.dropLast_concat] at this
        exact this

/-- The editions of Visual Studio without solution folders show none. -/
theorem C86_flat (env : SlnEnv) (targets : List (Str × SlnTarget)) (file text : Str)
    (hn : SlnNamed targets) (hf : SlnFine env targets) (hp : SlnPlaces targets)
    (hflat : env.flat = true) (h : IsSolution env targets file text) :
    (readSln text).records = (readSln text).projects ∧
    (readSln text).section_ c!"NestedProjects" = [] := by
  obtain ⟨heap, projects, roots, entries, configs, hr⟩ := solution_read hn hf hp h
  have hall : ∀ e ∈ entries, ∃ q, e = SEntry.project q := by
    intro e he
    have hro : ∃ qs : List Str, roots = qs.map SEntry.project := by
      have := hr.gather
      unfold gatherFolders at this
      cases ht : projectTree projects with
      | error e => rw [ht] at this; cases this
      | ok d =>
        simp only [ht, bind, Except.bind] at this
        split at this
        · rw [hflat, toFolders_flat] at this
          simp only [Except.ok.injEq] at this
          exact ⟨_, by rw [← this, List.map_map]; rfl⟩
        · cases this
    obtain ⟨qs, rfl⟩ := hro
    have : allEntries (qs.map SEntry.project) = qs.map SEntry.project := by
      clear he hr
      induction qs with
      | nil => simp [allEntries]
      | cons q qs ih => simp [allEntries, ih]
    have hm := hr.entries_perm.mem_iff.mp he
    rw [this] at hm
    obtain ⟨q, -, rfl⟩ := List.mem_map.mp hm
    exact ⟨q, rfl⟩
  constructor
  · unfold SlnState.projects
    rw [hr.read]
    symm
    rw [List.filter_eq_self]
    intro r hrm
    obtain ⟨e, he, rfl⟩ := List.mem_map.mp hrm
    obtain ⟨q, rfl⟩ := hall e he
    rfl
  · rw [hr.nested]
    unfold nestedPairs
    rw [List.flatMap_eq_nil_iff]
    intro e he
    obtain ⟨q, rfl⟩ := hall e he
    rfl

/-! ### References -/

theorem refUldi_eq (cs : List (Str × SlnConfig)) :
    refUldi cs = (cs.find? fun c => c.2.uldi || c.2.noUldi).map (·.2.uldi) := by
  induction cs with
  | nil => rfl
  | cons c cs ih =>
    unfold refUldi
    cases h1 : c.2.uldi with
    | true => simp [h1]
    | false =>
      cases h2 : c.2.noUldi with
      | true => simp [h1, h2]
      | false => simp [h1, h2, ih]

theorem basename_slash (a b : Str) : basename (a ++ '/' :: b) = basename b := by
  unfold basename
  cases hs : rsplit1 '/' b with
  | none =>
    rw [rsplit1_none_iff] at hs
    rw [rsplit1_append hs]
  | some x =>
    obtain ⟨p, n⟩ := x
    obtain ⟨rfl, hn⟩ := rsplit1_some hs
    have : a ++ '/' :: (p ++ '/' :: n) = (a ++ '/' :: p) ++ '/' :: n := by simp
    rw [this, rsplit1_append hn]

theorem basename_pathJoin (a b : Str) : basename (pathJoin a b) = basename b := by
  unfold pathJoin
  split
  · rfl
  · split
    · rename_i h1 h2
      rcases h2 with rfl | h2
      · simp
      · obtain ⟨c, rfl⟩ := endsWith_slash h2
        rw [List.append_assoc]
        exact basename_slash c b
    · exact basename_slash a b

/-- The project of a target refers to the projects of its dependencies, in order, and to no others:
each reference leads from the directory of the project to the project file of the dependency and has
its GUID.  Libraries for the host are left out of projects for the target. -/
theorem C86_references (env : SlnEnv) (targets : List (Str × SlnTarget))
    (heap : List (Str × SlnProject)) (hn : SlnNamed targets) (hf : SlnFine env targets)
    (hh : createProjects env targets = .ok heap) (x : Str × SlnTarget) (hx : x ∈ targets)
    (hb : validName (basename (projectFileName env x.2))) :
    ∃ ds : List (Str × SlnTarget), (∀ d ∈ ds, d ∈ targets) ∧
      ds.map (·.1) = (if x.2.external = true then [] else x.2.spec.deps) ∧
      List.Forall₂ (fun (d : Str × SlnTarget) r =>
          walk (projectFile env x).tail r.include_ = projectFile env d ∧
          r.project = projectGuid env d.1 d.2 ∧
          r.uldi = (d.2.configurations.find? fun c => c.2.uldi || c.2.noUldi).map (·.2.uldi))
        (ds.filter fun d => ¬ LeftOut x.2 d.2) (projectReferences env targets heap x.1) := by
  obtain ⟨heq, -, hknown⟩ := createProjects_ok hh
  have hget : ∀ y ∈ targets, aget heap y.1 = some (projectOf env y.1 y.2) := by
    intro y hy
    rw [heq, aget_map (projectOf env), aget_target hn.keys hy]
    rfl
  have hdeps : ∀ qs : List Str, (∀ q ∈ qs, q ∈ targets.map (·.1)) →
      ∃ xs : List (Str × SlnTarget), (∀ x ∈ xs, x ∈ targets) ∧ xs.map (·.1) = qs := by
    intro qs
    induction qs with
    | nil => intro _; exact ⟨[], by simp, rfl⟩
    | cons q qs ih =>
      intro hq
      obtain ⟨xs, h1, h2⟩ := ih fun q hq' => hq q (List.mem_cons_of_mem _ hq')
      obtain ⟨y, hy, e⟩ := List.mem_map.mp (hq q (by simp))
      refine ⟨y :: xs, ?_, by rw [List.map_cons, h2, e]⟩
      intro z hz
      rcases List.mem_cons.mp hz with rfl | hz
      · exact hy
      · exact h1 z hz
  obtain ⟨ds, h1, h2⟩ := hdeps (if x.2.external = true then [] else x.2.spec.deps) (by
    intro q hq
    split at hq
    · cases hq
    · exact hn.known x hx q (Or.inl hq))
  refine ⟨ds, h1, h2, ?_⟩
  unfold projectReferences
  rw [hget x hx, aget_target hn.keys hx]
  simp only
  have hpd : (projectOf env x.1 x.2).dependencies = ds.map (·.1) := by
    rw [h2]; rfl
  rw [hpd]
  have hbase : basename (pathOfProject env x.1 x.2) = basename (projectFileName env x.2) := by
    unfold pathOfProject
    simp only
    split
    · rw [basename_pathJoin, basename_pathJoin]; rfl
    · rw [basename_pathJoin]; rfl
  have hdir : walk env.cwd.reverse (dirname (pathOfProject env x.1 x.2)) = (projectFile env x).tail := by
    rw [walk_dirname_tail _ _ (by rw [hbase]; exact hb), projectFile_walk hn hx]
  clear hpd h2
  induction ds with
  | nil => exact .nil
  | cons d ds ih =>
    have ih := ih fun y hy => h1 y (List.mem_cons_of_mem _ hy)
    have hd := h1 d (by simp)
    rw [List.map_cons, List.filterMap_cons, hget d hd, aget_target hn.keys hd]
    simp only
    have hskip : skipReference x.2 (projectOf env d.1 d.2).name d.2 = true ↔ LeftOut x.2 d.2 := by
      unfold skipReference LeftOut startsWith
      have : (projectOf env d.1 d.2).name = projectTitle d.2 := rfl
      rw [this]
      simp only [Bool.and_eq_true, Bool.not_eq_true', decide_eq_true_eq, and_assoc]
      rw [← List.isPrefixOf_iff_prefix, Bool.not_eq_true]
      tauto
    by_cases hl : LeftOut x.2 d.2
    · rw [if_pos (hskip.mpr hl), List.filter_cons_of_neg (by simpa using hl)]
      exact ih
    · rw [if_neg fun e => hl (hskip.mp e), List.filter_cons_of_pos (by simpa using hl)]
      refine .cons ⟨?_, rfl, refUldi_eq _⟩ ih
      have hw := walk_RelativePath (fun c h => (hf.cwd c h).1) (pathOfProject env d.1 d.2)
        (dirname (pathOfProject env x.1 x.2))
      rw [hdir] at hw
      exact hw.trans (projectFile_walk hn hd)

/-! ### Existence -/

/-- With valid GUIDs a solution is made for every build file. -/
theorem C86_made (env : SlnEnv) (targets : List (Str × SlnTarget)) (file : Str)
    (hn : SlnNamed targets) (hp : SlnPlaces targets)
    (hg : ∀ x ∈ targets, x.2.guid ≠ [] → ∀ c ∈ x.2.guid, c ∈ c!"-0123456789ABCDEF") :
    ∃ text, IsSolution env targets file text := by
  have hvalid : ∀ x ∈ targets, x.2.guid ≠ [] → validGuid x.2.guid = true := by
    intro x hx hne
    have h := hg x hx hne
    unfold validGuid
    have hend : endsWith x.2.guid ['\n'] = false := by
      cases he : endsWith x.2.guid ['\n'] with
      | false => rfl
      | true =>
        unfold endsWith at he
        rw [List.isSuffixOf_iff_suffix] at he
        exact absurd (h _ (he.subset (List.mem_singleton.mpr rfl))) (by decide)
    simp only [hend, Bool.false_eq_true, if_false, Bool.and_eq_true, decide_eq_true_eq, List.all_eq_true]
    exact ⟨hne, fun c hc => (by decide : ∀ c ∈ c!"-0123456789ABCDEF", guidChar c = true) c (h c hc)⟩
  have h1 := createProjects_made env targets hvalid
    (fun x hx _ d hd => hn.known x hx d (Or.inl hd))
  have hnames : (Targets.names (targets.map fun t => (t.1, t.2.spec))) = targets.map (·.1) := by
    simp [Targets.names]
  obtain ⟨deps, hdeps⟩ := C62_exists (targets.map fun t => (t.1, t.2.spec))
    (BuildFileTargets (targets.map (·.1)) file) (by
      intro r hr
      rw [hnames]
      unfold BuildFileTargets at hr
      exact (List.mem_filter.mp hr).1) (by
      intro t d hm
      rw [mentions_iff hn.keys] at hm
      obtain ⟨s, hs, hd⟩ := hm
      rw [hnames]
      exact hn.known _ hs d hd)
  have h2 : AllTargets (targets.map (·.1)) (targets.map fun t => (t.1, t.2.spec)) file
      (BuildFileTargets (targets.map (·.1)) file ++ deps) := ⟨deps, hdeps, rfl⟩
  obtain ⟨hnd, hmem, hsub⟩ := allTargets_mem hn h2
  obtain ⟨hd1, hd2⟩ := place_dirs hn hp hsub
  obtain ⟨roots, -, -, g1, -⟩ := gatherFolders_leaves env
    (targets.map fun t => (t.1, projectOf env t.1 t.2)) _ hd1 hd2 (projects_apart hn hp hnd hsub)
  refine ⟨_, _, _, roots, solutionConfigs targets,
    sortEntries (targets.map fun t => (t.1, projectOf env t.1 t.2)) (collectEntries roots []),
    h1, h2, g1, .refl _, sortEntries_perm _ _, ?_, rfl⟩
  exact pySorted_pairwise (fun a b => strLe
    (entryPath (targets.map fun t => (t.1, projectOf env t.1 t.2)) a)
    (entryPath (targets.map fun t => (t.1, projectOf env t.1 t.2)) b))
    (fun a b => strLe_total _ _) (fun a b c => strLe_trans _ _ _) _

/-! ### An example -/

/-- Two hexadecimal digits. -/
def hexPair (c : Char) : Str :=
  [c!"0123456789ABCDEF".getD (c.toNat / 16 % 16) '0', c!"0123456789ABCDEF".getD (c.toNat % 16) '0']

/-- GUIDs that are never the same by accident. -/
def hexGuid (seed name : Str) : Str := c!"{" ++ (seed ++ name).flatMap hexPair ++ c!"}"

theorem hexGuid_text (s n : Str) : guidText (hexGuid s n) := by
  have hd : ∀ k, c!"0123456789ABCDEF".getD (k % 16) '0' ∈ c!"{}-0123456789ABCDEF" := by
    intro k
    have : k % 16 < 16 := Nat.mod_lt _ (by decide)
    generalize k % 16 = m at this
    revert this
    revert m
    decide
  intro c hc
  unfold hexGuid at hc
  simp only [List.mem_append, List.mem_flatMap] at hc
  rcases hc with (hc | ⟨a, -, hc⟩) | hc
  · exact (by decide : ∀ c ∈ c!"{", c ∈ c!"{}-0123456789ABCDEF") c hc
  · unfold hexPair at hc
    simp only [List.mem_cons, List.not_mem_nil, or_false] at hc
    rcases hc with rfl | rfl
    · exact hd _
    · exact hd _
  · exact (by decide : ∀ c ∈ c!"}", c ∈ c!"{}-0123456789ABCDEF") c hc

/-- A place to work in. -/
def slnEnv : SlnEnv := { cwd := [c!"w"], makeGuid := hexGuid }

/-- The configurations of the example. -/
def slnConfigs : List (Str × SlnConfig) :=
  [(c!"Debug", { platform := c!"Win32" }), (c!"Release_x64", { platform := c!"x64" })]

/-- An application, a library, and a tool for the host with a GUID of its own. -/
def slnTargets : List (Str × SlnTarget) :=
  [(c!"src/app/app.gyp:app#target",
    { name := c!"app", toolset := c!"target", configurations := slnConfigs,
      spec := {
        type := c!"executable"
        dependencies := some [c!"src/libs/z/z.gyp:z#target", c!"src/libs/gen.gyp:gen#host"] } }),
   (c!"src/libs/z/z.gyp:z#target",
    { name := c!"z", toolset := c!"target", configurations := slnConfigs,
      spec := { type := c!"static_library" } }),
   (c!"src/libs/gen.gyp:gen#host",
    { name := c!"gen", toolset := c!"host", configurations := slnConfigs, guid := c!"12-AB",
      spec := { type := c!"static_library" } })]

theorem slnTargets_named : SlnNamed slnTargets where
  keys := by decide
  named := by decide
  known := by
    intro x hx d hd
    simp only [slnTargets, List.mem_cons, List.not_mem_nil, or_false] at hx
    rcases hx with rfl | rfl | rfl
    · rcases hd with hd | hd
      · exact (by decide : ∀ d ∈ [c!"src/libs/z/z.gyp:z#target", c!"src/libs/gen.gyp:gen#host"],
          d ∈ slnTargets.map (·.1)) d hd
      · cases hd
    · rcases hd with hd | hd <;> cases hd
    · rcases hd with hd | hd <;> cases hd

theorem slnTargets_fine : SlnFine slnEnv slnTargets where
  cwd := by decide
  opts := by decide
  names := by decide
  configs := by
    intro x hx c hc
    have h : x.2.configurations = slnConfigs := by
      simp only [slnTargets, List.mem_cons, List.not_mem_nil, or_false] at hx
      rcases hx with rfl | rfl | rfl <;> rfl
    rw [h] at hc
    simp only [slnConfigs, List.mem_cons, List.not_mem_nil, or_false] at hc
    rcases hc with rfl | rfl
    · exact ⟨by decide, by decide, by decide, by decide, fun p hp => by cases hp⟩
    · exact ⟨by decide, by decide, by decide, by decide, fun p hp => by cases hp⟩
  guids := hexGuid_text

theorem slnTargets_places : SlnPlaces slnTargets where
  dirs := by
    intro x hx f hf b e
    have : endsWith f c!".vcproj" = true := by rw [e]; exact endsWith_append _ _
    exact absurd this ((by decide : ∀ x ∈ slnTargets, ∀ f ∈ dirNames (fileOf x.1),
      ¬ endsWith f c!".vcproj" = true) x hx f hf)
  names := by decide
  apart := by decide

/-- The entries of its solution: the application on top, the library and the tool in a folder. -/
def slnEntries : List SEntry :=
  [.folder c!"libs" c!"(libs)" [.project c!"src/libs/gen.gyp:gen#host", .project c!"src/libs/z/z.gyp:z#target"],
   .project c!"src/app/app.gyp:app#target", .project c!"src/libs/gen.gyp:gen#host",
   .project c!"src/libs/z/z.gyp:z#target"]

/-- Its text. -/
def slnExample : Str :=
  linesText (solutionLines slnEnv (slnTargets.map fun t => (t.1, projectOf slnEnv t.1 t.2))
    (solutionPath slnEnv c!"src/app/app.gyp") [c!"Release|x64", c!"Debug|Win32"] slnEntries)

theorem slnExample_is : IsSolution slnEnv slnTargets c!"src/app/app.gyp" slnExample := by
  refine ⟨_, [c!"src/app/app.gyp:app#target", c!"src/libs/gen.gyp:gen#host", c!"src/libs/z/z.gyp:z#target"],
    [.project c!"src/app/app.gyp:app#target",
     .folder c!"libs" c!"(libs)"
      [.project c!"src/libs/gen.gyp:gen#host", .project c!"src/libs/z/z.gyp:z#target"]],
    [c!"Release|x64", c!"Debug|Win32"], slnEntries, ?_, ?_, ?_, ?_, ?_, ?_, rfl⟩
  · exact createProjects_made slnEnv slnTargets (by decide)
      (fun x hx _ d hd => slnTargets_named.known x hx d (Or.inl hd))
  · refine ⟨[c!"src/libs/gen.gyp:gen#host", c!"src/libs/z/z.gyp:z#target"], ?_, rfl⟩
    refine ⟨⟨[c!"src/app/app.gyp:app#target", c!"src/libs/z/z.gyp:z#target", c!"src/libs/gen.gyp:gen#host"], []⟩,
      ?_, rfl,
      [c!"src/app/app.gyp:app#target", c!"src/libs/gen.gyp:gen#host", c!"src/libs/z/z.gyp:z#target"],
      by decide, by decide⟩
    refine .head (.visit _ c!"src/app/app.gyp:app#target" _ (by decide) (by decide) rfl) ?_
    refine .head (.visit _ c!"src/libs/z/z.gyp:z#target" _ (by decide) (by decide) rfl) ?_
    refine .head (.visit _ c!"src/libs/gen.gyp:gen#host" _ (by decide) (by decide) rfl) ?_
    exact .refl
  · have h1 : projectTree [c!"src/app/app.gyp:app#target", c!"src/libs/gen.gyp:gen#host",
        c!"src/libs/z/z.gyp:z#target"] = .ok [(c!"src", .dir
          [(c!"app", .dir [(c!"app.vcproj", .proj c!"src/app/app.gyp:app#target")]),
           (c!"libs", .dir [(c!"gen_host.vcproj", .proj c!"src/libs/gen.gyp:gen#host"),
            (c!"z", .dir [(c!"z.vcproj", .proj c!"src/libs/z/z.gyp:z#target")])])])] := rfl
    unfold gatherFolders
    simp only [h1, bind, Except.bind, stripTop, collapse, collapseAll]
    simp [toFolders, slnEnv]
    exact ⟨rfl, rfl⟩
  · decide
  · refine .trans ?_ (collectEntries_perm _ [] (by simp [allEntries, projectKeys])).symm
    simp only [allEntries, List.nil_append, List.append_nil, slnEntries]
    exact List.Perm.swap _ _ _
  · simp only [slnEntries]
    with_unfolding_all decide

/-- The folders and projects, in the order of their paths. -/
example : (readSln slnExample).records.map (fun r => (r.name, r.path)) =
    [(c!"(libs)", c!"..\\..\\libs"), (c!"app", c!"app.vcxproj"),
     (c!"gen_host", c!"..\\libs\\gen_host.vcxproj"), (c!"z", c!"..\\libs\\z\\z.vcxproj")] := by
  decide +kernel

/-- The library depends on nothing, the application on both. -/
example : ((readSln slnExample).projects.map fun r => r.dependencies.length) = [2, 0, 0] := by
  decide +kernel

/-- What the theorems say of the example. -/
example : ((readSln slnExample).projects.map fun r => (r.name, r.dependencies.length)).length = 3 ∧
    ∃ (xs : List (Str × SlnTarget)) (guid : Str → Str),
      xs.Nodup ∧ (∀ x, x ∈ xs ↔ x ∈ slnTargets ∧ InSolution slnTargets c!"src/app/app.gyp" x.1) ∧
      (∀ x ∈ slnTargets, guid x.1 = projectGuid slnEnv x.1 x.2) ∧
      ((readSln slnExample).projects.map fun r =>
        (r.name, slnWalk (slnDir slnEnv c!"src/app/app.gyp") r.path, r.guid, r.dependencies)) =
      xs.map fun x => (projectTitle x.2, projectFile slnEnv x, guid x.1,
        if x.2.external = true then [] else x.2.spec.deps.map guid) :=
  ⟨by decide +kernel, C86_projects _ _ _ _ slnTargets_named slnTargets_fine slnTargets_places (by decide)
    slnExample_is⟩

/-- The hypotheses of `C86_folders`, `C86_configurations` and `C86_references` hold for it. -/
example : slnEnv.flat = false ∧ ((readSln slnExample).records.map (·.guid)).Nodup ∧
    (∀ x ∈ slnTargets, ∀ y ∈ slnTargets, projectGuid slnEnv x.1 x.2 = projectGuid slnEnv y.1 y.2 → x = y) ∧
    (∀ x ∈ slnTargets, validName (basename (projectFileName slnEnv x.2))) ∧
    ∃ heap, createProjects slnEnv slnTargets = .ok heap :=
  ⟨rfl, by decide +kernel, by decide +kernel, by decide, _, createProjects_made slnEnv slnTargets (by decide)
      (fun x hx _ d hd => slnTargets_named.known x hx d (Or.inl hd))⟩

/-- Debug and Release are offered, with their platforms. -/
example : Offered slnEnv slnTargets c!"Debug|Win32" ∧ Offered slnEnv slnTargets c!"Release|x64" := by
  refine ⟨⟨⟨_, List.mem_cons_self, (c!"Debug", { platform := c!"Win32" }), by decide, Or.inl ?_⟩, fun h => absurd h (by decide)⟩,
    ⟨⟨_, List.mem_cons_self, (c!"Release_x64", { platform := c!"x64" }), by decide, Or.inl ?_⟩, fun h => absurd h (by decide)⟩⟩
  · rw [fullName_iff]; decide
  · rw [fullName_iff]; decide

/-- The library and the tool are shown in the folder of their directory. -/
example : ShownIn (readSln slnExample)
    (projectGuid slnEnv c!"src/libs/gen.gyp:gen#host" (slnTargets[2]'(by decide)).2) [c!"(libs)"] := by
  have h : ∃ r ∈ (readSln slnExample).records, r.kind = folderKind ∧ r.name = c!"(libs)" ∧
      (c!"{12-AB}", r.guid) ∈ (readSln slnExample).section_ c!"NestedProjects" ∧
      ∀ p ∈ (readSln slnExample).section_ c!"NestedProjects", p.1 ≠ r.guid := by decide +kernel
  obtain ⟨r, h1, h2, h3, h4, h5⟩ := h
  have := ShownIn.inside c!"{12-AB}" r [] h4 h1 h2 (.top _ h5)
  rw [h3] at this
  exact this

/-! ### What goes wrong -/

/-- A configuration named `Debug_Static`: the solution builds `Debug_Static|Win32`, which the
project file does not have. -/
theorem C86_underscore (env : SlnEnv) :
    let t : SlnTarget := {
      name := c!"a", toolset := c!"target", spec := { type := c!"none" },
      configurations := [(c!"Debug_Static", { platform := c!"Win32" })] }
    MapsTo env t c!"Debug_Static|Win32" c!"Debug_Static|Win32" ∧
    projectConfigurations t = [c!"Debug|Win32"] := by
  refine ⟨Or.inl ⟨[], _, [], rfl, ?_, by simp, ?_⟩, by decide⟩
  · rw [fullName_iff]; decide
  · rw [builds_iff]
    unfold fixedName
    rw [if_neg fun h => absurd h.1 (by decide)]
    decide

/-- `msvs_target_platform` is used in the solution but not in the project file. -/
theorem C86_target_platform (env : SlnEnv) :
    let t : SlnTarget := {
      name := c!"a", toolset := c!"target", spec := { type := c!"none" },
      configurations := [(c!"Debug", { platform := c!"Win32", target := some c!"x64" })] }
    MapsTo env t c!"Debug|Win32" c!"Debug|x64" ∧ projectConfigurations t = [c!"Debug|Win32"] := by
  refine ⟨Or.inl ⟨[], _, [], rfl, ?_, by simp, ?_⟩, by decide⟩
  · rw [fullName_iff]; decide
  · rw [builds_iff]
    unfold fixedName
    rw [if_neg fun h => absurd h.1 (by decide)]
    decide

/-- A project without the configuration of another is told to build it all the same. -/
theorem C86_lacking (env : SlnEnv) :
    let t : SlnTarget := {
      name := c!"a", toolset := c!"target", spec := { type := c!"none" },
      configurations := [(c!"Debug", { platform := c!"Win32" })] }
    MapsTo env t c!"Release|Win32" c!"Release|Win32" ∧ c!"Release|Win32" ∉ projectConfigurations t := by
  refine ⟨Or.inr ⟨?_, rfl⟩, by decide⟩
  intro c hc
  rw [List.mem_singleton.mp hc, fullName_iff]
  decide

/-- With several toolsets only platforms spelled `arm64` count: a build for `ARM64` gets a solution
for `Win32`. -/
theorem C86_cross (env : SlnEnv) (hm : env.multi = true) (targets : List (Str × SlnTarget))
    (ht : ∀ x ∈ targets, ∀ c ∈ x.2.configurations, c.2.platform = c!"ARM64") :
    ¬ ∃ v, Offered env targets v := by
  rintro ⟨v, ⟨x, hx, c, hc, h | ⟨h, -⟩⟩, hv⟩
  · obtain ⟨b, hb⟩ := hv hm
    obtain ⟨b', -, e⟩ := h
    rw [ht x hx c hc, hb] at e
    have := (List.append_inj' e rfl).2
    exact absurd this (by decide)
  · obtain ⟨b', -, e⟩ := h
    rw [ht x hx c hc] at e
    have e' : c!"Release|" ++ c!"arm64" = b' ++ c!"|" ++ c!"ARM64" := e
    exact absurd (List.append_inj' e' rfl).2 (by decide)

/-- A GUID ending in a newline is accepted. -/
theorem C86_guid_newline (env : SlnEnv) (path : Str) (t : SlnTarget) (h : t.guid = c!"12-AB\n") :
    guidOfProject env path t = .ok c!"{12-AB\n}" := by
  unfold guidOfProject
  rw [h]
  rfl

/-- A tool for the host and a target of the name `..._host` in one directory have the same project
file, and the same entry in the solution. -/
theorem C86_same_file (env : SlnEnv) (dir : Str) (spec1 spec2 : TSpec) :
    let a : Str × SlnTarget := (dir ++ c!"/x.gyp:t#host",
      { name := c!"t", toolset := c!"host", spec := spec1, configurations := [] })
    let b : Str × SlnTarget := (dir ++ c!"/x.gyp:t_host#target",
      { name := c!"t_host", toolset := c!"target", spec := spec2, configurations := [] })
    projectFile env a = projectFile env b := by
  intro a b
  have h1 : fileOf a.1 = dir ++ c!"/x.gyp" := by
    have : a.1 = (dir ++ c!"/x.gyp") ++ ':' :: c!"t#host" := by simp [a]
    rw [this, fileOf_append _ _ (by decide)]
  have h2 : fileOf b.1 = dir ++ c!"/x.gyp" := by
    have : b.1 = (dir ++ c!"/x.gyp") ++ ':' :: c!"t_host#target" := by simp [b]
    rw [this, fileOf_append _ _ (by decide)]
  unfold projectFile
  rw [h1, h2]
  rfl

end Gyp
