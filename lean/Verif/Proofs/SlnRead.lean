import Verif.Proofs.SlnCore
/-
For C86: a solution file is read as its entries, variants and folders.
-/
namespace Gyp
open Spec

theorem guidText_noSpecial {g : Str} (h : guidText g) : '"' ∉ g ∧ '=' ∉ g ∧ '\n' ∉ g := by
  refine ⟨fun hc => ?_, fun hc => ?_, fun hc => ?_⟩ <;> exact absurd (h _ hc) (by decide)

theorem validGuid_noSpecial {g : Str} (h : validGuid g = true) (hs : slnText g) :
    '"' ∉ g ∧ '=' ∉ g ∧ '\n' ∉ g := by
  have hnl : '\n' ∉ g := fun hc => (hs _ hc).2.1 rfl
  have hend : endsWith g ['\n'] = false := by
    cases he : endsWith g ['\n'] with
    | false => rfl
    | true =>
      unfold endsWith at he
      rw [List.isSuffixOf_iff_suffix] at he
      exact absurd (he.subset (by simp)) hnl
  unfold validGuid at h
  simp only [hend, Bool.false_eq_true, if_false, Bool.and_eq_true, List.all_eq_true] at h
  exact ⟨fun hc => (hs _ hc).1 rfl, fun hc => absurd (h.2 _ hc) (by decide), hnl⟩

theorem mem_replaceChar {c x : Char} {new s : Str} (h : x ∈ replaceChar c new s) : x ∈ new ∨ x ∈ s := by
  unfold replaceChar at h
  rw [List.mem_flatMap] at h
  obtain ⟨y, hy, hx⟩ := h
  split at hx
  · exact Or.inl hx
  · simp only [List.mem_singleton] at hx
    exact Or.inr (hx ▸ hy)

theorem mem_fileOf {q : Str} {c : Char} (h : c ∈ fileOf q) : c ∈ q := by
  unfold fileOf at h
  have h1 := List.mem_reverse.mp h
  have h2 := List.mem_of_mem_drop h1
  exact List.mem_reverse.mp ((List.dropWhile_sublist _).subset h2)

theorem mem_dirNames {file f : Str} (h : f ∈ dirNames file) {c : Char} (hc : c ∈ f) : c ∈ file := by
  unfold dirNames at h
  have h1 := List.mem_of_mem_dropLast h
  have h2 := (List.mem_filter.mp h1).1
  have h3 : c ∈ joinWith ['/'] (splitOn '/' file) := by
    clear h h1
    generalize splitOn '/' file = ws at h2
    induction ws with
    | nil => cases h2
    | cons w ws ih =>
      rcases List.mem_cons.mp h2 with rfl | h2
      · cases ws <;> simp [joinWith, hc]
      · cases ws with
        | nil => cases h2
        | cons a b =>
          have := ih h2
          simp only [joinWith, List.mem_append]
          exact Or.inr this
  rwa [joinWith_splitOn] at h3

theorem slnText_path {env : SlnEnv} {targets : List (Str × SlnTarget)} (hf : SlnFine env targets)
    (hn : SlnNamed targets) {x : Str × SlnTarget} (hx : x ∈ targets) :
    slnText (pathOfProject env x.1 x.2) := by
  obtain ⟨h1, h2, h3, h4⟩ := hf.names x hx
  have hfile : slnText (if x.2.existing ≠ [] then x.2.existing else shownName x.2 ++ env.suffix ++ env.ext) := by
    split
    · exact h3
    · intro c hc
      simp only [List.mem_append] at hc
      rcases hc with (hc | hc) | hc
      · unfold shownName at hc
        split at hc
        · rcases List.mem_append.mp hc with hc | hc
          · exact h2 c hc
          · exact (by decide : ∀ c ∈ c!"_host", c ≠ '"' ∧ c ≠ '\n' ∧ c ≠ '\r' ∧ c ≠ '\\') c hc
        · exact h2 c hc
      · exact hf.opts.1 c hc
      · exact hf.opts.2.2.1 c hc
  unfold pathOfProject
  rw [hn.buildFile hx]
  simp only [Option.getD_some]
  have hj : slnText (pathJoin (dirname (fileOf x.1))
      (if x.2.existing ≠ [] then x.2.existing else shownName x.2 ++ env.suffix ++ env.ext)) := by
    intro c hc
    rcases mem_pathJoin hc with hc | hc | rfl
    · exact h1 c (mem_fileOf (mem_dirname hc))
    · exact hfile c hc
    · decide
  by_cases ho : env.output ≠ []
  · rw [if_pos ho]
    intro c hc
    rcases mem_pathJoin hc with hc | hc | rfl
    · exact hf.opts.2.1 c hc
    · exact hj c hc
    · decide
  · rw [if_neg ho]; exact hj

theorem shownPath_noSpecial {env : SlnEnv} {sln path : Str} (hc : ∀ c ∈ env.cwd, slnText c)
    (hp : slnText path) : '"' ∉ shownPath env sln path ∧ '\n' ∉ shownPath env sln path := by
  have key : ∀ x ∈ shownPath env sln path, x ≠ '"' ∧ x ≠ '\n' := by
    intro x hx
    unfold shownPath at hx
    simp only at hx
    split at hx
    · exact (by decide : ∀ c ∈ c!".", c ≠ '"' ∧ c ≠ '\n') x hx
    · rcases mem_replaceChar hx with h | h
      · exact (by decide : ∀ c ∈ ['\\'], c ≠ '"' ∧ c ≠ '\n') x h
      · rcases mem_RelativePath h with h | rfl | rfl | ⟨c, h1, h2⟩
        · exact ⟨(hp x h).1, (hp x h).2.1⟩
        · decide
        · decide
        · exact ⟨(hc c h1 x h2).1, (hc c h1 x h2).2.1⟩
  exact ⟨fun h => (key _ h).1 rfl, fun h => (key _ h).2 rfl⟩

/-! ### Configurations -/

theorem configBaseName_mem {name platform : Str} {c : Char} (h : c ∈ configBaseName name platform) :
    c ∈ name := by
  unfold configBaseName at h
  split at h
  · exact List.mem_of_mem_take h
  · exact h

theorem fold_configs_mem (t : SlnTarget) (s : List Str) (v : Str) :
    v ∈ t.configurations.foldl (fun s c =>
      if configFullName c.1 c.2 = c!"Release|arm64" then
        listAdd (listAdd s (configFullName c.1 c.2)) c!"Release|x64"
      else listAdd s (configFullName c.1 c.2)) s ↔
    v ∈ s ∨ ∃ c ∈ t.configurations, v = configFullName c.1 c.2 ∨
      (configFullName c.1 c.2 = c!"Release|arm64" ∧ v = c!"Release|x64") := by
  generalize t.configurations = cs
  induction cs generalizing s with
  | nil => simp
  | cons c cs ih =>
    rw [List.foldl_cons, ih]
    by_cases h : configFullName c.1 c.2 = c!"Release|arm64"
    · rw [if_pos h, mem_listAdd_str, mem_listAdd_str]
      simp only [List.mem_cons, exists_eq_or_imp, h, true_and]
      tauto
    · rw [if_neg h, mem_listAdd_str]
      simp only [List.mem_cons, exists_eq_or_imp, h, false_and, or_false, or_assoc]

theorem mem_solutionConfigs (targets : List (Str × SlnTarget)) (v : Str) :
    v ∈ solutionConfigs targets ↔ ∃ x ∈ targets, ∃ c ∈ x.2.configurations,
      v = configFullName c.1 c.2 ∨ (configFullName c.1 c.2 = c!"Release|arm64" ∧ v = c!"Release|x64") := by
  unfold solutionConfigs
  have : ∀ s : List Str, v ∈ targets.foldl (fun s t => t.2.configurations.foldl (fun s c =>
      if configFullName c.1 c.2 = c!"Release|arm64" then
        listAdd (listAdd s (configFullName c.1 c.2)) c!"Release|x64"
      else listAdd s (configFullName c.1 c.2)) s) s ↔ v ∈ s ∨ ∃ x ∈ targets, ∃ c ∈ x.2.configurations,
      v = configFullName c.1 c.2 ∨ (configFullName c.1 c.2 = c!"Release|arm64" ∧ v = c!"Release|x64") := by
    induction targets with
    | nil => simp
    | cons x l ih =>
      intro s
      rw [List.foldl_cons, ih, fold_configs_mem x.2 s v]
      simp only [List.mem_cons, exists_eq_or_imp, or_assoc]
  have h := this []
  simp only [List.not_mem_nil, false_or] at h
  exact h

theorem solutionConfigs_nodup (targets : List (Str × SlnTarget)) : (solutionConfigs targets).Nodup := by
  unfold solutionConfigs
  have inner : ∀ (cs : List (Str × SlnConfig)) (s : List Str), s.Nodup → (cs.foldl (fun s c =>
      if configFullName c.1 c.2 = c!"Release|arm64" then
        listAdd (listAdd s (configFullName c.1 c.2)) c!"Release|x64"
      else listAdd s (configFullName c.1 c.2)) s).Nodup := by
    intro cs
    induction cs with
    | nil => intro s h; exact h
    | cons c cs ih =>
      intro s h
      rw [List.foldl_cons]
      apply ih
      split
      · exact nodup_listAdd_str (nodup_listAdd_str h)
      · exact nodup_listAdd_str h
  have : ∀ s : List Str, s.Nodup → (targets.foldl (fun s t => t.2.configurations.foldl (fun s c =>
      if configFullName c.1 c.2 = c!"Release|arm64" then
        listAdd (listAdd s (configFullName c.1 c.2)) c!"Release|x64"
      else listAdd s (configFullName c.1 c.2)) s) s).Nodup := by
    induction targets with
    | nil => intro s h; exact h
    | cons x l ih => intro s h; exact ih _ (inner _ _ h)
  exact this [] List.nodup_nil

theorem variants_text {env : SlnEnv} {targets : List (Str × SlnTarget)} (hf : SlnFine env targets)
    {configs : List Str} (hc : configs.Perm (solutionConfigs targets)) :
    ∀ v ∈ writtenVariants (shownConfigs env configs), '=' ∉ v ∧ '\n' ∉ v := by
  intro v hv
  have key : v ∈ configs → '=' ∉ v ∧ '\n' ∉ v := by
    intro h
    rw [hc.mem_iff, mem_solutionConfigs] at h
    obtain ⟨x, hx, c, hcm, e | ⟨-, rfl⟩⟩ := h
    · obtain ⟨g1, g2, g3, g4, -⟩ := hf.configs x hx c hcm
      rw [e]
      unfold configFullName
      constructor
      · intro h
        simp only [List.mem_append, List.mem_singleton] at h
        rcases h with (h | h) | h
        · exact g2 (configBaseName_mem h)
        · cases h
        · exact g4 h
      · intro h
        simp only [List.mem_append, List.mem_singleton] at h
        rcases h with (h | h) | h
        · exact (g1 _ (configBaseName_mem h)).2.1 rfl
        · cases h
        · exact (g3 _ h).2.1 rfl
    · decide
  unfold writtenVariants at hv
  split at hv
  · apply key
    unfold shownConfigs at hv
    split at hv
    · exact (List.mem_filter.mp hv).1
    · exact hv
  · simp only [List.mem_cons, List.not_mem_nil, or_false] at hv
    rcases hv with rfl | rfl <;> decide

theorem aget_fold_mem {α β : Type} (f : β → Str) (g : β → α) (l : List β) (d : List (Str × α)) {k : Str} {v : α}
    (h : aget (l.foldl (fun d c => aset d (f c) (g c)) d) k = some v) :
    aget d k = some v ∨ ∃ c ∈ l, k = f c ∧ v = g c := by
  induction l generalizing d with
  | nil => exact Or.inl h
  | cons c l ih =>
    rw [List.foldl_cons] at h
    rcases ih _ h with h | ⟨c', hc', h1, h2⟩
    · rw [aget_aset] at h
      by_cases hk : k = f c
      · rw [if_pos hk] at h
        simp only [Option.some.injEq] at h
        exact Or.inr ⟨c, by simp, hk, h.symm⟩
      · rw [if_neg hk] at h
        exact Or.inl h
    · exact Or.inr ⟨c', List.mem_cons_of_mem _ hc', h1, h2⟩

/-- The value a project has for a configuration. -/
def fixedName (env : SlnEnv) (t : SlnTarget) (c : Str × SlnConfig) : Str :=
  if t.toolset = c!"host" ∧ env.multi then c.1 ++ c!"|x64"
  else configBaseName c.1 c.2.platform ++ c!"|" ++ c.2.target.getD c.2.platform

theorem platformOverrides_eq (env : SlnEnv) (t : SlnTarget) : platformOverrides env t =
    t.configurations.foldl (fun d c => aset d (configFullName c.1 c.2) (fixedName env t c)) [] := rfl

theorem overrides_text {env : SlnEnv} {targets : List (Str × SlnTarget)} (hf : SlnFine env targets)
    {x : Str × SlnTarget} (hx : x ∈ targets) {v nv : Str}
    (h : aget (platformOverrides env x.2) v = some nv) : '\n' ∉ nv := by
  rw [platformOverrides_eq] at h
  rcases aget_fold_mem (fun c => configFullName c.1 c.2) (fixedName env x.2) _ _ h with h | ⟨c, hc, -, rfl⟩
  · cases h
  · obtain ⟨g1, g2, g3, g4, g5⟩ := hf.configs x hx c hc
    unfold fixedName
    split
    · intro h
      rcases List.mem_append.mp h with h | h
      · exact (g1 _ h).2.1 rfl
      · exact absurd h (by decide)
    · intro h
      simp only [List.mem_append, List.mem_singleton] at h
      rcases h with (h | h) | h
      · exact (g1 _ (configBaseName_mem h)).2.1 rfl
      · cases h
      · cases ht : c.2.target with
        | none => rw [ht] at h; exact (g3 _ h).2.1 rfl
        | some p => rw [ht] at h; exact (g5 p ht _ h).2.1 rfl

theorem guidOverrides_mem {env : SlnEnv} {heap : List (Str × SlnProject)} {es : List SEntry}
    {g : Str} {o : List (Str × Str)} (h : aget (guidOverrides env heap es) g = some o) :
    ∃ q ∈ projectKeys es, g = entryGuid env heap (.project q) ∧
      o = ((aget heap q).map (·.overrides)).getD [] := by
  unfold guidOverrides at h
  have : ∀ (es : List SEntry) (d : List (Str × List (Str × Str))),
      aget (es.foldl (fun d e => match e with
        | .project q => aset d (entryGuid env heap e) (((aget heap q).map (·.overrides)).getD [])
        | .folder .. => d) d) g = some o →
      aget d g = some o ∨ ∃ q ∈ projectKeys es, g = entryGuid env heap (.project q) ∧
        o = ((aget heap q).map (·.overrides)).getD [] := by
    intro es
    induction es with
    | nil => intro d h; exact Or.inl h
    | cons e es ih =>
      intro d h
      rw [List.foldl_cons] at h
      cases e with
      | folder p n l => exact ih d h
      | project q =>
        rcases ih _ h with h | ⟨q', h1, h2⟩
        · simp only [aget_aset] at h
          by_cases hk : g = entryGuid env heap (.project q)
          · rw [if_pos hk] at h
            simp only [Option.some.injEq] at h
            exact Or.inr ⟨q, by simp [projectKeys], hk, h.symm⟩
          · rw [if_neg hk] at h
            exact Or.inl h
        · exact Or.inr ⟨q', by simp [projectKeys, h1], h2⟩
  rcases this es [] h with h | h
  · cases h
  · exact h

/-! ### Reading -/

/-- The parts of a solution, and how it is read. -/
structure SlnRead (env : SlnEnv) (targets : List (Str × SlnTarget)) (file text : Str)
    (heap : List (Str × SlnProject)) (projects : List Str) (roots entries : List SEntry)
    (configs : List Str) : Prop where
  heap_eq : heap = targets.map fun t => (t.1, projectOf env t.1 t.2)
  valid : ∀ t ∈ targets, t.2.guid ≠ [] → validGuid t.2.guid = true
  nodup : projects.Nodup
  mem : ∀ q, q ∈ projects ↔ InSolution targets file q
  sub : ∀ q ∈ projects, q ∈ targets.map (·.1)
  gather : gatherFolders env heap projects = .ok roots
  entries_perm : entries.Perm (allEntries roots)
  keys_perm : (projectKeys entries).Perm projects
  configs_perm : configs.Perm (solutionConfigs targets)
  read : readSln text =
    { records := entries.map (slnRecordOf env heap (solutionPath env file)),
      sections := sectionsOf env heap (writtenVariants (shownConfigs env configs)) entries,
      record := none, inside := none }

theorem projects_apart {targets : List (Str × SlnTarget)} (hn : SlnNamed targets) (hp : SlnPlaces targets)
    {projects : List Str} (h1 : projects.Nodup) (h2 : ∀ q ∈ projects, q ∈ targets.map (·.1)) :
    projects.Pairwise fun a b => SlnApart ((projectPlace a).1 ++ [(projectPlace a).2])
      ((projectPlace b).1 ++ [(projectPlace b).2]) := by
  refine List.Pairwise.imp_of_mem ?_ h1
  intro a b ha hb hab
  obtain ⟨x, hx, rfl⟩ := List.mem_map.mp (h2 a ha)
  obtain ⟨y, hy, rfl⟩ := List.mem_map.mp (h2 b hb)
  exact apart_of_ne hn hp hx hy hab

theorem place_dirs {targets : List (Str × SlnTarget)} (hn : SlnNamed targets) (hp : SlnPlaces targets)
    {projects : List Str} (h2 : ∀ q ∈ projects, q ∈ targets.map (·.1)) :
    (∀ q ∈ projects, ∀ f ∈ (projectPlace q).1, ¬ endsWith f c!".vcproj") ∧
    (∀ q ∈ projects, (projectPlace q).2 ≠ c!".vcproj") := by
  constructor
  · intro q hq f hf
    obtain ⟨x, hx, rfl⟩ := List.mem_map.mp (h2 q hq)
    rw [hn.place hx] at hf
    exact hp.noDir hx f hf
  · intro q hq
    obtain ⟨x, hx, rfl⟩ := List.mem_map.mp (h2 q hq)
    rw [hn.place hx]
    intro e
    have h : shownName x.2 = [] := by simpa using e
    have := hp.names x hx
    unfold shownName at h
    split at h
    · simp at h
    · exact this h

theorem solution_read {env : SlnEnv} {targets : List (Str × SlnTarget)} {file text : Str}
    (hn : SlnNamed targets) (hf : SlnFine env targets) (hp : SlnPlaces targets)
    (h : IsSolution env targets file text) :
    ∃ heap projects roots entries configs,
      SlnRead env targets file text heap projects roots entries configs := by
  obtain ⟨heap, projects, roots, configs, entries, h1, h2, h3, h4, h5, -, rfl⟩ := h
  obtain ⟨heq, hvalid, -⟩ := createProjects_ok h1
  obtain ⟨hnd, hmem, hsub⟩ := allTargets_mem hn h2
  obtain ⟨hd1, hd2⟩ := place_dirs hn hp hsub
  obtain ⟨roots', tops, L, g1, g2, -, -, g5⟩ := gatherFolders_leaves env heap projects hd1 hd2
    (projects_apart hn hp hnd hsub)
  rw [h3] at g1
  simp only [Except.ok.injEq] at g1
  subst g1
  have hkeys : (projectKeys (allEntries roots)).Perm projects := by
    rw [projectKeys_all]
    refine (g5.map (·.2)).trans ?_
    rw [List.map_map]
    have := g2.map (·.2)
    rw [List.map_map, List.map_map] at this
    refine this.trans (List.Perm.of_eq ?_)
    simp [Function.comp_def]
  have hcol := collectEntries_perm roots [] (by simpa [projectKeys] using hkeys.nodup_iff.mpr hnd)
  rw [List.nil_append] at hcol
  have hperm := h5.trans hcol
  have hkp := (projectKeys_perm hperm).trans hkeys
  have hget : ∀ x ∈ targets, aget heap x.1 = some (projectOf env x.1 x.2) := by
    intro x hx
    rw [heq, aget_map (projectOf env), aget_target hn.keys hx]
    rfl
  have hproj : ∀ e ∈ entries, ∀ q, e = SEntry.project q → ∃ x ∈ targets, x.1 = q := by
    intro e he q hq
    subst hq
    have : q ∈ projectKeys entries := by
      rw [projectKeys_eq, List.mem_filterMap]
      exact ⟨_, he, rfl⟩
    have := hsub q (hkp.mem_iff.mp this)
    obtain ⟨x, hx, e⟩ := List.mem_map.mp this
    exact ⟨x, hx, e⟩
  -- texts of projects
  have hguid : ∀ x ∈ targets, ∀ g, g = projectGuid env x.1 x.2 → '"' ∉ g ∧ '=' ∉ g ∧ '\n' ∉ g := by
    intro x hx g hg
    unfold projectGuid at hg
    by_cases h : x.2.guid ≠ []
    · rw [if_pos h] at hg
      have := validGuid_noSpecial (hvalid x hx h) (hf.names x hx).2.2.2
      subst hg
      refine ⟨?_, ?_, ?_⟩ <;> simp [this]
    · rw [if_neg h] at hg
      rw [hg]
      exact guidText_noSpecial (hf.guids _ _)
  have hpg : ∀ q, '"' ∉ entryGuid env heap (.project q) ∧ '=' ∉ entryGuid env heap (.project q) ∧
      '\n' ∉ entryGuid env heap (.project q) := by
    intro q
    have hsh : entryGuid env heap (.project q) = ((aget heap q).map (·.guid)).getD [] := rfl
    rw [hsh]
    cases hq : aget heap q with
    | none => exact ⟨by simp, by simp, by simp⟩
    | some p =>
      have hm := aget_some_mem hq
      rw [heq] at hm
      obtain ⟨x, hx, e⟩ := List.mem_map.mp hm
      simp only [Prod.mk.injEq] at e
      refine hguid x hx _ ?_
      rw [← e.2]
      rfl
  have hgall : ∀ e, '"' ∉ entryGuid env heap e ∧ '=' ∉ entryGuid env heap e ∧
      '\n' ∉ entryGuid env heap e := by
    intro e
    cases e with
    | project q => exact hpg q
    | folder p n l => exact guidText_noSpecial (hf.guids _ _)
  have hfold : ∀ p n es, SEntry.folder p n es ∈ entries → slnText p ∧ slnText n := by
    intro p n es he
    refine gatherFolders_folders h3 (fun c => c ≠ '"' ∧ c ≠ '\n' ∧ c ≠ '\r' ∧ c ≠ '\\') (by decide)
      (by decide) (by decide) ?_ p n es (hperm.mem_iff.mp he)
    intro q hq f hf' c hc
    obtain ⟨x, hx, rfl⟩ := List.mem_map.mp (hsub q hq)
    rw [hn.place hx] at hf'
    exact (hf.names x hx).1 c (mem_fileOf (mem_dirNames hf' hc))
  have hname : ∀ e ∈ entries, slnText (entryName heap e) := by
    intro e he
    cases e with
    | folder p n l => exact (hfold p n l he).2
    | project q =>
      obtain ⟨x, hx, rfl⟩ := hproj _ he q rfl
      have hsh : entryName heap (.project x.1) = ((aget heap x.1).map (·.name)).getD [] := rfl
      rw [hsh, hget x hx]
      simp only [Option.map_some, Option.getD_some, projectOf]
      unfold shownName
      split
      · intro c hc
        rcases List.mem_append.mp hc with hc | hc
        · exact (hf.names x hx).2.1 c hc
        · exact (by decide : ∀ c ∈ c!"_host", c ≠ '"' ∧ c ≠ '\n' ∧ c ≠ '\r' ∧ c ≠ '\\') c hc
      · exact (hf.names x hx).2.1
  have hpath : ∀ e ∈ entries, slnText (entryPath heap e) := by
    intro e he
    cases e with
    | folder p n l => exact (hfold p n l he).1
    | project q =>
      obtain ⟨x, hx, rfl⟩ := hproj _ he q rfl
      have hsh : entryPath heap (.project x.1) = ((aget heap x.1).map (·.path)).getD [] := rfl
      rw [hsh, hget x hx]
      exact slnText_path hf hn hx
  have hshown : ∀ e ∈ entries, '"' ∉ shownPath env (solutionPath env file) (entryPath heap e) ∧
      '\n' ∉ shownPath env (solutionPath env file) (entryPath heap e) := fun e he =>
    shownPath_noSpecial (fun c hc => (hf.cwd c hc).2) (hpath e he)
  have hv := variants_text hf h4
  have hnv : ∀ g v, '\n' ∉ v → '\n' ∉ (aget ((aget (guidOverrides env heap entries) g).getD []) v).getD v := by
    intro g v hv'
    cases ho : aget (guidOverrides env heap entries) g with
    | none => simpa [aget] using hv'
    | some o =>
      simp only [Option.getD_some]
      cases hov : aget o v with
      | none => simpa using hv'
      | some nv =>
        simp only [Option.getD_some]
        obtain ⟨q, hq, -, rfl⟩ := guidOverrides_mem ho
        obtain ⟨x, hx, rfl⟩ := List.mem_map.mp (hsub q (hkp.mem_iff.mp hq))
        rw [hget x hx] at hov
        exact overrides_text hf hx hov
  have hlines : ∀ l ∈ solutionLines env heap (solutionPath env file)
      (writtenVariants (shownConfigs env configs)) entries, '\n' ∉ l := by
    intro l hl
    unfold solutionLines at hl
    simp only [List.mem_append, List.mem_cons, List.not_mem_nil, or_false, or_assoc] at hl
    rcases hl with rfl | rfl | hl | rfl | rfl | hl | rfl | rfl | hl | rfl | rfl | rfl | rfl | hl | rfl
    · intro h
      rcases List.mem_append.mp h with h | h
      · exact absurd h (by decide)
      · exact (hf.opts.2.2.2.1 _ h).2.1 rfl
    · intro h
      rcases List.mem_append.mp h with h | h
      · exact absurd h (by decide)
      · exact (hf.opts.2.2.2.2.1 _ h).2.1 rfl
    · obtain ⟨e, he, hl⟩ := List.mem_flatMap.mp hl
      have q1 : '\n' ∉ entryType e := by cases e <;> simp [entryType]
      have q2 : '\n' ∉ entryName heap e := fun h => (hname e he _ h).2.1 rfl
      have q3 := (hshown e he).2
      have q4 := (hgall e).2.2
      unfold entryLines at hl
      simp only [List.mem_append, List.mem_cons, List.not_mem_nil, or_false] at hl
      rcases hl with (rfl | hl) | rfl
      · simp [q1, q2, q3, q4]
      · split at hl
        · cases hl
        · simp only [List.mem_append, List.mem_cons, List.not_mem_nil, or_false, List.mem_map] at hl
          rcases hl with (rfl | ⟨d, -, rfl⟩) | rfl
          · decide
          · have := (hpg d).2.2
            simp [this]
          · decide
      · decide
    · decide
    · decide
    · obtain ⟨v, hv', rfl⟩ := List.mem_map.mp hl
      have := (hv v hv').2
      simp [this]
    · decide
    · decide
    · obtain ⟨g, hg, hl⟩ := List.mem_flatMap.mp hl
      obtain ⟨v, hv', hl⟩ := List.mem_flatMap.mp hl
      have q1 : '\n' ∉ g := by
        unfold configGuids at hg
        rw [(pySorted_perm strLe _).mem_iff, List.mem_filterMap] at hg
        obtain ⟨e, -, he⟩ := hg
        cases e with
        | project q => simp only [Option.some.injEq] at he; rw [← he]; exact (hgall _).2.2
        | folder p n l => cases he
      have q2 := (hv v hv').2
      have q3 := hnv g v q2
      unfold configLines at hl
      simp only [List.mem_cons, List.not_mem_nil, or_false] at hl
      rcases hl with rfl | rfl
      · simp [q1, q2, q3]
      · simp [q1, q2, q3]
    · decide
    · decide
    · decide
    · decide
    · unfold nestedLines at hl
      split at hl
      · simp only [List.mem_append, List.mem_cons, List.not_mem_nil, or_false] at hl
        rcases hl with (rfl | hl) | rfl
        · decide
        · obtain ⟨e, he, hl⟩ := List.mem_flatMap.mp hl
          obtain ⟨s, hs, rfl⟩ := List.mem_map.mp hl
          have q1 := (hgall s).2.2
          have q2 := (hgall e).2.2
          simp [q1, q2]
        · decide
      · cases hl
    · decide
  refine ⟨heap, projects, roots, entries, configs, heq, hvalid, hnd, hmem, hsub, h3, hperm, hkp, h4, ?_⟩
  unfold readSln
  rw [slnLines_linesText hlines, List.foldl_append,
    foldl_solution env heap (solutionPath env file) _ entries
      (fun e he h => (hname e he _ h).1 rfl) (fun e he => (hshown e he).1)
      (fun e _ => ⟨(hgall e).1, (hgall e).2.1⟩) (fun e _ s _ => (hgall s).2.1)
      (fun e _ d _ => (hpg d).2.1) (fun v hv' => (hv v hv').1)]
  rfl

end Gyp
