import Verif.Proofs.CMakeTarget
/-
C108 and C110: the files, flags and properties of a target in a CMake file.
-/
namespace Gyp
open Gyp.Spec

/-! ### What the parts are made of -/

theorem told_of_reads {env env' : CEnv} {m : Str → Str} {t : CTarget} (h : TargetFits env m t)
    {text : Str} (ht : t.text = some text) {told : List Told}
    (hr : cmakeReads env text = some (env', told)) :
    ∃ command modifier, (t.type, command, modifier) ∈ cmTypes ∧
      told = t.told m env command modifier := by
  obtain ⟨c, md, e, h₁, _, h₂, _⟩ := reads_target h ht
  rw [h₂.cmakeReads] at hr
  cases hr
  exact ⟨c, md, h₁, rfl⟩

theorem dummyTold_cmd {f : Str} {b : Bool} :
    ∀ c ∈ (if b then dummyTold f else []), c.command ∈ [c!"if", c!"file", c!"endif"] := by
  intro c hc
  split at hc
  · simp only [dummyTold, List.mem_cons, List.not_mem_nil, or_false] at hc
    rcases hc with rfl | rfl | rfl <;> dsimp only <;> decide
  · simp at hc

theorem dirTold_cmd {m : Str → Str} {t : CTarget} :
    ∀ c ∈ t.dirTold m, c.command ∈ [c!"link_directories"] := by
  intro c hc
  unfold CTarget.dirTold at hc
  split at hc
  · simp at hc
  · simp only [List.mem_singleton] at hc; subst hc; simp

theorem excludeTold_cmd {t : CTarget} :
    ∀ c ∈ t.excludeTold, ∃ d, c = ⟨c!"set_target_" ++ c!"properties",
      [d, c!"PROPERTIES", c!"EXCLUDE_FROM_ALL", t.excluded]⟩ := by
  intro c hc
  obtain ⟨d, _, rfl⟩ := List.mem_map.1 hc
  exact ⟨d, rfl⟩

theorem languageTold_cmd {t : CTarget} :
    ∀ c ∈ t.languageTold, ∃ v, c = ⟨c!"set_target_" ++ c!"properties",
      [t.name, c!"PROPERTIES", c!"LINKER_LANGUAGE", v]⟩ := by
  intro c hc
  unfold CTarget.languageTold at hc
  split at hc
  · exact ⟨_, List.mem_singleton.1 hc⟩
  · simp at hc

theorem headerTold_cmd {m : Str → Str} {t : CTarget} :
    ∀ c ∈ t.headerTold m, c = t.filesTold m .other c!"HEADER_FILE_ONLY" c!"TRUE" := by
  intro c hc
  unfold CTarget.headerTold at hc
  split at hc
  · exact List.mem_singleton.1 hc
  · simp at hc

theorem objectTold_cmd {m : Str → Str} {t : CTarget} :
    ∀ c ∈ t.objectTold m, c = t.filesTold m .other c!"EXTERNAL_OBJECT" c!"TRUE" := by
  intro c hc
  unfold CTarget.objectTold at hc
  split at hc
  · exact List.mem_singleton.1 hc
  · simp at hc

theorem includeTold_cmd {m : Str → Str} {t : CTarget} :
    ∀ c ∈ t.includeTold m, c.command = c!"set_property" := by
  intro c hc
  unfold CTarget.includeTold at hc
  split at hc
  · rw [List.mem_singleton.1 hc]
  · simp at hc

theorem defineTold_cmd {m : Str → Str} {t : CTarget} :
    ∀ c ∈ t.defineTold m, ∃ v, c = ⟨c!"set_target_" ++ c!"properties",
      [t.name, c!"PROPERTIES", c!"COMPILE_" ++ c!"DEFINITIONS", v]⟩ := by
  intro c hc
  unfold CTarget.defineTold at hc
  split at hc
  · split at hc
    · exact ⟨_, List.mem_singleton.1 hc⟩
    · simp at hc
  · simp at hc

theorem linkFlagTold_cmd {m : Str → Str} {t : CTarget} :
    ∀ c ∈ t.linkFlagTold m, ∃ v, c = ⟨c!"set_target_" ++ c!"properties",
      [t.name, c!"PROPERTIES", c!"LINK_FLAGS", v]⟩ := by
  intro c hc
  unfold CTarget.linkFlagTold at hc
  split at hc
  · split at hc
    · exact ⟨_, List.mem_singleton.1 hc⟩
    · simp at hc
  · simp at hc

theorem flagTold_cmd {m : Str → Str} {t : CTarget} :
    ∀ c ∈ t.flagTold m, (∃ v, c = ⟨c!"set_target_" ++ c!"properties",
      [t.name, c!"PROPERTIES", c!"COMPILE_FLAGS", v]⟩) ∨
      ∃ k v, c = t.filesTold m k c!"COMPILE_FLAGS" v := by
  intro c hc
  unfold CTarget.flagTold at hc
  dsimp only at hc
  split at hc
  · simp at hc
  · split at hc
    · exact .inl ⟨_, List.mem_singleton.1 hc⟩
    · split at hc
      · exact .inl ⟨_, List.mem_singleton.1 hc⟩
      · split at hc
        · exact .inl ⟨_, List.mem_singleton.1 hc⟩
        · right
          simp only [List.mem_append] at hc
          rcases hc with (hc | hc) | hc <;> split at hc
          · exact ⟨_, _, List.mem_singleton.1 hc⟩
          · simp at hc
          · exact ⟨_, _, List.mem_singleton.1 hc⟩
          · simp at hc
          · exact ⟨_, _, List.mem_singleton.1 hc⟩
          · simp at hc

theorem extraDepTold_cmd {t : CTarget} : ∀ c ∈ t.extraDepTold, c.command = c!"add_dependencies" := by
  intro c hc
  unfold CTarget.extraDepTold at hc
  split at hc
  · obtain ⟨d, _, rfl⟩ := List.mem_map.1 hc; rfl
  · simp at hc

theorem depTold_cmd {t : CTarget} : ∀ c ∈ t.depTold, c.command = c!"add_dependencies" := by
  intro c hc
  unfold CTarget.depTold at hc
  split at hc
  · rw [List.mem_singleton.1 hc]
  · simp at hc

theorem linkTold_cmd {m : Str → Str} {t : CTarget} :
    ∀ c ∈ t.linkTold m, c.command = c!"target_link_" ++ c!"libraries" := by
  intro c hc
  unfold CTarget.linkTold at hc
  split at hc
  · rw [List.mem_singleton.1 hc]
  · simp at hc

theorem declare_cmd {t : CTarget} {command : Str} {modifier : Option Str}
    (h : (t.type, command, modifier) ∈ cmTypes) :
    madeBy t.type = some (command, modifier.toList) ∧ command ∈ makers := by
  simp only [cmTypes, List.mem_cons, Prod.mk.injEq, List.not_mem_nil, or_false] at h
  rcases h with h | h | h | h | h <;> obtain ⟨h₁, rfl, rfl⟩ := h <;> rw [h₁] <;> decide

/-- A command that says nothing of a list is passed over. -/
theorem filterMap_none {α β : Type} {f : α → Option β} {l : List α} (h : ∀ x ∈ l, f x = none) :
    l.filterMap f = [] := by
  rw [List.filterMap_eq_nil_iff]
  exact h

theorem targetSetting_other {target prop : Str} {c : Told}
    (h : c.command ≠ c!"set_target_" ++ c!"properties") : targetSetting target prop c = none := by
  unfold targetSetting
  rw [if_neg h]

theorem fileSetting_other {file prop : Str} {c : Told}
    (h : c.command ≠ c!"set_source_" ++ c!"files_properties") : fileSetting file prop c = none := by
  unfold fileSetting
  rw [if_neg h]

theorem targetSetting_set {target prop t p v : Str} :
    targetSetting target prop ⟨c!"set_target_" ++ c!"properties", [t, c!"PROPERTIES", p, v]⟩ =
      if t = target ∧ p = prop then some v else none := by
  unfold targetSetting
  rw [if_pos rfl]
  simp

theorem fileSetting_files {m : Str → Str} {t : CTarget} {k : SrcKind} {file prop p v : Str}
    (h : ∀ f ∈ t.group k, m f ≠ c!"PROPERTIES") :
    fileSetting file prop (t.filesTold m k p v) =
      if file ∈ (t.group k).map m ∧ p = prop then some v else none := by
  unfold fileSetting CTarget.filesTold
  rw [if_pos rfl]
  have hg : ∀ f ∈ (t.group k).map m, f ≠ c!"PROPERTIES" := by
    intro f hf
    obtain ⟨x, hx, rfl⟩ := List.mem_map.1 hf
    exact h x hx
  have h₁ : ∀ l : List Str, (∀ f ∈ l, f ≠ c!"PROPERTIES") →
      (l ++ [c!"PROPERTIES", p, v]).dropWhile (· ≠ c!"PROPERTIES") = [c!"PROPERTIES", p, v] ∧
      (l ++ [c!"PROPERTIES", p, v]).takeWhile (· ≠ c!"PROPERTIES") = l := by
    intro l hl
    induction l with
    | nil => simp
    | cons x l ih =>
      have := ih fun f hf => hl f (by simp [hf])
      simp only [List.cons_append, List.dropWhile_cons, List.takeWhile_cons]
      simp only [ne_eq, hl x (by simp), not_false_eq_true, decide_true, if_true]
      exact ⟨this.1, by rw [this.2]⟩
  obtain ⟨e₁, e₂⟩ := h₁ _ hg
  dsimp only
  rw [e₁, e₂]

theorem TargetFits.noProps {env : CEnv} {m : Str → Str} {t : CTarget} (h : TargetFits env m t)
    (k : SrcKind) : ∀ f ∈ t.group k, m f ≠ c!"PROPERTIES" :=
  fun f hf => (h.files (k, f) (group_mem.1 hf)).2.2.2.2

/-- The settings of files that are recorded. -/
theorem told_fileSettings {env : CEnv} {m : Str → Str} {t : CTarget} {command : Str}
    {modifier : Option Str} (hc : (t.type, command, modifier) ∈ cmTypes) (file prop : Str) :
    (t.told m env command modifier).filterMap (fileSetting file prop) =
      ((t.headerTold m).filterMap (fileSetting file prop) ++
        (t.objectTold m).filterMap (fileSetting file prop)) ++
        (t.flagTold m).filterMap (fileSetting file prop) := by
  have ne : ∀ l : List Told, (∀ c ∈ l, c.command ≠ c!"set_source_" ++ c!"files_properties") →
      l.filterMap (fileSetting file prop) = [] :=
    fun l hl => filterMap_none fun c hc => fileSetting_other (hl c hc)
  unfold CTarget.told
  simp only [List.filterMap_append]
  rw [ne _ fun c hc e => absurd (dummyTold_cmd c hc) (by rw [e]; decide),
    ne _ fun c hc e => absurd (dirTold_cmd c hc) (by rw [e]; decide),
    ne (t.declareTold m env command modifier) (by
      intro c h e
      rw [List.mem_singleton.1 h] at e
      have := (declare_cmd hc).2
      rw [show command = c!"set_source_" ++ c!"files_properties" from e] at this
      revert this; decide),
    ne t.excludeTold (by
      intro c h e
      obtain ⟨d, rfl⟩ := excludeTold_cmd c h
      revert e; dsimp only; decide),
    ne t.languageTold (by
      intro c h e
      obtain ⟨d, rfl⟩ := languageTold_cmd c h
      revert e; dsimp only; decide),
    ne (t.includeTold m) fun c h e => absurd (includeTold_cmd c h) (by rw [e]; decide),
    ne (t.defineTold m) (by
      intro c h e
      obtain ⟨d, rfl⟩ := defineTold_cmd c h
      revert e; dsimp only; decide),
    ne (t.linkFlagTold m) (by
      intro c h e
      obtain ⟨d, rfl⟩ := linkFlagTold_cmd c h
      revert e; dsimp only; decide),
    ne t.extraDepTold fun c h e => absurd (extraDepTold_cmd c h) (by rw [e]; decide),
    ne t.depTold fun c h e => absurd (depTold_cmd c h) (by rw [e]; decide),
    ne (t.linkTold m) fun c h e => absurd (linkTold_cmd c h) (by rw [e]; decide)]
  simp

/-- The settings of targets that are recorded. -/
theorem told_targetSettings {env : CEnv} {m : Str → Str} {t : CTarget} {command : Str}
    {modifier : Option Str} (hc : (t.type, command, modifier) ∈ cmTypes) (target prop : Str) :
    (t.told m env command modifier).filterMap (targetSetting target prop) =
      t.excludeTold.filterMap (targetSetting target prop) ++
      t.languageTold.filterMap (targetSetting target prop) ++
      (t.defineTold m).filterMap (targetSetting target prop) ++
      (t.flagTold m).filterMap (targetSetting target prop) ++
      (t.linkFlagTold m).filterMap (targetSetting target prop) := by
  have ne : ∀ l : List Told, (∀ c ∈ l, c.command ≠ c!"set_target_" ++ c!"properties") →
      l.filterMap (targetSetting target prop) = [] :=
    fun l hl => filterMap_none fun c hc => targetSetting_other (hl c hc)
  unfold CTarget.told
  simp only [List.filterMap_append]
  rw [ne _ fun c hc e => absurd (dummyTold_cmd c hc) (by rw [e]; decide),
    ne _ fun c hc e => absurd (dirTold_cmd c hc) (by rw [e]; decide),
    ne (t.declareTold m env command modifier) (by
      intro c h e
      rw [List.mem_singleton.1 h] at e
      have := (declare_cmd hc).2
      rw [show command = c!"set_target_" ++ c!"properties" from e] at this
      revert this; decide),
    ne (t.headerTold m) (by
      intro c h e
      rw [headerTold_cmd c h] at e
      revert e; unfold CTarget.filesTold; simp),
    ne (t.objectTold m) (by
      intro c h e
      rw [objectTold_cmd c h] at e
      revert e; unfold CTarget.filesTold; simp),
    ne (t.includeTold m) fun c h e => absurd (includeTold_cmd c h) (by rw [e]; decide),
    ne t.extraDepTold fun c h e => absurd (extraDepTold_cmd c h) (by rw [e]; decide),
    ne t.depTold fun c h e => absurd (depTold_cmd c h) (by rw [e]; decide),
    ne (t.linkTold m) fun c h e => absurd (linkTold_cmd c h) (by rw [e]; decide)]
  simp

/-! ### C108 -/

/-- **C108.**  What is written for a target is read by CMake without error; no variable
but those kept for sources and include directories changes. -/
theorem C108_readable {env : CEnv} {m : Str → Str} {t : CTarget} (h : TargetFits env m t)
    {text : Str} (ht : t.text = some text) :
    ∃ env' told, cmakeReads env text = some (env', told) ∧ ∀ n, ¬ KeptName n → env' n = env n := by
  obtain ⟨c, md, e, _, _, h₂, h₃⟩ := reads_target h ht
  exact ⟨e, _, h₂.cmakeReads, h₃⟩

/-- The groups of sources: by extension. -/
def OfKind (src : Str) : SrcKind → Prop
  | .asm => (splitext src).2 ∈ [c!".s", c!".S"]
  | .c => (splitext src).2 ∈ [c!".c"]
  | .cxx => (splitext src).2 ∈ [c!".cc", c!".cpp", c!".cxx"]
  | .linkable => endsWith (splitext src).2 c!".o"
  | .other => (splitext src).2 ∉ [c!".s", c!".S", c!".c", c!".cc", c!".cpp", c!".cxx"] ∧
      ¬ endsWith (splitext src).2 c!".o"

theorem srcKind_iff (src : Str) (k : SrcKind) : srcKind src = k ↔ OfKind src k := by
  unfold srcKind
  dsimp only
  generalize he : (splitext src).2 = e
  by_cases h₁ : e = c!".s" ∨ e = c!".S"
  · rw [if_pos h₁]
    rcases h₁ with rfl | rfl <;> cases k <;> simp only [OfKind, he] <;> decide
  · rw [if_neg h₁]
    by_cases h₂ : e = c!".c"
    · rw [if_pos h₂]
      subst h₂
      cases k <;> simp only [OfKind, he] <;> decide
    · rw [if_neg h₂]
      by_cases h₃ : e = c!".cc" ∨ e = c!".cpp" ∨ e = c!".cxx"
      · rw [if_pos h₃]
        rcases h₃ with rfl | rfl | rfl <;> cases k <;> simp only [OfKind, he] <;> decide
      · rw [if_neg h₃]
        push Not at h₁ h₃
        by_cases h₄ : endsWith e c!".o" = true
        · rw [if_pos h₄]
          cases k <;> simp [OfKind, he, h₁, h₂, h₃, h₄]
        · rw [if_neg h₄]
          cases k <;> simp [OfKind, he, h₁, h₂, h₃, h₄]

/-- **C108.**  The group a file is put in goes by the extension of the source, or of what
it was made from. -/
theorem C108_kinds (t : CTarget) (k : SrcKind) (f : Str) :
    (k, f) ∈ t.items ↔ (∃ s ∈ t.sources, OfKind s k ∧ f = normjoinPath t.path s) ∨
      ∃ p ∈ t.extraSources, OfKind p.2 k ∧ f = p.1 := by
  unfold CTarget.items
  simp only [List.mem_append, List.mem_map, Prod.mk.injEq, ← srcKind_iff]
  constructor
  · rintro (⟨s, h, h₁, h₂⟩ | ⟨p, h, h₁, h₂⟩)
    · exact .inl ⟨s, h, h₁, h₂.symm⟩
    · exact .inr ⟨p, h, h₁, h₂.symm⟩
  · rintro (⟨s, h, h₁, h₂⟩ | ⟨p, h, h₁, h₂⟩)
    · exact .inl ⟨s, h, h₁, h₂.symm⟩
    · exact .inr ⟨p, h, h₁, h₂.symm⟩

theorem groups_perm (l : List (SrcKind × Str)) :
    (srcKinds.flatMap fun k => (l.filter fun i => i.1 = k).map (·.2)).Perm (l.map (·.2)) := by
  have key : ∀ l : List (SrcKind × Str),
      ((l.filter fun i => i.1 = .asm) ++ (l.filter fun i => i.1 = .c) ++
        (l.filter fun i => i.1 = .cxx) ++ (l.filter fun i => i.1 = .linkable) ++
        (l.filter fun i => i.1 = .other)).Perm l := by
    intro l
    rw [List.perm_iff_count]
    intro x
    simp only [List.count_append]
    obtain ⟨k, f⟩ := x
    have hz : ∀ k', k ≠ k' → (l.filter fun i => i.1 = k').count (k, f) = 0 := by
      intro k' hk
      rw [List.count_eq_zero]
      intro hm
      exact hk (by simpa using (List.mem_filter.1 hm).2)
    have hs : (l.filter fun i => i.1 = k).count (k, f) = l.count (k, f) :=
      List.count_filter (by simp)
    cases k
    · rw [hs, hz .c (by simp), hz .cxx (by simp), hz .linkable (by simp), hz .other (by simp)]; omega
    · rw [hs, hz .asm (by simp), hz .cxx (by simp), hz .linkable (by simp), hz .other (by simp)]; omega
    · rw [hs, hz .c (by simp), hz .asm (by simp), hz .linkable (by simp), hz .other (by simp)]; omega
    · rw [hs, hz .c (by simp), hz .cxx (by simp), hz .asm (by simp), hz .other (by simp)]; omega
    · rw [hs, hz .c (by simp), hz .cxx (by simp), hz .linkable (by simp), hz .asm (by simp)]; omega
  have := (key l).map (·.2)
  simpa [srcKinds] using this

/-- **C108.**  Exactly one target is made, with the command and the keyword of its type,
its name, and each of its files; an executable with no files gets one that is made up. -/
theorem C108_made {env env' : CEnv} {m : Str → Str} {t : CTarget} (h : TargetFits env m t)
    {text : Str} (ht : t.text = some text) {told : List Told}
    (hr : cmakeReads env text = some (env', told)) :
    ∃ command keywords files, madeBy t.type = some (command, keywords) ∧
      targetsMade told = [⟨command, [t.name] ++ keywords ++ files⟩] ∧
      (¬ (t.type = c!"executable" ∧ t.items = []) → files.Perm (t.items.map fun i => m i.2)) ∧
      (t.type = c!"executable" ∧ t.items = [] →
        files = [env c!"obj" ++ c!"." ++ env c!"TOOLSET" ++ c!"/" ++ env c!"TARGET" ++
          c!"/genc/dummy.c"]) := by
  obtain ⟨command, modifier, hc, rfl⟩ := told_of_reads h ht hr
  obtain ⟨h₁, h₂⟩ := declare_cmd hc
  refine ⟨command, modifier.toList, t.files m env, h₁, ?_, ?_, ?_⟩
  · have ne : ∀ l : List Told, (∀ c ∈ l, c.command ∉ makers) →
        (l.filter fun c => decide (c.command ∈ makers)) = [] := by
      intro l hl
      rw [List.filter_eq_nil_iff]
      intro c hc
      simp [hl c hc]
    unfold targetsMade CTarget.told
    simp only [List.filter_append]
    rw [ne _ fun c hc e => absurd (dummyTold_cmd c hc)
        ((by decide : ∀ x ∈ makers, x ∉ [c!"if", c!"file", c!"endif"]) _ e),
      ne _ fun c hc e => absurd (dirTold_cmd c hc)
        ((by decide : ∀ x ∈ makers, x ∉ [c!"link_directories"]) _ e),
      ne t.excludeTold (by
        intro c h e
        obtain ⟨d, rfl⟩ := excludeTold_cmd c h
        revert e; dsimp only; decide),
      ne t.languageTold (by
        intro c h e
        obtain ⟨d, rfl⟩ := languageTold_cmd c h
        revert e; dsimp only; decide),
      ne (t.headerTold m) (by
        intro c h e
        rw [headerTold_cmd c h] at e
        revert e; unfold CTarget.filesTold; dsimp only; decide),
      ne (t.objectTold m) (by
        intro c h e
        rw [objectTold_cmd c h] at e
        revert e; unfold CTarget.filesTold; dsimp only; decide),
      ne (t.includeTold m) fun c h e => absurd (includeTold_cmd c h)
        ((by decide : ∀ x ∈ makers, x ≠ c!"set_property") _ e),
      ne (t.defineTold m) (by
        intro c h e
        obtain ⟨d, rfl⟩ := defineTold_cmd c h
        revert e; dsimp only; decide),
      ne (t.flagTold m) (by
        intro c h e
        rcases flagTold_cmd c h with ⟨v, rfl⟩ | ⟨k, v, rfl⟩
        · revert e; dsimp only; decide
        · revert e; unfold CTarget.filesTold; dsimp only; decide),
      ne (t.linkFlagTold m) (by
        intro c h e
        obtain ⟨d, rfl⟩ := linkFlagTold_cmd c h
        revert e; dsimp only; decide),
      ne t.extraDepTold fun c h e => absurd (extraDepTold_cmd c h)
        ((by decide : ∀ x ∈ makers, x ≠ c!"add_dependencies") _ e),
      ne t.depTold fun c h e => absurd (depTold_cmd c h)
        ((by decide : ∀ x ∈ makers, x ≠ c!"add_dependencies") _ e),
      ne (t.linkTold m) fun c h e => absurd (linkTold_cmd c h)
        ((by decide : ∀ x ∈ makers, x ≠ c!"target_link_" ++ c!"libraries") _ e)]
    simp [CTarget.declareTold, h₂]
  · intro hne
    have hd : t.dummy = false := by
      unfold CTarget.dummy
      by_contra hd
      simp only [Bool.not_eq_false, Bool.and_eq_true, decide_eq_true_eq, List.isEmpty_iff] at hd
      exact hne hd
    unfold CTarget.files
    rw [hd]
    have := (groups_perm t.items).map m
    simp only [List.map_flatMap] at this
    simpa [CTarget.group, Function.comp_def] using this
  · rintro ⟨e₁, e₂⟩
    have hd : t.dummy = true := by simp [CTarget.dummy, e₁, e₂]
    have hg : ∀ k, t.group k = [] := by intro k; simp [CTarget.group, e₂]
    unfold CTarget.files
    rw [hd]
    simp [hg, dummyFile]

/-- **C108.**  The sources that are not compiled are marked so, and no others. -/
theorem C108_uncompiled {env env' : CEnv} {m : Str → Str} {t : CTarget} (h : TargetFits env m t)
    {text : Str} (ht : t.text = some text) {told : List Told}
    (hr : cmakeReads env text = some (env', told)) (hty : t.type ≠ c!"none") (f : Str) :
    fileProp told f c!"HEADER_FILE_ONLY" =
      if f ∈ (t.items.filter fun i => i.1 = .other).map fun i => m i.2 then some c!"TRUE"
      else none := by
  obtain ⟨command, modifier, hc, rfl⟩ := told_of_reads h ht hr
  unfold fileProp
  rw [told_fileSettings hc]
  have h₁ : (t.objectTold m).filterMap (fileSetting f c!"HEADER_FILE_ONLY") = [] :=
    filterMap_none (by
      intro c hc
      rw [objectTold_cmd c hc, fileSetting_files (h.noProps _), if_neg]
      rintro ⟨_, e⟩
      revert e; decide)
  have h₂ : (t.flagTold m).filterMap (fileSetting f c!"HEADER_FILE_ONLY") = [] :=
    filterMap_none (by
      intro c hc
      rcases flagTold_cmd c hc with ⟨v, rfl⟩ | ⟨k, v, rfl⟩
      · exact fileSetting_other (by dsimp only; decide)
      · rw [fileSetting_files (h.noProps _), if_neg]
        rintro ⟨_, e⟩
        revert e; decide)
  rw [h₁, h₂]
  have hm : ((t.items.filter fun i => i.1 = .other).map fun i => m i.2) = (t.group .other).map m := by
    simp [CTarget.group, Function.comp_def]
  rw [hm]
  unfold CTarget.headerTold
  by_cases hg : t.group .other = []
  · simp [hg]
  · rw [if_pos ⟨hty, hg⟩]
    simp only [List.filterMap_cons, List.filterMap_nil, fileSetting_files (h.noProps _)]
    by_cases hf : f ∈ (t.group .other).map m
    · simp [hf]
    · simp [hf]

theorem blankWords_flagList (ws : List Str) : blankWords (flagList ws) = ws.flatMap blankWords := by
  unfold flagList
  induction ws with
  | nil => simp [blankWords, splitOn]
  | cons w ws ih =>
    rw [List.flatMap_cons, List.flatMap_cons, ← ih, List.append_assoc]
    unfold blankWords
    rw [List.cons_append, List.nil_append, splitOn_append_sep, List.filter_append]

/-- The flags of a group besides those of all. -/
def languageFlags (t : CTarget) : SrcKind → List Str
  | .c => t.cflagsC
  | .cxx => t.cflagsCC
  | _ => []

/-- **C108.**  A source in assembler, C or C++ is compiled with the flags of the target
and then with those of its language.  (A file that is listed twice is in one group.) -/
theorem C108_flags {env env' : CEnv} {m : Str → Str} {t : CTarget} (h : TargetFits env m t)
    {text : Str} (ht : t.text = some text) {told : List Told}
    (hr : cmakeReads env text = some (env', told)) (hty : t.type ≠ c!"none")
    {k : SrcKind} (hk : k = .asm ∨ k = .c ∨ k = .cxx) {s : Str} (hs : (k, s) ∈ t.items)
    (hone : ∀ k' s', (k', s') ∈ t.items → m s' = m s → k' = k) :
    flagsFor told t.name (m s) =
      ((t.cflags ++ languageFlags t k).map m).flatMap blankWords := by
  obtain ⟨command, modifier, hc, rfl⟩ := told_of_reads h ht hr
  unfold flagsFor targetProp fileProp
  rw [told_fileSettings hc, told_targetSettings hc]
  have f₁ : (t.headerTold m).filterMap (fileSetting (m s) c!"COMPILE_FLAGS") = [] :=
    filterMap_none (by
      intro c hc
      rw [headerTold_cmd c hc, fileSetting_files (h.noProps _), if_neg]
      rintro ⟨_, e⟩
      revert e; decide)
  have f₂ : (t.objectTold m).filterMap (fileSetting (m s) c!"COMPILE_FLAGS") = [] :=
    filterMap_none (by
      intro c hc
      rw [objectTold_cmd c hc, fileSetting_files (h.noProps _), if_neg]
      rintro ⟨_, e⟩
      revert e; decide)
  have g₁ : t.excludeTold.filterMap (targetSetting t.name c!"COMPILE_FLAGS") = [] :=
    filterMap_none (by
      intro c hc
      obtain ⟨d, rfl⟩ := excludeTold_cmd c hc
      rw [targetSetting_set, if_neg]
      rintro ⟨_, e⟩
      revert e; decide)
  have g₂ : t.languageTold.filterMap (targetSetting t.name c!"COMPILE_FLAGS") = [] :=
    filterMap_none (by
      intro c hc
      obtain ⟨d, rfl⟩ := languageTold_cmd c hc
      rw [targetSetting_set, if_neg]
      rintro ⟨_, e⟩
      revert e; decide)
  have g₃ : (t.defineTold m).filterMap (targetSetting t.name c!"COMPILE_FLAGS") = [] :=
    filterMap_none (by
      intro c hc
      obtain ⟨d, rfl⟩ := defineTold_cmd c hc
      rw [targetSetting_set, if_neg]
      rintro ⟨_, e⟩
      revert e; decide)
  have g₄ : (t.linkFlagTold m).filterMap (targetSetting t.name c!"COMPILE_FLAGS") = [] :=
    filterMap_none (by
      intro c hc
      obtain ⟨d, rfl⟩ := linkFlagTold_cmd c hc
      rw [targetSetting_set, if_neg]
      rintro ⟨_, e⟩
      revert e; decide)
  rw [f₁, f₂, g₁, g₂, g₃, g₄]
  simp only [List.nil_append, List.append_nil]
  have hgk : t.group k ≠ [] := List.ne_nil_of_mem (group_mem.2 hs)
  have hin : m s ∈ (t.group k).map m := List.mem_map.2 ⟨s, group_mem.2 hs, rfl⟩
  have hout : ∀ k', k' ≠ k → m s ∉ (t.group k').map m := by
    intro k' hne hm
    obtain ⟨s', h₁, h₂⟩ := List.mem_map.1 hm
    exact hne (hone k' s' (group_mem.1 h₁) h₂)
  have wf : ∀ fs : List Str, (List.filterMap (fileSetting (m s) c!"COMPILE_FLAGS")
      [⟨c!"set_target_" ++ c!"properties",
        [t.name, c!"PROPERTIES", c!"COMPILE_FLAGS", flagList (fs.map m)]⟩]) = [] :=
    fun fs => filterMap_none (by
      intro c hc
      rw [List.mem_singleton.1 hc]
      exact fileSetting_other (by dsimp only; decide))
  have wt : ∀ fs : List Str, (List.filterMap (targetSetting t.name c!"COMPILE_FLAGS")
      [⟨c!"set_target_" ++ c!"properties",
        [t.name, c!"PROPERTIES", c!"COMPILE_FLAGS", flagList (fs.map m)]⟩]) =
        [flagList (fs.map m)] := by
    intro fs
    rw [List.filterMap_cons, targetSetting_set, if_pos ⟨rfl, rfl⟩]
    rfl
  have nilw : blankWords [] = [] := by simp [blankWords, splitOn]
  have ft : ∀ k' v, targetSetting t.name c!"COMPILE_FLAGS" (t.filesTold m k' c!"COMPILE_FLAGS" v) =
      none := fun k' v => targetSetting_other (by unfold CTarget.filesTold; dsimp only; decide)
  have ff : ∀ k' v, fileSetting (m s) c!"COMPILE_FLAGS" (t.filesTold m k' c!"COMPILE_FLAGS" v) =
      if k' = k then some v else none := by
    intro k' v
    rw [fileSetting_files (h.noProps _)]
    by_cases e : k' = k
    · subst e
      rw [if_pos ⟨hin, rfl⟩, if_pos rfl]
    · rw [if_neg (fun h => hout k' e h.1), if_neg e]
  unfold CTarget.flagTold
  dsimp only
  rw [if_neg hty]
  by_cases h₁ : (t.cflagsC = [] ∨ t.group .c = []) ∧ (t.cflagsCC = [] ∨ t.group .cxx = [])
  · rw [if_pos h₁, wf, wt]
    have : languageFlags t k = [] := by
      rcases hk with rfl | rfl | rfl
      · rfl
      · exact h₁.1.resolve_right hgk
      · exact h₁.2.resolve_right hgk
    rw [this]
    simp [blankWords_flagList, nilw]
  · rw [if_neg h₁]
    by_cases h₂ : t.group .c ≠ [] ∧ ¬ (t.group .asm ≠ [] ∨ t.group .cxx ≠ [])
    · rw [if_pos h₂, wf, wt]
      have : k = .c := by
        rcases hk with rfl | rfl | rfl
        · exact absurd (.inl hgk) h₂.2
        · rfl
        · exact absurd (.inr hgk) h₂.2
      subst this
      simp [blankWords_flagList, nilw, languageFlags]
    · rw [if_neg h₂]
      by_cases h₃ : t.group .cxx ≠ [] ∧ ¬ (t.group .asm ≠ [] ∨ t.group .c ≠ [])
      · rw [if_pos h₃, wf, wt]
        have : k = .cxx := by
          rcases hk with rfl | rfl | rfl
          · exact absurd (.inl hgk) h₃.2
          · exact absurd (.inr hgk) h₃.2
          · rfl
        subst this
        simp [blankWords_flagList, nilw, languageFlags]
      · rw [if_neg h₃]
        have one : ∀ (p : Prop) [Decidable p] (k' : SrcKind) (v : Str),
            (if p then [t.filesTold m k' c!"COMPILE_FLAGS" v] else []).filterMap
              (targetSetting t.name c!"COMPILE_FLAGS") = [] ∧
            (if p then [t.filesTold m k' c!"COMPILE_FLAGS" v] else []).filterMap
              (fileSetting (m s) c!"COMPILE_FLAGS") = if p ∧ k' = k then [v] else [] := by
          intro p _ k' v
          by_cases hp : p
          · rw [if_pos hp]
            simp only [List.filterMap_cons, List.filterMap_nil, ft, ff]
            by_cases e : k' = k
            · simp [hp, e]
            · simp [e]
          · simp [hp]
        simp only [List.filterMap_append, (one _ _ _).1, (one _ _ _).2]
        rcases hk with rfl | rfl | rfl
        · by_cases hf : t.cflags = []
          · simp [hgk, hf, languageFlags, nilw]
          · simp [hgk, hf, languageFlags, nilw, blankWords_flagList]
        · by_cases hf : t.cflags = [] ∧ t.cflagsC = []
          · simp [hgk, hf.1, hf.2, languageFlags, nilw]
          · by_cases hf' : t.cflags = []
            · have : t.cflagsC ≠ [] := fun e => hf ⟨hf', e⟩
              simp [hgk, hf', this, languageFlags, nilw, blankWords_flagList]
            · simp [hgk, hf', languageFlags, nilw, blankWords_flagList]
        · by_cases hf : t.cflags = [] ∧ t.cflagsCC = []
          · simp [hgk, hf.1, hf.2, languageFlags, nilw]
          · by_cases hf' : t.cflags = []
            · have : t.cflagsCC ≠ [] := fun e => hf ⟨hf', e⟩
              simp [hgk, hf', this, languageFlags, nilw, blankWords_flagList]
            · simp [hgk, hf', languageFlags, nilw, blankWords_flagList]

/-- The settings of a property of the target that only one part writes. -/
theorem targetProp_only {env : CEnv} {m : Str → Str} {t : CTarget} {command : Str}
    {modifier : Option Str} (hc : (t.type, command, modifier) ∈ cmTypes) {prop : Str}
    (h₁ : prop ≠ c!"EXCLUDE_FROM_ALL") (h₂ : prop ≠ c!"LINKER_LANGUAGE")
    (h₃ : prop ≠ c!"COMPILE_FLAGS") :
    (t.told m env command modifier).filterMap (targetSetting t.name prop) =
      (t.defineTold m).filterMap (targetSetting t.name prop) ++
      (t.linkFlagTold m).filterMap (targetSetting t.name prop) := by
  rw [told_targetSettings hc]
  have g₁ : t.excludeTold.filterMap (targetSetting t.name prop) = [] :=
    filterMap_none (by
      intro c hc
      obtain ⟨d, rfl⟩ := excludeTold_cmd c hc
      rw [targetSetting_set, if_neg]
      rintro ⟨_, e⟩
      exact h₁ e.symm)
  have g₂ : t.languageTold.filterMap (targetSetting t.name prop) = [] :=
    filterMap_none (by
      intro c hc
      obtain ⟨d, rfl⟩ := languageTold_cmd c hc
      rw [targetSetting_set, if_neg]
      rintro ⟨_, e⟩
      exact h₂ e.symm)
  have g₃ : (t.flagTold m).filterMap (targetSetting t.name prop) = [] :=
    filterMap_none (by
      intro c hc
      rcases flagTold_cmd c hc with ⟨v, rfl⟩ | ⟨k, v, rfl⟩
      · rw [targetSetting_set, if_neg]
        rintro ⟨_, e⟩
        exact h₃ e.symm
      · exact targetSetting_other (by unfold CTarget.filesTold; dsimp only; decide))
  rw [g₁, g₂, g₃]
  simp

/-- **C108.**  The definitions of a target are a list with the defines of the gyp file in
order; the property is not set where there are none. -/
theorem C108_defines {env env' : CEnv} {m : Str → Str} {t : CTarget} (h : TargetFits env m t)
    {text : Str} (ht : t.text = some text) {told : List Told}
    (hr : cmakeReads env text = some (env', told)) (hty : t.type ≠ c!"none") :
    (targetProp told t.name (c!"COMPILE_" ++ c!"DEFINITIONS")).map elements =
      t.defines.map fun ds => ds.map m := by
  obtain ⟨command, modifier, hc, rfl⟩ := told_of_reads h ht hr
  unfold targetProp
  rw [targetProp_only hc (by decide) (by decide) (by decide)]
  have g : (t.linkFlagTold m).filterMap (targetSetting t.name (c!"COMPILE_" ++ c!"DEFINITIONS")) = [] :=
    filterMap_none (by
      intro c hc
      obtain ⟨d, rfl⟩ := linkFlagTold_cmd c hc
      rw [targetSetting_set, if_neg]
      rintro ⟨_, e⟩
      revert e; decide)
  rw [g, List.append_nil]
  unfold CTarget.defineTold
  cases hd : t.defines with
  | none => rfl
  | some ds =>
    dsimp only
    rw [if_pos hty, List.filterMap_cons, targetSetting_set, if_pos ⟨rfl, rfl⟩]
    simp only [List.filterMap_nil, List.getLast?_singleton, Option.map_some, Option.some.injEq]
    refine elements_terminated ?_
    intro w hw
    obtain ⟨d, hm, rfl⟩ := List.mem_map.1 hw
    exact (h.defines d (by rw [hd]; exact hm)).2

/-- **C108.**  The linker gets the flags of the gyp file in order. -/
theorem C108_link_flags {env env' : CEnv} {m : Str → Str} {t : CTarget} (h : TargetFits env m t)
    {text : Str} (ht : t.text = some text) {told : List Told}
    (hr : cmakeReads env text = some (env', told)) (hty : t.type ≠ c!"none") :
    (targetProp told t.name c!"LINK_FLAGS").map blankWords =
      t.ldflags.map fun fs => (fs.map m).flatMap blankWords := by
  obtain ⟨command, modifier, hc, rfl⟩ := told_of_reads h ht hr
  unfold targetProp
  rw [targetProp_only hc (by decide) (by decide) (by decide)]
  have g : (t.defineTold m).filterMap (targetSetting t.name c!"LINK_FLAGS") = [] :=
    filterMap_none (by
      intro c hc
      obtain ⟨d, rfl⟩ := defineTold_cmd c hc
      rw [targetSetting_set, if_neg]
      rintro ⟨_, e⟩
      revert e; decide)
  rw [g, List.nil_append]
  unfold CTarget.linkFlagTold
  cases hd : t.ldflags with
  | none => rfl
  | some fs =>
    dsimp only
    rw [if_pos hty, List.filterMap_cons, targetSetting_set, if_pos ⟨rfl, rfl⟩]
    simp only [List.filterMap_nil, List.getLast?_singleton, Option.map_some, Option.some.injEq]
    exact blankWords_flagList _

theorem excluded_settings (v : Str) (d : Str) (l : List Str) (hm : d ∈ l) :
    ((l.map fun d => (⟨c!"set_target_" ++ c!"properties",
      [d, c!"PROPERTIES", c!"EXCLUDE_FROM_ALL", v]⟩ : Told)).filterMap
      (targetSetting d c!"EXCLUDE_FROM_ALL")).getLast? = some v := by
  have hall : ∀ x ∈ (l.map fun d => (⟨c!"set_target_" ++ c!"properties",
      [d, c!"PROPERTIES", c!"EXCLUDE_FROM_ALL", v]⟩ : Told)).filterMap
      (targetSetting d c!"EXCLUDE_FROM_ALL"), x = v := by
    intro x hx
    obtain ⟨c, hc, he⟩ := List.mem_filterMap.1 hx
    obtain ⟨d', _, rfl⟩ := List.mem_map.1 hc
    rw [targetSetting_set] at he
    split at he
    · exact (Option.some.inj he).symm
    · cases he
  have hne : (l.map fun d => (⟨c!"set_target_" ++ c!"properties",
      [d, c!"PROPERTIES", c!"EXCLUDE_FROM_ALL", v]⟩ : Told)).filterMap
      (targetSetting d c!"EXCLUDE_FROM_ALL") ≠ [] := by
    intro e
    rw [List.filterMap_eq_nil_iff] at e
    have := e _ (List.mem_map.2 ⟨d, hm, rfl⟩)
    rw [targetSetting_set, if_pos ⟨rfl, rfl⟩] at this
    cases this
  rw [List.getLast?_eq_some_getLast hne]
  exact congrArg some (hall _ (List.getLast_mem hne))

/-- **C108.**  A target, and the targets of its actions, are made by default just when the
gyp file asked for it. -/
theorem C108_by_default {env env' : CEnv} {m : Str → Str} {t : CTarget} (h : TargetFits env m t)
    {text : Str} (ht : t.text = some text) {told : List Told}
    (hr : cmakeReads env text = some (env', told)) {d : Str} (hd : d = t.name ∨ d ∈ t.extraDeps) :
    targetProp told d c!"EXCLUDE_FROM_ALL" = some (if t.inAll then c!"FALSE" else c!"TRUE") := by
  obtain ⟨command, modifier, hc, rfl⟩ := told_of_reads h ht hr
  unfold targetProp
  rw [told_targetSettings hc]
  have g₂ : t.languageTold.filterMap (targetSetting d c!"EXCLUDE_FROM_ALL") = [] :=
    filterMap_none (by
      intro c hc
      obtain ⟨d, rfl⟩ := languageTold_cmd c hc
      rw [targetSetting_set, if_neg]
      rintro ⟨_, e⟩
      revert e; decide)
  have g₃ : (t.defineTold m).filterMap (targetSetting d c!"EXCLUDE_FROM_ALL") = [] :=
    filterMap_none (by
      intro c hc
      obtain ⟨d, rfl⟩ := defineTold_cmd c hc
      rw [targetSetting_set, if_neg]
      rintro ⟨_, e⟩
      revert e; decide)
  have g₄ : (t.linkFlagTold m).filterMap (targetSetting d c!"EXCLUDE_FROM_ALL") = [] :=
    filterMap_none (by
      intro c hc
      obtain ⟨d, rfl⟩ := linkFlagTold_cmd c hc
      rw [targetSetting_set, if_neg]
      rintro ⟨_, e⟩
      revert e; decide)
  have g₅ : (t.flagTold m).filterMap (targetSetting d c!"EXCLUDE_FROM_ALL") = [] :=
    filterMap_none (by
      intro c hc
      rcases flagTold_cmd c hc with ⟨v, rfl⟩ | ⟨k, v, rfl⟩
      · rw [targetSetting_set, if_neg]
        rintro ⟨_, e⟩
        revert e; decide
      · exact targetSetting_other (by unfold CTarget.filesTold; dsimp only; decide))
  rw [g₂, g₃, g₄, g₅]
  simp only [List.append_nil]
  exact excluded_settings t.excluded d (t.name :: t.extraDeps) (by simpa using hd)

/-- **C108.**  The include directories are added in order. -/
theorem C108_includes {env env' : CEnv} {m : Str → Str} {t : CTarget} (h : TargetFits env m t)
    {text : Str} (ht : t.text = some text) {told : List Told}
    (hr : cmakeReads env text = some (env', told)) (hty : t.type ≠ c!"none") :
    appended told t.name c!"INCLUDE_DIRECTORIES" =
      t.includes.map fun i => m (normjoinSource t.path i) := by
  obtain ⟨command, modifier, hc, rfl⟩ := told_of_reads h ht hr
  have ne : ∀ l : List Told, (∀ c ∈ l, c.command ≠ c!"set_property") →
      appended l t.name c!"INCLUDE_DIRECTORIES" = [] := by
    intro l hl
    unfold appended
    rw [List.flatMap_eq_nil_iff]
    intro c hc
    rw [if_neg]
    rintro ⟨e, _⟩
    exact hl c hc e
  have ap : ∀ a b : List Told, appended (a ++ b) t.name c!"INCLUDE_DIRECTORIES" =
      appended a t.name c!"INCLUDE_DIRECTORIES" ++ appended b t.name c!"INCLUDE_DIRECTORIES" := by
    intro a b; simp [appended]
  unfold CTarget.told
  simp only [ap]
  rw [ne _ fun c hc e => absurd (dummyTold_cmd c hc) (by rw [e]; decide),
    ne _ fun c hc e => absurd (dirTold_cmd c hc) (by rw [e]; decide),
    ne (t.declareTold m env command modifier) (by
      intro c h e
      rw [List.mem_singleton.1 h] at e
      have := (declare_cmd hc).2
      rw [show command = c!"set_property" from e] at this
      revert this; decide),
    ne t.excludeTold (by
      intro c h e
      obtain ⟨d, rfl⟩ := excludeTold_cmd c h
      revert e; dsimp only; decide),
    ne t.languageTold (by
      intro c h e
      obtain ⟨d, rfl⟩ := languageTold_cmd c h
      revert e; dsimp only; decide),
    ne (t.headerTold m) (by
      intro c h e
      rw [headerTold_cmd c h] at e
      revert e; unfold CTarget.filesTold; dsimp only; decide),
    ne (t.objectTold m) (by
      intro c h e
      rw [objectTold_cmd c h] at e
      revert e; unfold CTarget.filesTold; dsimp only; decide),
    ne (t.defineTold m) (by
      intro c h e
      obtain ⟨d, rfl⟩ := defineTold_cmd c h
      revert e; dsimp only; decide),
    ne (t.flagTold m) (by
      intro c h e
      rcases flagTold_cmd c h with ⟨v, rfl⟩ | ⟨k, v, rfl⟩
      · revert e; dsimp only; decide
      · revert e; unfold CTarget.filesTold; dsimp only; decide),
    ne (t.linkFlagTold m) (by
      intro c h e
      obtain ⟨d, rfl⟩ := linkFlagTold_cmd c h
      revert e; dsimp only; decide),
    ne t.extraDepTold fun c h e => absurd (extraDepTold_cmd c h) (by rw [e]; decide),
    ne t.depTold fun c h e => absurd (depTold_cmd c h) (by rw [e]; decide),
    ne (t.linkTold m) fun c h e => absurd (linkTold_cmd c h) (by rw [e]; decide)]
  simp only [List.nil_append, List.append_nil]
  unfold CTarget.includeTold
  by_cases hi : t.includes = []
  · simp [hi, appended]
  · rw [if_pos ⟨hty, hi⟩]
    simp [appended]

/-! ### C110: object files -/

/-- **C110.**  A file is marked as an object that is not compiled just when it is a source
that is *not* an object (and the target has objects). -/
theorem C110_marked {env env' : CEnv} {m : Str → Str} {t : CTarget} (h : TargetFits env m t)
    {text : Str} (ht : t.text = some text) {told : List Told}
    (hr : cmakeReads env text = some (env', told)) (f : Str) :
    fileProp told f c!"EXTERNAL_OBJECT" = some c!"TRUE" ↔
      t.type ≠ c!"none" ∧ (∃ s, (SrcKind.linkable, s) ∈ t.items) ∧
        ∃ s, (SrcKind.other, s) ∈ t.items ∧ m s = f := by
  obtain ⟨command, modifier, hc, rfl⟩ := told_of_reads h ht hr
  unfold fileProp
  rw [told_fileSettings hc]
  have h₁ : (t.headerTold m).filterMap (fileSetting f c!"EXTERNAL_OBJECT") = [] :=
    filterMap_none (by
      intro c hc
      rw [headerTold_cmd c hc, fileSetting_files (h.noProps _), if_neg]
      rintro ⟨_, e⟩
      revert e; decide)
  have h₂ : (t.flagTold m).filterMap (fileSetting f c!"EXTERNAL_OBJECT") = [] :=
    filterMap_none (by
      intro c hc
      rcases flagTold_cmd c hc with ⟨v, rfl⟩ | ⟨k, v, rfl⟩
      · exact fileSetting_other (by dsimp only; decide)
      · rw [fileSetting_files (h.noProps _), if_neg]
        rintro ⟨_, e⟩
        revert e; decide)
  rw [h₁, h₂, List.nil_append, List.append_nil]
  have hm : (∃ s, (SrcKind.other, s) ∈ t.items ∧ m s = f) ↔ f ∈ (t.group .other).map m := by
    simp [List.mem_map, group_mem]
  have hl : (∃ s, (SrcKind.linkable, s) ∈ t.items) ↔ t.group .linkable ≠ [] := by
    rw [← List.isEmpty_eq_false_iff, List.isEmpty_eq_false_iff_exists_mem]
    simp [group_mem]
  rw [hm, hl]
  unfold CTarget.objectTold
  by_cases hg : t.type ≠ c!"none" ∧ t.group .linkable ≠ []
  · rw [if_pos hg]
    simp only [List.filterMap_cons, List.filterMap_nil, fileSetting_files (h.noProps _)]
    by_cases hf : f ∈ (t.group .other).map m
    · simp only [hf, and_self, if_true, List.getLast?_singleton, and_true]
      exact ⟨fun _ => hg, fun _ => trivial⟩
    · simp only [hf, false_and, if_false, List.getLast?_nil, and_false, iff_false]
      exact fun e => by cases e
  · rw [if_neg hg]
    simp only [List.filterMap_nil, List.getLast?_nil]
    constructor
    · intro e; cases e
    · rintro ⟨a, b, _⟩; exact absurd ⟨a, b⟩ hg

/-- **C110.**  What is written of a target with objects: nothing at all, for the program
fails, unless some source is neither compiled nor an object. -/
theorem C110_written (t : CTarget) (hty : (madeBy t.type).isSome) (hn : t.type ≠ c!"none") :
    (∃ text, t.text = some text) ↔ t.group .linkable = [] ∨ t.group .other ≠ [] := by
  have hf : ∃ e, cmTypes.find? (fun e => e.1 = t.type) = some e := by
    unfold madeBy at hty
    by_cases h₁ : t.type = c!"executable"
    · rw [h₁]; exact ⟨_, rfl⟩
    by_cases h₂ : t.type = c!"static_library"
    · rw [h₂]; exact ⟨_, rfl⟩
    by_cases h₃ : t.type = c!"shared_library"
    · rw [h₃]; exact ⟨_, rfl⟩
    by_cases h₄ : t.type = c!"loadable_module"
    · rw [h₄]; exact ⟨_, rfl⟩
    · simp [h₁, h₂, h₃, h₄, hn] at hty
  obtain ⟨e, he⟩ := hf
  have hx : (∃ text, t.text = some text) ↔ ∃ o, t.objectText = some o := by
    unfold CTarget.text
    rw [he]
    cases t.objectText with
    | none => simp
    | some o => simp
  rw [hx]
  unfold CTarget.objectText
  by_cases hl : t.group .linkable = []
  · simp [hl]
  · by_cases ho : t.group .other = []
    · simp [hn, hl, ho]
    · simp [hn, hl, ho]

/-- **C110.**  The files of the target include its objects all the same. -/
theorem C110_listed_partial {env env' : CEnv} {m : Str → Str} {t : CTarget} (h : TargetFits env m t)
    {text : Str} (ht : t.text = some text) {told : List Told}
    (hr : cmakeReads env text = some (env', told)) {s : Str} (hs : (SrcKind.linkable, s) ∈ t.items) :
    ∃ c ∈ targetsMade told, m s ∈ c.args := by
  obtain ⟨command, keywords, files, _, h₁, h₂, _⟩ := C108_made h ht hr
  rw [h₁]
  refine ⟨_, List.mem_singleton.2 rfl, ?_⟩
  have : files.Perm (t.items.map fun i => m i.2) := h₂ (by rintro ⟨_, e⟩; rw [e] at hs; simp at hs)
  have hm : m s ∈ files := this.mem_iff.2 (List.mem_map.2 ⟨_, hs, rfl⟩)
  simp [hm]

/-! ### Examples -/

/-- A target with everything in it. -/
def sampleTarget : CTarget :=
  { name := c!"a", type := c!"executable", path := c!"..",
    sources := [c!"x.c", c!"y.cc", c!"z.s", c!"h.h", c!"w.o"], extraDeps := [c!"a__gen"],
    libraryDirs := some [c!"lib"], inAll := false, includes := [c!"inc"],
    defines := some [c!"A=\"1;2\"", c!"B"], cflags := [c!"-O2", c!"-g"], cflagsC := [c!"-std=c99"],
    cflagsCC := [c!"-fno-rtti"], ldflags := some [c!"-s"],
    deps := [(c!"l", some c!"static_library"), (c!"k", some c!"static_library"),
      (c!"s", some c!"shared_library"), (c!"n", some c!"none")],
    libraries := [c!"m"] }

def cmSampleEnv : CEnv := fun n => if n = c!"CMAKE_CURRENT_" ++ c!"LIST_DIR" then c!"/b" else []

/-- What its texts stand for. -/
def sampleMeaning (v : Str) : Str :=
  if startsWith v listDirVar then c!"/b" ++ v.drop listDirVar.length else v

theorem sampleFits : TargetFits cmSampleEnv sampleMeaning sampleTarget := by
  have self : ∀ v : Str, '$' ∉ v → Amounts cmSampleEnv v (sampleMeaning v) := by
    intro v hv
    have : sampleMeaning v = v := by
      unfold sampleMeaning
      rw [if_neg]
      intro h
      rw [startsWith, List.isPrefixOf_iff_prefix] at h
      exact hv (h.subset (by decide))
    rw [this]
    exact standsFor_self hv
  exact
    { name := by decide
      extra := by decide
      deps := by decide
      files := by
        intro i hi
        exact ⟨self _ ((by decide : ∀ i ∈ sampleTarget.items, '$' ∉ i.2) i hi),
          (by decide : ∀ i ∈ sampleTarget.items, Element (sampleMeaning i.2) ∧
            sampleMeaning i.2 ≠ c!"PARENT_SCOPE" ∧ sampleMeaning i.2 ≠ c!"CACHE" ∧
            sampleMeaning i.2 ≠ c!"PROPERTIES") i hi⟩
      includes := by
        intro i hi
        have : i = listDirVar ++ c!"/../inc" := by revert hi; revert i; decide
        subst this
        refine ⟨?_, by decide⟩
        have := Amounts.ref (env := cmSampleEnv) (n := c!"CMAKE_CURRENT_" ++ c!"LIST_DIR") (by decide)
          (by decide) (by decide) (standsFor_self (v := c!"/../inc") (by decide))
        exact this
      defines := by
        intro d hd
        exact ⟨self _ ((by decide : ∀ i ∈ sampleTarget.defines.getD [], '$' ∉ i) d hd),
          (by decide : ∀ i ∈ sampleTarget.defines.getD [], Element (sampleMeaning i)) d hd⟩
      flags := by
        intro d hd
        exact ⟨self _ ((by decide : ∀ i ∈ sampleTarget.cflags ++ sampleTarget.cflagsC ++
            sampleTarget.cflagsCC ++ sampleTarget.ldflags.getD [], '$' ∉ i) d hd),
          (by decide : ∀ i ∈ sampleTarget.cflags ++ sampleTarget.cflagsC ++
            sampleTarget.cflagsCC ++ sampleTarget.ldflags.getD [], ';' ∉ sampleMeaning i) d hd⟩
      dirs := by
        intro d hd
        have : d = c!"lib" := by revert hd; revert d; decide
        subst this
        exact plainWordC_bareWord (t := c!"../lib") (by decide)
      libs := by
        intro l hl
        have : l = c!"m" := by revert hl; revert l; decide
        subst this
        exact ⟨self _ (by decide), by decide, by decide⟩
      dummy := by decide
      freshFiles := by intro k; cases k <;> decide
      freshDirs := by decide }

example : (sampleTarget.text).isSome := by decide +kernel

/-- The object of the sample is not marked as one; its header is. -/
example : (sampleTarget.text.bind fun text => (cmakeReads cmSampleEnv text).map fun r =>
    (fileProp r.2 c!"../w.o" c!"EXTERNAL_OBJECT", fileProp r.2 c!"../h.h" c!"EXTERNAL_OBJECT",
      flagsFor r.2 c!"a" c!"../x.c")) =
    some (none, some c!"TRUE", [c!"-O2", c!"-g", c!"-std=c99"]) := by decide +kernel

/-- **C110.**  A target that lists nothing but an object cannot be written. -/
theorem C110_fails : (CTarget.text
    { name := c!"a", type := c!"executable", path := c!"..", sources := [c!"x.c", c!"w.o"] }) =
    none := by decide +kernel

/-- **C108.**  The flags of a file are kept by file, not by target: a file that two
targets share is compiled, for both, with the flags of the later one. -/
theorem C108_shared_file :
    ∃ t u : CTarget, t.name ≠ u.name ∧
      (do let x ← t.text
          let y ← u.text
          let r ← cmakeReads (fun _ => []) (x ++ y)
          some (flagsFor r.2 t.name c!"x.c", flagsFor r.2 u.name c!"x.c")) =
        some ([c!"-DU"], [c!"-DU"]) ∧ t.cflagsC = [c!"-DT"] ∧ u.cflagsC = [c!"-DU"] := by
  refine ⟨{ name := c!"t", type := c!"executable", path := [], sources := [c!"x.c", c!"y.cc"],
            cflagsC := [c!"-DT"] },
          { name := c!"u", type := c!"executable", path := [], sources := [c!"x.c", c!"y.cc"],
            cflagsC := [c!"-DU"] }, by decide, by decide +kernel, rfl, rfl⟩

/-- The name of the SDK is taken from before a library, and nothing else is. -/
theorem C109_sdk (lib : Str) :
    (∀ r, lib = c!"$(SDKROOT)" ++ r → dropSdkRoot lib = r) ∧
    (¬ c!"$(SDKROOT)" <+: lib → dropSdkRoot lib = lib) := by
  unfold dropSdkRoot startsWith
  constructor
  · rintro r rfl
    rw [if_pos (by rw [List.isPrefixOf_iff_prefix]; exact List.prefix_append _ _)]
    rw [List.drop_left]
  · intro h
    rw [if_neg (by rw [List.isPrefixOf_iff_prefix]; exact h)]

example : dropSdkRoot c!"$(SDKROOT)/usr/lib/libz.a" = c!"/usr/lib/libz.a" := by decide

end Gyp
