import Verif.Props.CMakeTarget
import Verif.Props.Toposort
/-
C109 and C111: what the targets of a CMake file depend on, and how they are named.
-/
namespace Gyp
open Gyp.Spec

theorem told_madeAfter {env : CEnv} {m : Str → Str} {t : CTarget} {command : Str}
    {modifier : Option Str} (hc : (t.type, command, modifier) ∈ cmTypes) (args : List Str) :
    (⟨c!"add_dependencies", args⟩ : Told) ∈ t.told m env command modifier ↔
      (⟨c!"add_dependencies", args⟩ : Told) ∈ t.extraDepTold ∨
      (⟨c!"add_dependencies", args⟩ : Told) ∈ t.depTold := by
  constructor
  · intro h
    unfold CTarget.told at h
    simp only [List.mem_append] at h
    rcases h with (((((((((((( h | h) | h) | h) | h) | h) | h) | h) | h) | h) | h) | h) | h) | h
    · exact absurd (dummyTold_cmd _ h) (by dsimp only; decide)
    · exact absurd (dirTold_cmd _ h) (by dsimp only; decide)
    · have e : command = c!"add_dependencies" := (congrArg Told.command (List.mem_singleton.1 h)).symm
      have := (declare_cmd hc).2
      rw [e] at this
      exact absurd this (by decide)
    · obtain ⟨d, e⟩ := excludeTold_cmd _ h
      exact absurd (congrArg Told.command e) (by dsimp only; decide)
    · obtain ⟨d, e⟩ := languageTold_cmd _ h
      exact absurd (congrArg Told.command e) (by dsimp only; decide)
    · exact absurd (congrArg Told.command (headerTold_cmd _ h))
        (by unfold CTarget.filesTold; dsimp only; decide)
    · exact absurd (congrArg Told.command (objectTold_cmd _ h))
        (by unfold CTarget.filesTold; dsimp only; decide)
    · exact absurd (includeTold_cmd _ h) (by dsimp only; decide)
    · obtain ⟨d, e⟩ := defineTold_cmd _ h
      exact absurd (congrArg Told.command e) (by dsimp only; decide)
    · rcases flagTold_cmd _ h with ⟨v, e⟩ | ⟨k, v, e⟩
      · exact absurd (congrArg Told.command e) (by dsimp only; decide)
      · exact absurd (congrArg Told.command e) (by unfold CTarget.filesTold; dsimp only; decide)
    · obtain ⟨d, e⟩ := linkFlagTold_cmd _ h
      exact absurd (congrArg Told.command e) (by dsimp only; decide)
    · exact .inl h
    · exact .inr h
    · exact absurd (linkTold_cmd _ h) (by dsimp only; decide)
  · intro h
    unfold CTarget.told
    simp only [List.mem_append]
    rcases h with h | h
    · exact .inl (.inl (.inr h))
    · exact .inl (.inr h)

theorem mem_static {t : CTarget} {d : Str} :
    d ∈ t.staticDeps ↔ (d, some c!"static_library") ∈ t.deps := by
  unfold CTarget.staticDeps
  simp only [List.mem_map, List.mem_filter, decide_eq_true_eq]
  constructor
  · rintro ⟨⟨n, ty⟩, ⟨h, rfl⟩, rfl⟩; exact h
  · intro h; exact ⟨_, ⟨h, rfl⟩, rfl⟩

theorem mem_shared {t : CTarget} {d : Str} :
    d ∈ t.sharedDeps ↔ (d, some c!"shared_library") ∈ t.deps := by
  unfold CTarget.sharedDeps
  simp only [List.mem_map, List.mem_filter, decide_eq_true_eq]
  constructor
  · rintro ⟨⟨n, ty⟩, ⟨h, rfl⟩, rfl⟩; exact h
  · intro h; exact ⟨_, ⟨h, rfl⟩, rfl⟩

theorem mem_otherDeps {t : CTarget} {d : Str} :
    d ∈ t.otherDeps ↔ ∃ ty, (d, ty) ∈ t.deps ∧ ty ≠ some c!"static_library" ∧
      ty ≠ some c!"shared_library" := by
  unfold CTarget.otherDeps
  simp only [List.mem_map, List.mem_filter, decide_eq_true_eq]
  constructor
  · rintro ⟨⟨n, ty⟩, ⟨h, h'⟩, rfl⟩; exact ⟨ty, h, h'⟩
  · rintro ⟨ty, h, h'⟩; exact ⟨_, ⟨h, h'⟩, rfl⟩

/-- **C109.**  The target is made after the targets of its actions and after those of its
dependencies that it is not linked with: all of them unless it is a program, a shared
library or a module; the static and shared libraries excepted if it is. -/
theorem C109_made_after {env env' : CEnv} {m : Str → Str} {t : CTarget} (h : TargetFits env m t)
    {text : Str} (ht : t.text = some text) {told : List Told}
    (hr : cmakeReads env text = some (env', told)) (hself : t.name ∉ t.extraDeps) (d : Str) :
    MadeAfter told t.name d ↔ d ∈ t.extraDeps ∨ ∃ ty, (d, ty) ∈ t.deps ∧
      (t.type ∈ [c!"executable", c!"shared_library", c!"loadable_module"] →
        ty ≠ some c!"static_library" ∧ ty ≠ some c!"shared_library") := by
  obtain ⟨command, modifier, hc, rfl⟩ := told_of_reads h ht hr
  have hl : t.linkable = true ↔
      t.type ∈ [c!"executable", c!"shared_library", c!"loadable_module"] := by
    unfold CTarget.linkable
    simp only [Bool.or_eq_true, decide_eq_true_eq, List.mem_cons, List.not_mem_nil, or_false]
    tauto
  have hx : ∀ args, (⟨c!"add_dependencies", t.name :: args⟩ : Told) ∉ t.extraDepTold := by
    intro args hm
    unfold CTarget.extraDepTold at hm
    split at hm
    · obtain ⟨x, hx, e⟩ := List.mem_map.1 hm
      have := congrArg Told.args e
      simp only [List.cons.injEq] at this
      exact hself (this.1 ▸ hx)
    · simp at hm
  have ho : d ∈ t.orderOnly ↔ (d ∈ t.otherDeps ∨ d ∈ t.extraDeps) ∨
      (t.linkable = false ∧ (d ∈ t.staticDeps ∨ d ∈ t.sharedDeps)) := by
    unfold CTarget.orderOnly
    rw [List.mem_append, mem_uniquer, List.mem_append]
    by_cases hk : t.linkable = false
    · rw [if_pos hk, List.mem_append, mem_uniquer, mem_uniquer]
      simp [hk]
    · rw [if_neg hk]
      simp [hk]
  have step : MadeAfter (t.told m env command modifier) t.name d ↔ d ∈ t.orderOnly := by
    unfold MadeAfter
    constructor
    · rintro ⟨args, h₁, h₂⟩
      rcases (told_madeAfter hc _).1 h₁ with h₁ | h₁
      · exact absurd h₁ (hx args)
      · unfold CTarget.depTold at h₁
        split at h₁
        · have := congrArg Told.args (List.mem_singleton.1 h₁)
          simp only [List.cons.injEq, true_and] at this
          exact this ▸ h₂
        · simp at h₁
    · intro hd
      refine ⟨t.orderOnly, (told_madeAfter hc _).2 (.inr ?_), hd⟩
      unfold CTarget.depTold
      rw [if_pos]
      · exact List.mem_singleton.2 rfl
      · rcases ho.1 hd with (h₁ | h₁) | ⟨h₁, h₂⟩
        · left; intro e; rw [List.append_eq_nil_iff] at e; rw [e.1] at h₁; simp at h₁
        · left; intro e; rw [List.append_eq_nil_iff] at e; rw [e.2] at h₁; simp at h₁
        · right
          refine ⟨h₁, ?_⟩
          rcases h₂ with h₂ | h₂
          · exact .inl (List.ne_nil_of_mem h₂)
          · exact .inr (List.ne_nil_of_mem h₂)
  rw [step, ho, mem_static, mem_shared, mem_otherDeps, ← hl]
  constructor
  · rintro ((⟨ty, h₁, h₂⟩ | h₁) | ⟨h₁, h₂ | h₂⟩)
    · exact .inr ⟨ty, h₁, fun _ => h₂⟩
    · exact .inl h₁
    · exact .inr ⟨_, h₂, fun e => by rw [h₁] at e; cases e⟩
    · exact .inr ⟨_, h₂, fun e => by rw [h₁] at e; cases e⟩
  · rintro (h₁ | ⟨ty, h₁, h₂⟩)
    · exact .inl (.inr h₁)
    · by_cases hk : t.linkable = true
      · exact .inl (.inl ⟨ty, h₁, h₂ hk⟩)
      · have hk' : t.linkable = false := by simpa using hk
        by_cases e₁ : ty = some c!"static_library"
        · exact .inr ⟨hk', .inl (e₁ ▸ h₁)⟩
        · by_cases e₂ : ty = some c!"shared_library"
          · exact .inr ⟨hk', .inr (e₂ ▸ h₁)⟩
          · exact .inl (.inl ⟨ty, h₁, e₁, e₂⟩)

/-- **C109.**  The targets of the actions of a target are made after all dependencies of
the target, and after nothing else. -/
theorem C109_actions_after {env env' : CEnv} {m : Str → Str} {t : CTarget} (h : TargetFits env m t)
    {text : Str} (ht : t.text = some text) {told : List Told}
    (hr : cmakeReads env text = some (env', told)) {x : Str} (hx : x ∈ t.extraDeps)
    (hself : x ≠ t.name) (d : Str) :
    MadeAfter told x d ↔ ∃ ty, (d, ty) ∈ t.deps := by
  obtain ⟨command, modifier, hc, rfl⟩ := told_of_reads h ht hr
  have hall : d ∈ uniquer id t.staticDeps ++ uniquer id t.sharedDeps ++ uniquer id t.otherDeps ↔
      ∃ ty, (d, ty) ∈ t.deps := by
    simp only [List.mem_append, mem_uniquer, mem_static, mem_shared, mem_otherDeps]
    constructor
    · rintro ((h₁ | h₁) | ⟨ty, h₁, _⟩)
      · exact ⟨_, h₁⟩
      · exact ⟨_, h₁⟩
      · exact ⟨_, h₁⟩
    · rintro ⟨ty, h₁⟩
      by_cases e₁ : ty = some c!"static_library"
      · exact .inl (.inl (e₁ ▸ h₁))
      · by_cases e₂ : ty = some c!"shared_library"
        · exact .inl (.inr (e₂ ▸ h₁))
        · exact .inr ⟨ty, h₁, e₁, e₂⟩
  unfold MadeAfter
  constructor
  · rintro ⟨args, h₁, h₂⟩
    rcases (told_madeAfter hc _).1 h₁ with h₁ | h₁
    · unfold CTarget.extraDepTold at h₁
      split at h₁
      · obtain ⟨y, _, e⟩ := List.mem_map.1 h₁
        have := congrArg Told.args e
        simp only [List.cons.injEq] at this
        exact hall.1 (this.2 ▸ h₂)
      · simp at h₁
    · unfold CTarget.depTold at h₁
      split at h₁
      · have := congrArg Told.args (List.mem_singleton.1 h₁)
        simp only [List.cons.injEq] at this
        exact absurd this.1 hself
      · simp at h₁
  · rintro ⟨ty, h₁⟩
    refine ⟨_, (told_madeAfter hc _).2 (.inl ?_), hall.2 ⟨ty, h₁⟩⟩
    unfold CTarget.extraDepTold
    rw [if_pos (List.ne_nil_of_mem h₁)]
    exact List.mem_map.2 ⟨x, hx, rfl⟩

theorem told_linked {env : CEnv} {m : Str → Str} {t : CTarget} {command : Str}
    {modifier : Option Str} (hc : (t.type, command, modifier) ∈ cmTypes) :
    linkedWith (t.told m env command modifier) t.name = if t.linkable then t.linked m else [] := by
  have ne : ∀ l : List Told, (∀ c ∈ l, c.command ≠ c!"target_link_" ++ c!"libraries") →
      linkedWith l t.name = [] := by
    intro l hl
    unfold linkedWith
    rw [List.flatMap_eq_nil_iff]
    intro c hc
    rw [if_neg]
    rintro ⟨e, _⟩
    exact hl c hc e
  have ap : ∀ a b : List Told, linkedWith (a ++ b) t.name =
      linkedWith a t.name ++ linkedWith b t.name := by
    intro a b; simp [linkedWith]
  unfold CTarget.told
  simp only [ap]
  rw [ne _ fun c hc e => absurd (dummyTold_cmd c hc) (by rw [e]; decide),
    ne _ fun c hc e => absurd (dirTold_cmd c hc) (by rw [e]; decide),
    ne (t.declareTold m env command modifier) (by
      intro c h e
      rw [List.mem_singleton.1 h] at e
      have := (declare_cmd hc).2
      rw [show command = c!"target_link_" ++ c!"libraries" from e] at this
      revert this; decide),
    ne t.excludeTold (by
      intro c h e
      obtain ⟨d, rfl⟩ := excludeTold_cmd c h
      revert e; dsimp only; decide),
    ne t.languageTold (by
      intro c h e
      obtain ⟨d, rfl⟩ := languageTold_cmd c h
      revert e; dsimp only; decide),
    ne (t.headerTold m) (by
      intro c h e
      rw [headerTold_cmd c h] at e
      revert e; unfold CTarget.filesTold; dsimp only; decide),
    ne (t.objectTold m) (by
      intro c h e
      rw [objectTold_cmd c h] at e
      revert e; unfold CTarget.filesTold; dsimp only; decide),
    ne (t.includeTold m) fun c h e => absurd (includeTold_cmd c h) (by rw [e]; decide),
    ne (t.defineTold m) (by
      intro c h e
      obtain ⟨d, rfl⟩ := defineTold_cmd c h
      revert e; dsimp only; decide),
    ne (t.flagTold m) (by
      intro c h e
      rcases flagTold_cmd c h with ⟨v, rfl⟩ | ⟨k, v, rfl⟩
      · revert e; dsimp only; decide
      · revert e; unfold CTarget.filesTold; dsimp only; decide),
    ne (t.linkFlagTold m) (by
      intro c h e
      obtain ⟨d, rfl⟩ := linkFlagTold_cmd c h
      revert e; dsimp only; decide),
    ne t.extraDepTold fun c h e => absurd (extraDepTold_cmd c h) (by rw [e]; decide),
    ne t.depTold fun c h e => absurd (depTold_cmd c h) (by rw [e]; decide)]
  simp only [List.nil_append]
  unfold CTarget.linkTold
  cases hk : t.linkable with
  | false => simp [linkedWith]
  | true =>
    by_cases he : t.libraries.filter (· ≠ []) ≠ [] ∨ t.staticDeps ≠ [] ∨ t.sharedDeps ≠ []
    · rw [if_pos ⟨rfl, he⟩]
      simp [linkedWith]
    · rw [if_neg (fun h => he h.2)]
      push Not at he
      obtain ⟨h₁, h₂, h₃⟩ := he
      unfold CTarget.linked
      rw [h₁, h₂, h₃]
      simp [linkedWith, uniquer, uniquerLoop]

/-- **C109.**  A program, a shared library or a module is linked with its static
libraries, then its shared ones, then the libraries of the system, each once and in the
order they are first named; the static ones are put in a group where they may need one
another.  Other targets are linked with nothing. -/
theorem C109_linked {env env' : CEnv} {m : Str → Str} {t : CTarget} (h : TargetFits env m t)
    {text : Str} (ht : t.text = some text) {told : List Told}
    (hr : cmakeReads env text = some (env', told)) :
    linkedWith told t.name =
      if t.type ∈ [c!"executable", c!"shared_library", c!"loadable_module"] then
        let static := firsts id ((t.deps.filter fun d => d.2 = some c!"static_library").map (·.1))
        let shared := firsts id ((t.deps.filter fun d => d.2 = some c!"shared_library").map (·.1))
        let libs := firsts id (t.libraries.filter (· ≠ []))
        (if t.circular = true ∧ t.mac = false ∧
            1 < (t.deps.filter fun d => d.2 = some c!"static_library").length
          then [c!"-Wl,--start-group"] ++ static ++ [c!"-Wl,--end-group"] else static) ++
        shared ++ libs.map fun l => m (dropSdkRoot l)
      else [] := by
  obtain ⟨command, modifier, hc, rfl⟩ := told_of_reads h ht hr
  rw [told_linked hc]
  have hl : t.linkable = true ↔
      t.type ∈ [c!"executable", c!"shared_library", c!"loadable_module"] := by
    unfold CTarget.linkable
    simp only [Bool.or_eq_true, decide_eq_true_eq, List.mem_cons, List.not_mem_nil, or_false]
    tauto
  rw [if_congr hl rfl rfl]
  congr 1
  unfold CTarget.linked
  dsimp only
  have e₁ : uniquer id t.staticDeps =
      firsts id ((t.deps.filter fun d => d.2 = some c!"static_library").map (·.1)) := uniquer_eq _ _
  have e₂ : uniquer id t.sharedDeps =
      firsts id ((t.deps.filter fun d => d.2 = some c!"shared_library").map (·.1)) := uniquer_eq _ _
  rw [e₁, e₂, uniquer_eq]
  congr 2
  have hlen : (t.deps.filter fun d => d.2 = some c!"static_library").length = t.staticDeps.length := by
    simp [CTarget.staticDeps]
  rw [hlen]
  by_cases hs : t.staticDeps = []
  · have : (t.deps.filter fun d => d.2 = some c!"static_library").map (·.1) = [] := hs
    rw [if_neg (by simp [hs]), if_neg (by simp [hs]), this]
    simp [firsts]
  · rw [if_pos hs]
    by_cases hg : t.circular = true ∧ t.mac = false ∧ 1 < t.staticDeps.length
    · have : t.grouped = true := by simp [CTarget.grouped, hg]
      rw [if_pos this, if_pos this, if_pos hg]
    · have : ¬ t.grouped = true := by
        intro hg'
        simp only [CTarget.grouped, Bool.and_eq_true, decide_eq_true_eq, Bool.not_eq_true'] at hg'
        exact hg ⟨hg'.1.1, hg'.2, hg'.1.2⟩
      rw [if_neg this, if_neg this, if_neg hg]
      simp

/-- **C109.**  So no dependency is forgotten: the target is made after it, or linked with
it. -/
theorem C109_none_forgotten {env env' : CEnv} {m : Str → Str} {t : CTarget} (h : TargetFits env m t)
    {text : Str} (ht : t.text = some text) {told : List Told}
    (hr : cmakeReads env text = some (env', told)) (hself : t.name ∉ t.extraDeps)
    {d : Str} {ty : Option Str} (hd : (d, ty) ∈ t.deps) :
    MadeAfter told t.name d ∨ d ∈ linkedWith told t.name := by
  by_cases hk : t.type ∈ [c!"executable", c!"shared_library", c!"loadable_module"] →
      ty ≠ some c!"static_library" ∧ ty ≠ some c!"shared_library"
  · exact .inl ((C109_made_after h ht hr hself d).2 (.inr ⟨ty, hd, hk⟩))
  · right
    obtain ⟨command, modifier, hc, rfl⟩ := told_of_reads h ht hr
    rw [told_linked hc]
    rw [Classical.not_imp] at hk
    have hl : t.linkable = true := by
      have := hk.1
      simp only [List.mem_cons, List.not_mem_nil, or_false] at this
      unfold CTarget.linkable
      rcases this with e | e | e <;> simp [e]
    rw [if_pos hl]
    unfold CTarget.linked
    by_cases e₁ : ty = some c!"static_library"
    · subst e₁
      have hm := mem_static.2 hd
      rw [if_pos (List.ne_nil_of_mem hm)]
      simp only [List.mem_append, mem_uniquer]
      tauto
    · have e₂ : ty = some c!"shared_library" := by
        by_contra e₂
        exact hk.2 ⟨e₁, e₂⟩
      subst e₂
      have hm := mem_shared.2 hd
      simp only [List.mem_append, mem_uniquer]
      tauto

/-- The sample meets the hypotheses. -/
example : TargetFits cmSampleEnv sampleMeaning sampleTarget ∧
    sampleTarget.name ∉ sampleTarget.extraDeps ∧
    (sampleTarget.text.bind fun text => (cmakeReads cmSampleEnv text).map fun r =>
      linkedWith r.2 c!"a") =
    some [c!"-Wl,--start-group", c!"l", c!"k", c!"-Wl,--end-group", c!"s", c!"m"] :=
  ⟨sampleFits, by decide, by decide +kernel⟩

/-! ### C111: names -/

theorem mem_conflicts (targets seen conf : List Str) (b : Str) :
    b ∈ cmConflicts targets seen conf ↔ b ∈ conf ∨
      (b ∈ seen ∧ 1 ≤ (targets.map cmBaseName).count b) ∨ 2 ≤ (targets.map cmBaseName).count b := by
  induction targets generalizing seen conf with
  | nil => simp [cmConflicts]
  | cons q qs ih =>
    unfold cmConflicts
    rw [List.map_cons, List.count_cons]
    by_cases hq : cmBaseName q ∈ seen
    · rw [if_neg (by simpa using hq), ih, List.mem_cons]
      by_cases e : cmBaseName q = b
      · subst e
        simp [hq]
      · have e' : ¬ b = cmBaseName q := fun h => e h.symm
        have : (cmBaseName q == b) = false := by simpa using e
        simp [e', this]
    · rw [if_pos hq, ih, List.mem_cons]
      by_cases e : cmBaseName q = b
      · subst e
        simp only [beq_self_eq_true, if_true, true_or, true_and, hq, false_and, false_or]
        constructor
        · rintro (h | h | h)
          · exact .inl h
          · exact .inr (by omega)
          · exact .inr (by omega)
        · rintro (h | h)
          · exact .inl h
          · exact .inr (.inl (by omega))
      · have e' : ¬ b = cmBaseName q := fun h => e h.symm
        have : (cmBaseName q == b) = false := by simpa using e
        simp [e', this]

/-- **C111.**  A target is named after itself where no other target would have the same
name, and after itself and its file otherwise. -/
theorem C111_name {targets : List Str} (hd : targets.Nodup) {q : Str} (hq : q ∈ targets) :
    ((∀ q' ∈ targets, q' ≠ q → cmBaseName q' ≠ cmBaseName q) → cmName targets q = cmBaseName q) ∧
    ((∃ q' ∈ targets, q' ≠ q ∧ cmBaseName q' = cmBaseName q) → cmName targets q = cmFullName q) := by
  have key : cmBaseName q ∈ cmConflicts targets [] [] ↔
      ∃ q' ∈ targets, q' ≠ q ∧ cmBaseName q' = cmBaseName q := by
    rw [mem_conflicts]
    simp only [List.not_mem_nil, false_and, false_or]
    obtain ⟨l, r, rfl⟩ := List.append_of_mem hq
    have hn : q ∉ l ∧ q ∉ r := by
      rw [List.nodup_append] at hd
      refine ⟨fun h => hd.2.2 q h q (by simp) rfl, ?_⟩
      exact (List.nodup_cons.1 hd.2.1).1
    rw [List.map_append, List.map_cons, List.count_append, List.count_cons_self]
    constructor
    · intro h
      have : 1 ≤ (l.map cmBaseName).count (cmBaseName q) ∨ 1 ≤ (r.map cmBaseName).count (cmBaseName q) := by
        omega
      rcases this with h | h
      · obtain ⟨q', h₁, h₂⟩ := List.mem_map.1 (List.one_le_count_iff.1 h)
        exact ⟨q', by simp [h₁], fun e => hn.1 (e ▸ h₁), h₂⟩
      · obtain ⟨q', h₁, h₂⟩ := List.mem_map.1 (List.one_le_count_iff.1 h)
        exact ⟨q', by simp [h₁], fun e => hn.2 (e ▸ h₁), h₂⟩
    · rintro ⟨q', h₁, h₂, h₃⟩
      rcases List.mem_append.1 h₁ with h₁ | h₁
      · have := List.one_le_count_iff.2 (List.mem_map.2 ⟨q', h₁, h₃⟩)
        omega
      · have := List.one_le_count_iff.2 (List.mem_map.2 ⟨q', (List.mem_cons.1 h₁).resolve_left h₂, h₃⟩)
        omega
  unfold cmName
  constructor
  · intro h
    rw [if_neg]
    intro hm
    obtain ⟨q', h₁, h₂, h₃⟩ := key.1 hm
    exact h q' h₁ h₂ h₃
  · intro h
    rw [if_pos (key.2 h)]

/-- **C111.**  What these names are: the name of the target, or its file, a colon and its
name; then the toolset unless it is the usual one; and each character that CMake does not
take in a name replaced. -/
theorem C111_shape {file name toolset : Str} (hn : ':' ∉ name) (ht : ':' ∉ toolset ∧ '#' ∉ toolset) :
    let q := file ++ c!":" ++ name ++ c!"#" ++ toolset
    let suffix := if toolset = c!"target" ∨ toolset = [] then [] else c!"_" ++ toolset
    let replaced := List.map fun c => if c ∈ c!" /():.\"" then '_' else c
    cmBaseName q = replaced (name ++ suffix) ∧
    cmFullName q = replaced (file ++ c!":" ++ name ++ suffix) := by
  intro q suffix replaced
  have hp : ParseQualifiedTarget q = (some file, name, some toolset) := by
    unfold ParseQualifiedTarget
    rw [show q = file ++ ':' :: (name ++ '#' :: toolset) by simp [q], rsplit1_append (by simp [hn, ht.1])]
    dsimp only
    rw [rsplit1_append ht.2]
  have hs : ∀ n, cmToolsetName n (some toolset) = n ++ suffix := by
    intro n
    unfold cmToolsetName
    dsimp only [suffix]
    by_cases h₁ : toolset = c!"target"
    · rw [if_neg (by simp [h₁]), if_pos (.inl h₁)]; simp
    · by_cases h₂ : toolset = []
      · rw [if_neg (by simp [h₂]), if_pos (.inr h₂)]; simp
      · rw [if_pos ⟨h₂, h₁⟩, if_neg (by tauto)]; simp
  constructor
  · unfold cmBaseName
    rw [hp]
    dsimp only
    rw [hs]
    rfl
  · unfold cmFullName
    rw [hp]
    dsimp only
    rw [hs]
    rfl

/-- **C111.**  Two targets have different names unless their names with their files are
the same, or the name of one with its file is the name of the other. -/
theorem C111_distinct_partial {targets : List Str} (hd : targets.Nodup) {q q' : Str}
    (hq : q ∈ targets) (hq' : q' ∈ targets) (hne : q ≠ q')
    (h₁ : cmFullName q ≠ cmFullName q') (h₂ : cmFullName q ≠ cmBaseName q')
    (h₃ : cmBaseName q ≠ cmFullName q') : cmName targets q ≠ cmName targets q' := by
  by_cases he : cmBaseName q = cmBaseName q'
  · rw [(C111_name hd hq).2 ⟨q', hq', hne.symm, he.symm⟩, (C111_name hd hq').2 ⟨q, hq, hne, he⟩]
    exact h₁
  · unfold cmName
    split <;> split <;> assumption

example : [c!"a.gyp:t#target", c!"b.gyp:t#target"].Nodup ∧
    cmName [c!"a.gyp:t#target", c!"b.gyp:t#target"] c!"a.gyp:t#target" = c!"a_gyp_t" ∧
    cmName [c!"a.gyp:t#target", c!"b.gyp:t#target"] c!"b.gyp:t#target" = c!"b_gyp_t" ∧
    cmName [c!"a.gyp:t#target", c!"b.gyp:u#host"] c!"b.gyp:u#host" = c!"u_host" := by
  refine ⟨by decide, by decide +kernel, by decide +kernel, by decide +kernel⟩

/-- **C111.**  That can happen: files that differ in a character that is replaced, a target
whose name ends like a toolset, and a target whose name looks like another with its
file. -/
theorem C111_collisions :
    (∃ targets : List Str, ∃ q ∈ targets, ∃ q' ∈ targets, targets.Nodup ∧ q ≠ q' ∧
      cmFullName q = cmFullName q' ∧ cmName targets q = cmName targets q') ∧
    (let targets := [c!"x.gyp:a_host#target", c!"x.gyp:a#host"];
      cmName targets c!"x.gyp:a_host#target" = cmName targets c!"x.gyp:a#host") ∧
    (let targets := [c!"a.gyp:t#target", c!"b.gyp:t#target", c!"c.gyp:a_gyp_t#target"];
      cmName targets c!"a.gyp:t#target" = cmName targets c!"c.gyp:a_gyp_t#target") := by
  refine ⟨⟨[c!"a.b.gyp:t#target", c!"a_b.gyp:t#target"], c!"a.b.gyp:t#target", by simp,
    c!"a_b.gyp:t#target", by simp, by decide, by decide, by decide +kernel, by decide +kernel⟩,
    by decide +kernel, by decide +kernel⟩

end Gyp
