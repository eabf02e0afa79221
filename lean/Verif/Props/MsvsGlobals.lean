import Verif.Spec.MsvsGlobals
import Verif.Props.XcodeLink
import Verif.Proofs.MsvsSources
/-
C103: the properties of a whole Visual Studio project.
-/
namespace Gyp
open Spec

theorem sdkInstalled_iff (m : SdkMachine) (key v : Str) :
    SdkInstalled m key v ↔ ∃ dir, m.registry key c!"InstallationFolder" = some dir ∧ dir ≠ [] ∧
      v ∈ ((m.listDir (dir ++ c!"\\include")).getD []).filter
        fun x => startsWith x ((m.registry key c!"ProductVersion").getD []) := by
  constructor
  · rintro ⟨dir, names, h1, h2, h3, h4, rest, h5⟩
    refine ⟨dir, h1, h2, List.mem_filter.mpr ⟨by rw [h3]; exact h4, ?_⟩⟩
    rw [startsWith_iff, h5]; exact List.prefix_append _ _
  · rintro ⟨dir, h1, h2, h3⟩
    obtain ⟨h3, h4⟩ := List.mem_filter.mp h3
    cases hn : m.listDir (dir ++ c!"\\include") with
    | none => rw [hn] at h3; exact absurd h3 (by simp)
    | some names =>
      rw [hn] at h3
      rw [startsWith_iff] at h4
      obtain ⟨rest, h4⟩ := h4
      exact ⟨dir, names, h1, h2, hn, h3, rest, h4.symm⟩

theorem sdkAt_none (m : SdkMachine) (key : Str) : sdkAt m key = none ↔ ∀ v, ¬ SdkInstalled m key v := by
  simp only [sdkInstalled_iff]
  unfold sdkAt
  split
  · rename_i h
    simp [h]
  · rename_i h
    simp [h]
  · rename_i dir hne h
    dsimp only
    rw [List.head?_eq_none_iff]
    constructor
    · intro hs v ⟨d, hd, _, hv⟩
      rw [h] at hd; cases hd
      have := (pySorted_perm (fun a b => strLe b a) _).mem_iff.mpr hv
      rw [hs] at this
      exact absurd this (by simp)
    · intro hs
      rw [List.eq_nil_iff_forall_not_mem]
      intro v hv
      exact hs v ⟨dir, h, hne, (pySorted_perm (fun a b => strLe b a) _).mem_iff.mp hv⟩

theorem sdkAt_some (m : SdkMachine) (key v : Str) :
    sdkAt m key = some v ↔ SdkInstalled m key v ∧ ∀ w, SdkInstalled m key w → strLe w v = true := by
  simp only [sdkInstalled_iff]
  unfold sdkAt
  split
  · rename_i h
    simp [h]
  · rename_i h
    simp [h]
  · rename_i dir hne h
    have hne' : dir ≠ [] := hne
    dsimp only
    generalize hl : ((m.listDir (dir ++ c!"\\include")).getD []).filter
        (fun x => startsWith x ((m.registry key c!"ProductVersion").getD [])) = l
    have hp := pySorted_perm (fun a b : Str => strLe b a) l
    have hw := pySorted_pairwise (fun a b : Str => strLe b a) (fun a b => strLe_total b a)
      (fun a b c h1 h2 => strLe_trans _ _ _ h2 h1) l
    have hiff : ∀ w, (∃ d, m.registry key c!"InstallationFolder" = some d ∧ d ≠ [] ∧
        w ∈ ((m.listDir (d ++ c!"\\include")).getD []).filter
        (fun x => startsWith x ((m.registry key c!"ProductVersion").getD []))) ↔ w ∈ l := by
      intro w
      constructor
      · rintro ⟨d, hd, _, hv⟩
        rw [h] at hd; cases hd
        rw [hl] at hv; exact hv
      · intro hv
        exact ⟨dir, h, hne', by rw [hl]; exact hv⟩
    simp only [hiff]
    generalize pySorted (fun a b : Str => strLe b a) l = s at hp hw
    have hrefl : strLe v v = true := by rcases strLe_total v v with h | h <;> exact h
    cases s with
    | nil =>
      have : l = [] := List.Perm.eq_nil hp.symm
      subst this
      simp
    | cons x xs =>
      rw [List.pairwise_cons] at hw
      simp only [List.head?_cons, Option.some.injEq]
      constructor
      · rintro rfl
        refine ⟨hp.mem_iff.mp (by simp), fun w hw' => ?_⟩
        rcases List.mem_cons.mp (hp.mem_iff.mpr hw') with rfl | h
        · exact hrefl
        · exact hw.1 w h
      · rintro ⟨h1, h2⟩
        rcases List.mem_cons.mp (hp.mem_iff.mpr h1) with rfl | h
        · rfl
        · exact strLe_antisymm _ _ (h2 x (hp.mem_iff.mp (by simp))) (hw.1 v h)

theorem findSome_first {α β : Type} (f : α → Option β) (l : List α) (v : β) :
    l.findSome? f = some v ↔
      ∃ pre x post, l = pre ++ x :: post ∧ (∀ y ∈ pre, f y = none) ∧ f x = some v := by
  induction l with
  | nil => simp
  | cons a l ih =>
    rw [List.findSome?_cons]
    cases ha : f a with
    | some w =>
      constructor
      · intro h
        cases h
        exact ⟨[], a, l, rfl, by simp, ha⟩
      · rintro ⟨pre, x, post, h1, h2, h3⟩
        cases pre with
        | nil => cases h1; rw [ha] at h3; exact h3
        | cons b pre =>
          cases h1
          have := h2 a (by simp)
          rw [ha] at this; exact absurd this (by simp)
    | none =>
      dsimp only
      rw [ih]
      constructor
      · rintro ⟨pre, x, post, h1, h2, h3⟩
        exact ⟨a :: pre, x, post, by rw [h1]; rfl, by simpa [ha] using h2, h3⟩
      · rintro ⟨pre, x, post, h1, h2, h3⟩
        cases pre with
        | nil => cases h1; rw [ha] at h3; exact absurd h3 (by simp)
        | cons b pre =>
          cases h1
          exact ⟨pre, x, post, rfl, fun y hy => h2 y (by simp [hy]), h3⟩

theorem look_iff (m : SdkMachine) (sdks : List Str) (c : GlobConfig) (v : Str) :
    configSdk.look m sdks c = some v ↔ ∃ vers before place after, SearchedSdks sdks c vers ∧
      registryPlaces vers = before ++ place :: after ∧
      (∀ p ∈ before, ∀ w, ¬ SdkInstalled m p w) ∧
      SdkInstalled m place v ∧ ∀ w, SdkInstalled m place w → strLe w v = true := by
  have key : ∀ vers : List Str, (vers.flatMap sdkKeys).findSome? (sdkAt m) = some v ↔
      ∃ before place after, registryPlaces vers = before ++ place :: after ∧
      (∀ p ∈ before, ∀ w, ¬ SdkInstalled m p w) ∧
      SdkInstalled m place v ∧ ∀ w, SdkInstalled m place w → strLe w v = true := by
    intro vers
    rw [findSome_first]
    simp only [sdkAt_none, sdkAt_some]
    rfl
  unfold configSdk.look
  dsimp only
  rw [key]
  constructor
  · rintro ⟨b, p, a, h⟩
    refine ⟨_, b, p, a, ?_, h⟩
    unfold SearchedSdks
    split
    · rename_i d r hs
      exact Or.inl ⟨d :: r, hs, by simp, rfl⟩
    · rename_i hs
      refine Or.inr ⟨?_, rfl⟩
      cases h : c.sdkVersion with
      | none => exact Or.inl rfl
      | some x =>
        cases x with
        | nil => exact Or.inr rfl
        | cons d r => exact absurd h (hs d r)
  · rintro ⟨vers, b, p, a, hs, h⟩
    refine ⟨b, p, a, ?_⟩
    rcases hs with ⟨x, h1, h2, h3⟩ | ⟨h1, h2⟩
    · cases x with
      | nil => exact absurd rfl h2
      | cons d r => rw [h1]; rw [h3] at h; exact h
    · rw [h2] at h
      rcases h1 with h1 | h1 <;> rw [h1] <;> exact h

/-- **C103.**  The version of the Windows SDK for a configuration is the one it names itself, if that
begins with a digit; else the last, as text, of the versions at the first place of the registry that has
any, the places being those of the SDK that the configuration names, or else those of the SDKs that
Visual Studio works with. -/
theorem C103_sdk (m : SdkMachine) (sdks : List Str) (c : GlobConfig) (v : Str) :
    configSdk m sdks c = some v ↔ SdkOf m sdks c v := by
  unfold configSdk SdkOf
  split
  · rename_i d r ht
    by_cases hd : d.isDigit = true
    · rw [if_pos hd]
      constructor
      · intro h
        cases h
        exact Or.inl ⟨ht, d, r, rfl, hd⟩
      · rintro (⟨h, _⟩ | ⟨h, _⟩)
        · rw [ht] at h; exact h
        · exact absurd ⟨ht, d, r, rfl, hd⟩ (h (d :: r))
    · rw [if_neg hd]
      have hno : ∀ w, ¬ NamesVersion c w := by
        rintro w ⟨h, d', r', h2, h3⟩
        rw [ht] at h; cases h; cases h2
        exact hd h3
      rw [look_iff]
      exact ⟨fun h => Or.inr ⟨hno, h⟩, fun h => h.elim (fun h => absurd h (hno v)) (·.2)⟩
  · rename_i ht
    have hno : ∀ w, ¬ NamesVersion c w := by
      rintro w ⟨h, d', r', h2, h3⟩
      subst h2
      exact ht d' r' h
    rw [look_iff]
    exact ⟨fun h => Or.inr ⟨hno, h⟩, fun h => h.elim (fun h => absurd h (hno v)) (·.2)⟩

theorem configSdk_none (m : SdkMachine) (sdks : List Str) (c : GlobConfig) :
    configSdk m sdks c = none ↔ ∀ v, ¬ SdkOf m sdks c v := by
  simp only [← C103_sdk]
  cases configSdk m sdks c <;> simp

theorem sdkOf_ne_nil {m : SdkMachine} (hm : SaneNames m) {sdks : List Str} {c : GlobConfig} {v : Str}
    (h : SdkOf m sdks c v) : v ≠ [] := by
  rintro rfl
  rcases h with ⟨_, d, r, h, _⟩ | ⟨_, _, _, _, _, _, _, _, ⟨dir, names, _, _, hl, hv, _⟩, _⟩
  · exact absurd h (by simp)
  · exact hm _ _ hl hv

theorem globLoop_kept (m : SdkMachine) (sdks : List Str) (cs : List GlobConfig) (p s : Option Str)
    (hs : textTrue s = true) : (globLoop m sdks cs (p, s)).2 = s := by
  have hor : ∀ b, textOr s b = s := by
    intro b
    unfold textTrue at hs
    split at hs
    · rfl
    · exact absurd hs (by simp)
  induction cs generalizing p with
  | nil => rfl
  | cons c cs ih =>
    unfold globLoop
    dsimp only
    rw [hor]
    split
    · rfl
    · exact ih _

theorem globLoop_sdk {m : SdkMachine} (hm : SaneNames m) (sdks : List Str) (cs : List GlobConfig)
    (p : Option Str) : (globLoop m sdks cs (p, none)).2 = cs.findSome? (configSdk m sdks) := by
  induction cs generalizing p with
  | nil => rfl
  | cons c cs ih =>
    unfold globLoop
    dsimp only
    rw [List.findSome?_cons]
    have : textOr none (configSdk m sdks c) = configSdk m sdks c := rfl
    rw [this]
    cases hc : configSdk m sdks c with
    | none =>
      dsimp only
      rw [if_neg (by simp [textTrue])]
      exact ih _
    | some v =>
      have hv := sdkOf_ne_nil hm ((C103_sdk _ _ _ _).mp hc)
      have ht : textTrue (some v) = true := by
        cases v with
        | nil => exact absurd rfl hv
        | cons a b => rfl
      dsimp only
      split
      · rfl
      · exact globLoop_kept _ _ _ _ _ ht

theorem globalProperties_values {m : SdkMachine} (hm : SaneNames m) {sdks : List Str} {t : GlobTarget}
    {guid name : Str} {l : List (Str × Str)} (h : globalProperties m sdks t guid name = some l) :
    valuesOf c!"WindowsTargetPlatformVersion" l =
      (if t.targetPlatform = [] then [] else [t.targetPlatform]) ++
      ((t.configurations.map (·.2)).findSome? (configSdk m sdks)).toList := by
  unfold globalProperties at h
  dsimp only at h
  rw [globLoop_sdk hm] at h
  have hempty : ∀ v, (t.configurations.map (·.2)).findSome? (configSdk m sdks) = some v → v ≠ [] := by
    intro v hv
    obtain ⟨_, c, _, _, _, hc⟩ := (findSome_first _ _ _).mp hv
    exact sdkOf_ne_nil hm ((C103_sdk _ _ _ _).mp hc)
  cases hf : (t.configurations.map (·.2)).findSome? (configSdk m sdks) with
  | none =>
    rw [hf] at h
    dsimp only at h
    split at h
    · cases h
      unfold valuesOf
      simp only [List.filter_append, List.map_append]
      split <;> split <;> split <;> split <;> simp
    · exact absurd h (by simp)
  | some v =>
    rw [hf] at h
    cases v with
    | nil => exact absurd rfl (hempty _ hf)
    | cons d r =>
      dsimp only at h
      cases h
      unfold valuesOf
      simp only [List.filter_append, List.map_append]
      split <;> split <;> split <;> split <;> simp

/-- **C103.**  A project names the SDK of the first of its configurations that has one, after the one
its target names for all of them, if any. -/
theorem C103_version {m : SdkMachine} (hm : SaneNames m) {sdks : List Str} {t : GlobTarget}
    {guid name : Str} {l : List (Str × Str)} (h : globalProperties m sdks t guid name = some l) :
    ∃ own found, valuesOf c!"WindowsTargetPlatformVersion" l = own ++ found ∧
      own = (if t.targetPlatform = [] then [] else [t.targetPlatform]) ∧
      ((∃ before c after v, t.configurations = before ++ c :: after ∧
          (∀ b ∈ before, ∀ w, ¬ SdkOf m sdks b.2 w) ∧ SdkOf m sdks c.2 v ∧ found = [v]) ∨
        ((∀ c ∈ t.configurations, ∀ w, ¬ SdkOf m sdks c.2 w) ∧ found = [])) := by
  refine ⟨_, _, globalProperties_values hm h, rfl, ?_⟩
  rw [List.findSome?_map]
  cases hf : t.configurations.findSome? (configSdk m sdks ∘ fun c => c.2) with
  | none =>
    right
    rw [List.findSome?_eq_none_iff] at hf
    exact ⟨fun c hc => (configSdk_none _ _ _).mp (hf c hc), rfl⟩
  | some v =>
    left
    obtain ⟨b, c, a, h1, h2, h3⟩ := (findSome_first _ _ _).mp hf
    exact ⟨b, c, a, v, h1, fun x hx => (configSdk_none _ _ _).mp (h2 x hx), (C103_sdk _ _ _ _).mp h3, rfl⟩

/-- **C103.**  A project has its own identifier, and the lowest version of Windows is the version that
its target names unless the target names a lowest one as well. -/
theorem C103_minimum {m : SdkMachine} {sdks : List Str} {t : GlobTarget}
    {guid name : Str} {l : List (Str × Str)} (h : globalProperties m sdks t guid name = some l) :
    valuesOf c!"ProjectGuid" l = [guid] ∧
    valuesOf c!"WindowsTargetPlatformMinVersion" l =
      (if t.targetPlatform = [] then []
       else [if t.targetPlatformMin = [] then t.targetPlatform else t.targetPlatformMin]) := by
  unfold globalProperties at h
  dsimp only at h
  generalize globLoop m sdks (t.configurations.map (·.2)) (none, none) = found at h
  generalize (if t.targetPlatformMin = [] then t.targetPlatform else t.targetPlatformMin) = lowest at h ⊢
  generalize (if t.revision = [] then c!"8.1" else t.revision) = revision at h
  generalize (if t.winphone then c!"Windows Phone" else c!"Windows Store") = kind at h
  split at h
  · cases h
    unfold valuesOf
    simp only [List.filter_append, List.map_append]
    constructor <;> split <;> split <;> split <;> split <;> simp
  · split at h
    · cases h
      unfold valuesOf
      simp only [List.filter_append, List.map_append]
      constructor <;> split <;> split <;> split <;> split <;> simp
    · cases h

example : (globalProperties ⟨fun _ _ => none, fun _ => none, fun _ => none⟩ []
    { type := c!"executable", toolset := c!"target", configurations := [],
      defaultConfiguration := c!"Debug", targetPlatform := c!"10.0.2" } c!"{1}" c!"p.gyp").isSome = true := by
  decide +kernel

/-- **C103.**  Making a project fails for want of an SDK just when Visual Studio needs one and no
configuration has one. -/
theorem C103_missing {m : SdkMachine} (hm : SaneNames m) (sdks : List Str) (t : GlobTarget)
    (guid name : Str) :
    globalProperties m sdks t guid name = none ↔
      sdks ≠ [] ∧ ∀ c ∈ t.configurations, ∀ v, ¬ SdkOf m sdks c.2 v := by
  unfold globalProperties
  dsimp only
  rw [globLoop_sdk hm, List.findSome?_map]
  cases hf : t.configurations.findSome? (configSdk m sdks ∘ fun c => c.2) with
  | none =>
    dsimp only
    rw [List.findSome?_eq_none_iff] at hf
    by_cases hs : sdks = []
    · simp [hs]
    · rw [if_neg hs]
      simp only [true_iff]
      exact ⟨hs, fun c hc => (configSdk_none _ _ _).mp (hf c hc)⟩
  | some v =>
    obtain ⟨b, c, a, h1, h2, h3⟩ := (findSome_first _ _ _).mp hf
    have hv := (C103_sdk _ _ _ _).mp h3
    cases v with
    | nil => exact absurd rfl (sdkOf_ne_nil hm hv)
    | cons d r =>
      simp only [reduceCtorEq, false_iff]
      rintro ⟨_, h⟩
      exact h c (by rw [h1]; simp) _ hv

/-- **C103.**  When the configurations name a version themselves, as node-gyp makes them do with the SDK
of the Visual Studio that it found, the project has that version and nothing else: neither the registry
nor the directories of the machine matter. -/
theorem C103_named (m : SdkMachine) (sdks : List Str) (t : GlobTarget) (guid name : Str) (d : Char)
    (r : Str) (hd : d.isDigit = true) (hne : t.configurations ≠ []) (ht : t.targetPlatform = [])
    (hall : ∀ c ∈ t.configurations, c.2.targetVersion = some (d :: r)) :
    ∃ l, globalProperties m sdks t guid name = some l ∧
      valuesOf c!"WindowsTargetPlatformVersion" l = [d :: r] := by
  obtain ⟨cs, hcs⟩ : ∃ cs, t.configurations = cs := ⟨_, rfl⟩
  cases cs with
  | nil => exact absurd hcs hne
  | cons c cs =>
    have hc : configSdk m sdks c.2 = some (d :: r) := by
      unfold configSdk
      rw [hall c (by rw [hcs]; simp)]
      exact if_pos hd
    have hloop : (globLoop m sdks (t.configurations.map (·.2)) (none, none)).2 = some (d :: r) := by
      rw [hcs]
      simp only [List.map_cons]
      unfold globLoop
      dsimp only
      rw [hc]
      have : textOr none (some (d :: r)) = some (d :: r) := rfl
      rw [this]
      split
      · rfl
      · exact globLoop_kept _ _ _ _ _ rfl
    unfold globalProperties
    dsimp only
    rw [hloop]
    refine ⟨_, rfl, ?_⟩
    unfold valuesOf
    simp only [ht, if_true, List.filter_append, List.map_append]
    split <;> split <;> split <;> simp

theorem globLoop_arm (m : SdkMachine) (sdks : List Str) (cs : List GlobConfig) (p s : Option Str) :
    (globLoop m sdks cs (p, s)).1 = some c!"ARM" ↔ p = some c!"ARM" ∨
      (textTrue p = false ∧ ∃ before c after, cs = before ++ c :: after ∧
        (∀ b ∈ before, b.platform = some []) ∧ c.platform = some c!"ARM") := by
  induction cs generalizing p s with
  | nil => simp [globLoop]
  | cons c cs ih =>
    have hsplit : ∀ (P : List GlobConfig → Prop) (Q : GlobConfig → Prop),
        (P = fun l => ∃ before c after, l = before ++ c :: after ∧
          (∀ b ∈ before, b.platform = some []) ∧ Q c) →
        (P (c :: cs) ↔ Q c ∨ (c.platform = some [] ∧ P cs)) := by
      rintro P Q rfl
      constructor
      · rintro ⟨b, x, a, h1, h2, h3⟩
        cases b with
        | nil => cases h1; exact Or.inl h3
        | cons y b =>
          cases h1
          exact Or.inr ⟨h2 c (by simp), b, x, a, rfl, fun z hz => h2 z (by simp [hz]), h3⟩
      · rintro (h | ⟨h, b, x, a, h1, h2, h3⟩)
        · exact ⟨[], c, cs, rfl, by simp, h⟩
        · exact ⟨c :: b, x, a, by rw [h1]; rfl, by simpa [h] using h2, h3⟩
    rw [hsplit _ _ rfl]
    unfold globLoop
    dsimp only
    have hp : textOr p (some (globPlatform c)) = p ∧ textTrue p = true ∨
        textOr p (some (globPlatform c)) = some (globPlatform c) ∧ textTrue p = false := by
      unfold textOr textTrue
      split
      · exact Or.inl ⟨rfl, rfl⟩
      · exact Or.inr ⟨rfl, rfl⟩
    rcases hp with ⟨h1, h2⟩ | ⟨h1, h2⟩
    · rw [h1]
      have e : p = some c!"ARM" ↔ p = some c!"ARM" ∨ textTrue p = false ∧
          (c.platform = some c!"ARM" ∨ c.platform = some [] ∧
            ∃ before c after, cs = before ++ c :: after ∧
          (∀ b ∈ before, b.platform = some []) ∧ c.platform = some c!"ARM") := by
        simp [h2]
      split
      · exact e
      · rw [ih]; simp [h2]
    · rw [h1]
      have hpn : p ≠ some c!"ARM" := by
        rintro rfl
        exact absurd h2 (by decide)
      have hg : some (globPlatform c) = some c!"ARM" ↔ c.platform = some c!"ARM" := by
        unfold globPlatform
        cases c.platform with
        | none => simp
        | some x => simp
      have hg2 : textTrue (some (globPlatform c)) = false ↔ c.platform = some [] := by
        unfold globPlatform
        cases c.platform with
        | none => simp [textTrue]
        | some x => cases x <;> simp [textTrue]
      simp only [h2, hpn, false_or, true_and]
      split
      · rename_i hb
        rw [hg]
        constructor
        · exact Or.inl
        · rintro (h | ⟨h, _⟩)
          · exact h
          · rw [← hg2] at h
            rw [h] at hb; exact absurd hb (by simp)
      · rw [ih, hg, hg2]

/-- **C103.**  The desktop libraries of ARM are asked for just when the first configuration that names a
platform is for ARM (a configuration whose platform is not given is for `Win32`). -/
theorem C103_arm {m : SdkMachine} {sdks : List Str} {t : GlobTarget} {guid name : Str}
    {l : List (Str × Str)} (h : globalProperties m sdks t guid name = some l) :
    (c!"WindowsSDKDesktopARMSupport", c!"true") ∈ l ↔
      ∃ before c after, t.configurations = before ++ c :: after ∧
        (∀ b ∈ before, b.2.platform = some []) ∧ c.2.platform = some c!"ARM" := by
  have hloop := globLoop_arm m sdks (t.configurations.map (·.2)) none none
  have hmap : (∃ before c after, t.configurations.map (·.2) = before ++ c :: after ∧
        (∀ b ∈ before, b.platform = some []) ∧ c.platform = some c!"ARM") ↔
      ∃ before c after, t.configurations = before ++ c :: after ∧
        (∀ b ∈ before, b.2.platform = some []) ∧ c.2.platform = some c!"ARM" := by
    constructor
    · rintro ⟨b, c, a, h1, h2, h3⟩
      obtain ⟨b', l', h4, h5, h6⟩ := List.map_eq_append_iff.mp h1
      obtain ⟨c', a', h7, h8, h9⟩ := List.map_eq_cons_iff.mp h6
      refine ⟨b', c', a', by rw [h4, h7], fun x hx => h2 _ (by rw [← h5]; exact List.mem_map_of_mem hx), ?_⟩
      rw [h8]; exact h3
    · rintro ⟨b, c, a, h1, h2, h3⟩
      refine ⟨b.map (·.2), c.2, a.map (·.2), by rw [h1]; simp, ?_, h3⟩
      intro x hx
      obtain ⟨y, hy, rfl⟩ := List.mem_map.mp hx
      exact h2 y hy
  rw [← hmap]
  simp only [reduceCtorEq, textTrue, false_or, true_and] at hloop
  rw [← hloop]
  unfold globalProperties at h
  dsimp only at h
  generalize globLoop m sdks (t.configurations.map (·.2)) (none, none) = f at h
  split at h
  · cases h
    by_cases hf : f.1 = some c!"ARM"
    · simp [hf]
    · simp only [hf, if_false, iff_false]
      split <;> split <;> split <;> simp
  · split at h
    · cases h
      by_cases hf : f.1 = some c!"ARM"
      · simp [hf]
      · simp only [hf, if_false, iff_false]
        split <;> split <;> split <;> simp
    · exact absurd h (by simp)

theorem projectParts_eq {m : SdkMachine} {sdks : List Str} {t : GlobTarget} {d : Option Str}
    {guid name : Str} {g : ProjectGiven} {parts : List ProjectPart}
    (h : projectParts m sdks t d guid name g = some parts) :
    ∃ toolset globals, projectToolset t d = some toolset ∧
      globalProperties m sdks t guid name = some globals := by
  unfold projectParts at h
  cases h1 : projectToolset t d with
  | none => rw [h1] at h; exact absurd h (by simp)
  | some toolset =>
    cases h2 : globalProperties m sdks t guid name with
    | none => rw [h1, h2] at h; exact absurd h (by simp)
    | some globals => exact ⟨toolset, globals, rfl, rfl⟩

theorem localProperties_eq (x : Option Str) :
    localProperties x = [] ∧ (x = none ∨ x = some []) ∨ ∃ n, n ≠ [] ∧ x = some n ∧ localProperties x = [.toolset n] := by
  unfold localProperties
  split
  · rename_i c r
    exact Or.inr ⟨c :: r, by simp, rfl, rfl⟩
  · rename_i hx
    refine Or.inl ⟨rfl, ?_⟩
    cases x with
    | none => exact Or.inl rfl
    | some y =>
      cases y with
      | nil => exact Or.inr rfl
      | cons c r => exact absurd rfl (hx c r)

theorem mem_localProperties (p : ProjectPart) (x : Option Str) :
    p ∈ localProperties x ↔ ∃ n, n ≠ [] ∧ x = some n ∧ p = .toolset n := by
  rcases localProperties_eq x with ⟨h1, h2⟩ | ⟨n, h1, h2, h3⟩
  · rw [h1]
    constructor
    · intro h; exact absurd h (by simp)
    · rintro ⟨n, h3, h4, _⟩
      rcases h2 with h2 | h2
      · rw [h2] at h4; exact absurd h4 (by simp)
      · rw [h2] at h4; cases h4; exact absurd rfl h3
  · rw [h3, List.mem_singleton]
    constructor
    · intro h; exact ⟨n, h1, h2, h⟩
    · rintro ⟨n', _, h5, h6⟩
      rw [h2] at h5; cases h5; exact h6

/-- **C103.**  A project is built with the tool set of Windows Phone or of drivers if it is one, else with
the tool set that the default configuration names (node-gyp names that of the Visual Studio it found), and
else with the one of the version of Visual Studio; it names none just when there is none. -/
theorem C103_toolset {m : SdkMachine} {sdks : List Str} {t : GlobTarget} {d : Option Str}
    {guid name : Str} {g : ProjectGiven} {parts : List ProjectPart}
    (h : projectParts m sdks t d guid name g = some parts) (n : Str) :
    ProjectPart.toolset n ∈ parts ↔ ToolsetOf t d n := by
  obtain ⟨toolset, globals, h1, h2⟩ := projectParts_eq h
  unfold projectParts at h
  rw [h1, h2] at h
  simp only [Option.bind_eq_bind, Option.bind_some, Option.pure_def, Option.some.injEq] at h
  rw [← h]
  have hm : ∀ (c : Prop) [Decidable c] (x : Str), ProjectPart.toolset n ∉ (if c then [ProjectPart.imported x] else []) := by
    intro c _ x
    split <;> simp
  have hb : ProjectPart.toolset n ∉ (if t.external = true then g.builder.map ProjectPart.builder else []) := by
    split <;> simp
  simp only [List.mem_append, hm, hb, or_false]
  simp only [List.mem_cons, List.not_mem_nil, List.mem_map, reduceCtorEq, or_false, false_or, and_false,
    exists_false]
  rw [mem_localProperties]
  unfold ToolsetOf
  unfold projectToolset at h1
  obtain ⟨c, hc, hts⟩ := Option.map_eq_some_iff.mp h1
  dsimp only at hts
  constructor
  · rintro ⟨n', hn, he, hp⟩
    cases hp
    refine ⟨hn, ?_⟩
    by_cases hw : t.winphone = true
    · rw [if_pos hw] at he ⊢
      cases he; rfl
    · rw [if_neg hw] at he ⊢
      by_cases hd : t.type = c!"windows_driver"
      · rw [if_pos hd] at hts ⊢
        rw [← hts] at he
        cases he; rfl
      · rw [if_neg hd] at hts ⊢
        refine ⟨c, hc, ?_⟩
        rw [he] at hts
        split at hts
        · rename_i hcond
          right
          refine ⟨?_, hts⟩
          have := hcond.1
          cases hct : c.toolset with
          | none => exact Or.inl rfl
          | some x =>
            rw [hct] at this
            cases x with
            | nil => exact Or.inr rfl
            | cons a b => exact absurd rfl this
        · exact Or.inl hts
  · rintro ⟨hn, he⟩
    refine ⟨n, hn, ?_, rfl⟩
    have htrue : textTrue (some n) = true := by
      cases n with
      | nil => exact absurd rfl hn
      | cons a b => rfl
    by_cases hw : t.winphone = true
    · rw [if_pos hw] at he ⊢
      rw [he]
    · rw [if_neg hw] at he ⊢
      by_cases hd : t.type = c!"windows_driver"
      · rw [if_pos hd] at hts he
        rw [← hts, he]
      · rw [if_neg hd] at hts he
        obtain ⟨c', hc', he⟩ := he
        rw [hc] at hc'; cases hc'
        rw [← hts]
        rcases he with he | ⟨he, hv⟩
        · rw [he, if_neg]
          rw [htrue]; simp
        · rw [if_pos]
          · exact hv
          · rw [hv]
            refine ⟨?_, htrue⟩
            rcases he with he | he <;> rw [he] <;> simp [textTrue]

/-- A run of parts, in order, with places from `a` to `b`. -/
def RunOf (a b : Nat) (l : List ProjectPart) : Prop :=
  l.Pairwise NotAfter ∧ ∀ x ∈ l, ∃ i, placeOf x = some i ∧ a ≤ i ∧ i ≤ b

theorem RunOf.append {a b c d : Nat} {l r : List ProjectPart} (hl : RunOf a b l) (hr : RunOf c d r)
    (hbc : b ≤ c) (hab : a ≤ c) (hbd : b ≤ d) : RunOf a d (l ++ r) := by
  refine ⟨List.pairwise_append.mpr ⟨hl.1, hr.1, ?_⟩, ?_⟩
  · intro x hx y hy
    obtain ⟨i, h1, h2, h3⟩ := hl.2 x hx
    obtain ⟨j, h4, h5, h6⟩ := hr.2 y hy
    exact ⟨i, j, h1, h4, by omega⟩
  · intro x hx
    rcases List.mem_append.mp hx with hx | hx
    · obtain ⟨i, h1, h2, h3⟩ := hl.2 x hx
      exact ⟨i, h1, h2, by omega⟩
    · obtain ⟨i, h1, h2, h3⟩ := hr.2 x hx
      exact ⟨i, h1, by omega, h3⟩

theorem runOf_same {k : Nat} {l : List ProjectPart} (h : ∀ x ∈ l, placeOf x = some k) : RunOf k k l := by
  refine ⟨?_, fun x hx => ⟨k, h x hx, Nat.le_refl _, Nat.le_refl _⟩⟩
  apply List.pairwise_of_forall_mem_list
  intro x hx y hy
  exact ⟨k, k, h x hx, h y hy, Nat.le_refl _⟩

theorem runOf_map {k : Nat} (f : Str → ProjectPart) (l : List Str) (h : ∀ s, placeOf (f s) = some k) :
    RunOf k k (l.map f) := by
  apply runOf_same
  intro x hx
  obtain ⟨s, _, rfl⟩ := List.mem_map.mp hx
  exact h s

theorem runOf_if {k : Nat} (c : Prop) [Decidable c] {l : List ProjectPart} (h : RunOf k k l) :
    RunOf k k (if c then l else []) := by
  split
  · exact h
  · exact ⟨by simp, by simp⟩

/-- **C103.**  The parts of a project are in the order in which MSBuild needs them: the configurations
and the properties of all of them, the defaults of C++, the details of configurations and the tool set,
the properties of C++ and of assemblers, those of rules, property sheets, properties and settings of
tools, sources, references, and last the targets. -/
theorem C103_order {m : SdkMachine} {sdks : List Str} {t : GlobTarget} {d : Option Str}
    {guid name : Str} {g : ProjectGiven} {parts : List ProjectPart}
    (h : projectParts m sdks t d guid name g = some parts) : parts.Pairwise NotAfter := by
  obtain ⟨toolset, globals, h1, h2⟩ := projectParts_eq h
  unfold projectParts at h
  rw [h1, h2] at h
  simp only [Option.bind_eq_bind, Option.bind_some, Option.pure_def, Option.some.injEq] at h
  rw [← h]
  have r0 : RunOf 0 2 [.configurations (globConfigurations t), .globals globals,
      .imported (vcFile c!"Microsoft.Cpp.Default.props")] := by
    have e1 : placeOf (.configurations (globConfigurations t)) = some 0 := rfl
    have e2 : placeOf (.globals globals) = some 1 := rfl
    have e3 : placeOf (.imported (vcFile c!"Microsoft.Cpp.Default.props")) = some 2 := by decide
    exact ((runOf_same (k := 0) (l := [_]) (by simpa using e1)).append
      (runOf_same (k := 1) (l := [_]) (by simpa using e2)) (by omega) (by omega) (by omega)).append
      (runOf_same (k := 2) (l := [_]) (by simpa using e3)) (by omega) (by omega) (by omega)
  have r4 : ∀ x, RunOf 4 4 (localProperties x) := by
    intro x
    apply runOf_same
    intro p hp
    obtain ⟨n, _, _, rfl⟩ := (mem_localProperties p x).mp hp
    rfl
  have r5 : RunOf 5 5 [.imported (vcFile c!"Microsoft.Cpp.props"),
      .imported (vcFile (c!"BuildCustomizations\\" ++ c!"masm.props"))] :=
    runOf_same (by decide)
  have r5' : RunOf 5 5 [.imported (vcFile (c!"BuildCustomizations\\" ++ c!"marmasm.props"))] :=
    runOf_same (by decide)
  have r13 : RunOf 13 13 [.imported (vcFile c!"Microsoft.Cpp.targets"),
      .imported (vcFile (c!"BuildCustomizations\\" ++ c!"masm.targets"))] :=
    runOf_same (by decide)
  have r13' : RunOf 13 13 [.imported (vcFile (c!"BuildCustomizations\\" ++ c!"marmasm.targets"))] :=
    runOf_same (by decide)
  have r6 : RunOf 6 6 [.extensions g.rulesProps] := runOf_same (by simp [placeOf])
  have r8 : RunOf 8 8 [.macros] := runOf_same (by simp [placeOf])
  have r14 : RunOf 14 14 [.extensionTargets (pySorted strLe g.rulesTargets)] :=
    runOf_same (by simp [placeOf])
  have run := (((((((((((((((r0.append (runOf_map (k := 3) .details g.details fun _ => rfl)
      (by omega) (by omega) (by omega)).append
    (r4 (if t.winphone then some c!"v120_wp81" else toolset)) (by omega) (by omega) (by omega)).append
    r5 (by omega) (by omega) (by omega)).append
    (runOf_if (c!"arm64" ∈ uniquePlatforms (t.configurations.map fun c =>
      (c.1, { platform := globPlatform c.2 })) ∧ t.toolset = c!"target") r5')
      (by omega) (by omega) (by omega)).append
    r6 (by omega) (by omega) (by omega)).append
    (runOf_map (k := 7) .sheets g.sheets fun _ => rfl) (by omega) (by omega) (by omega)).append
    r8 (by omega) (by omega) (by omega)).append
    (runOf_map (k := 9) .properties g.properties fun _ => rfl) (by omega) (by omega) (by omega)).append
    (runOf_map (k := 10) .settings g.settings fun _ => rfl) (by omega) (by omega) (by omega)).append
    (runOf_map (k := 11) .sources g.sources fun _ => rfl) (by omega) (by omega) (by omega)).append
    (runOf_map (k := 12) .references g.references fun _ => rfl) (by omega) (by omega) (by omega)).append
    r13 (by omega) (by omega) (by omega)).append
    (runOf_if (c!"arm64" ∈ uniquePlatforms (t.configurations.map fun c =>
      (c.1, { platform := globPlatform c.2 })) ∧ t.toolset = c!"target") r13')
      (by omega) (by omega) (by omega)).append
    r14 (by omega) (by omega) (by omega)).append
    (runOf_if (t.external = true) (runOf_map (k := 15) .builder g.builder fun _ => rfl))
      (by omega) (by omega) (by omega))
  exact run.1

theorem vcImports_append (a b : List ProjectPart) : vcImports (a ++ b) = vcImports a ++ vcImports b := by
  unfold vcImports; exact List.filterMap_append

theorem vcImports_nil {l : List ProjectPart} (h : ∀ x ∈ l, ∀ p, x ≠ .imported p) : vcImports l = [] := by
  unfold vcImports
  rw [List.filterMap_eq_nil_iff]
  intro x hx
  have := h x hx
  cases x <;> first | rfl | exact absurd rfl (this _)

theorem vcImports_map (f : Str → ProjectPart) (l : List Str) (h : ∀ s p, f s ≠ .imported p) :
    vcImports (l.map f) = [] := by
  apply vcImports_nil
  intro x hx
  obtain ⟨s, _, rfl⟩ := List.mem_map.mp hx
  exact h s

/-- **C103.**  A project imports the files of C++ and of the assembler of Visual Studio, each once; those
of the assembler of ARM just when some configuration is for `arm64` and the target is not for the host. -/
theorem C103_imports {m : SdkMachine} {sdks : List Str} {t : GlobTarget} {d : Option Str}
    {guid name : Str} {g : ProjectGiven} {parts : List ProjectPart}
    (h : projectParts m sdks t d guid name g = some parts) :
    ∃ arm : List Str → List Str,
      ((t.toolset = c!"target" ∧ ∃ c ∈ t.configurations, c.2.platform = some c!"arm64") → arm = id) ∧
      (¬ (t.toolset = c!"target" ∧ ∃ c ∈ t.configurations, c.2.platform = some c!"arm64") →
        arm = fun _ => []) ∧
      vcImports parts =
        [vcPath c!"Microsoft.Cpp.Default.props", vcPath c!"Microsoft.Cpp.props",
          vcPath (c!"BuildCustomizations\\" ++ c!"masm.props")] ++
        arm [vcPath (c!"BuildCustomizations\\" ++ c!"marmasm.props")] ++
        [vcPath c!"Microsoft.Cpp.targets", vcPath (c!"BuildCustomizations\\" ++ c!"masm.targets")] ++
        arm [vcPath (c!"BuildCustomizations\\" ++ c!"marmasm.targets")] := by
  obtain ⟨toolset, globals, h1, h2⟩ := projectParts_eq h
  unfold projectParts at h
  rw [h1, h2] at h
  simp only [Option.bind_eq_bind, Option.bind_some, Option.pure_def, Option.some.injEq] at h
  have hiff : (c!"arm64" ∈ uniquePlatforms (t.configurations.map fun c =>
      (c.1, { platform := globPlatform c.2 })) ∧ t.toolset = c!"target") ↔
      (t.toolset = c!"target" ∧ ∃ c ∈ t.configurations, c.2.platform = some c!"arm64") := by
    unfold uniquePlatforms
    rw [mem_winUpdate]
    simp only [List.map_map, List.mem_map, List.not_mem_nil, false_or, Function.comp]
    have : ∀ c : GlobConfig, globPlatform c = c!"arm64" ↔ c.platform = some c!"arm64" := by
      intro c
      unfold globPlatform
      cases c.platform <;> simp
    constructor
    · rintro ⟨⟨c, hc, he⟩, ht⟩
      exact ⟨ht, c, hc, (this _).mp he⟩
    · rintro ⟨ht, c, hc, he⟩
      exact ⟨⟨c, hc, (this _).mpr he⟩, ht⟩
  have hloc : ∀ x, vcImports (localProperties x) = [] := by
    intro x
    apply vcImports_nil
    intro p hp q
    obtain ⟨n, _, _, rfl⟩ := (mem_localProperties p x).mp hp
    simp
  have hb : vcImports (if t.external = true then g.builder.map ProjectPart.builder else []) = [] := by
    split
    · exact vcImports_map _ _ (by simp)
    · rfl
  have hmaps : ∀ l : List Str, vcImports (l.map .details) = [] ∧ vcImports (l.map .sheets) = [] ∧
      vcImports (l.map .properties) = [] ∧ vcImports (l.map .settings) = [] ∧
      vcImports (l.map .sources) = [] ∧ vcImports (l.map .references) = [] := by
    intro l
    refine ⟨?_, ?_, ?_, ?_, ?_, ?_⟩ <;> exact vcImports_map _ _ (by simp)
  by_cases harm : (t.toolset = c!"target" ∧ ∃ c ∈ t.configurations, c.2.platform = some c!"arm64")
  · refine ⟨id, fun _ => rfl, fun hn => absurd harm hn, ?_⟩
    rw [← h]
    have hc := hiff.mpr harm
    simp only [vcImports_append, hloc, hb, hmaps, if_pos hc]
    simp only [vcImports, List.filterMap_cons, List.filterMap_nil, vcFile, vcPath, id, List.append_nil,
      List.nil_append, List.cons_append]
  · refine ⟨fun _ => [], fun hn => absurd hn harm, fun _ => rfl, ?_⟩
    rw [← h]
    have hc := fun e => harm (hiff.mp e)
    simp only [vcImports_append, hloc, hb, hmaps, if_neg hc]
    simp only [vcImports, List.filterMap_cons, List.filterMap_nil, vcFile, vcPath, List.append_nil,
      List.nil_append, List.cons_append]

theorem globConfiguration_shown (toolset : Str) (c : Str × GlobConfig) :
    ConfigShownAs toolset c (configurationAndPlatform c.1 { platform := globPlatform c.2 } toolset) := by
  unfold ConfigShownAs configurationAndPlatform
  constructor
  · cases hr : rsplit1 '_' c.1 with
    | none => exact Or.inl ⟨rsplit1_none_iff.mp hr, rfl⟩
    | some p =>
      obtain ⟨a, b⟩ := p
      have := rsplit1_some hr
      exact Or.inr ⟨b, this.2, this.1⟩
  · dsimp only
    unfold globPlatform
    cases c.2.platform <;> simp

/-- **C103.**  A project starts with its configurations: one for each of the target, in order of their
names, and with the platforms that they are built for. -/
theorem C103_configurations {m : SdkMachine} {sdks : List Str} {t : GlobTarget} {d : Option Str}
    {guid name : Str} {g : ProjectGiven} {parts : List ProjectPart}
    (h : projectParts m sdks t d guid name g = some parts) :
    ∃ cs shown, parts.head? = some (.configurations shown) ∧ cs.Perm t.configurations ∧
      cs.Pairwise (fun a b => strLe a.1 b.1 = true) ∧ List.Forall₂ (ConfigShownAs t.toolset) cs shown := by
  obtain ⟨toolset, globals, h1, h2⟩ := projectParts_eq h
  unfold projectParts at h
  rw [h1, h2] at h
  simp only [Option.bind_eq_bind, Option.bind_some, Option.pure_def, Option.some.injEq] at h
  refine ⟨pySorted (fun a b => strLe a.1 b.1) t.configurations, globConfigurations t, by rw [← h]; rfl,
    pySorted_perm _ _, pySorted_pairwise (fun a b : Str × GlobConfig => strLe a.1 b.1) (fun a b => strLe_total _ _)
      (fun a b c => strLe_trans _ _ _) _, ?_⟩
  unfold globConfigurations
  rw [List.forall₂_map_right_iff]
  exact List.forall₂_same.mpr fun c _ => globConfiguration_shown _ c

namespace GlobalsExample

/-- The place of a Windows 10 SDK in the registry. -/
def place : Str := c!"HKLM\\Software\\Wow6432Node\\" ++ c!"Microsoft\\Microsoft SDKs\\" ++ c!"Windows\\v10.0"

/-- A machine with some versions of the Windows 10 SDK. -/
def machine (names : List Str) : SdkMachine where
  registry k v := if k = place then
      (if v = c!"InstallationFolder" then some c!"C:\\Kits\\10"
       else if v = c!"ProductVersion" then some c!"10.0" else none)
    else none
  listDir d := if d = c!"C:\\Kits\\10\\include" then some (names ++ [c!"wdf"]) else none
  env v := if v = c!"PROCESSOR_ARCHITECTURE" then some c!"AMD64" else none

/-- An addon, built for `x64` by default and for `arm64`. -/
def target : GlobTarget where
  type := c!"loadable_module"
  toolset := c!"target"
  configurations := [(c!"Release_arm64", { platform := some c!"arm64", toolset := some c!"v143" }),
    (c!"Debug", { platform := some c!"x64" })]
  defaultConfiguration := c!"Debug"

/-- The parts made elsewhere. -/
def given : ProjectGiven where
  details := [c!"type"]
  sheets := [c!"user"]
  properties := [c!"outdir"]
  settings := [c!"flags"]
  sources := [c!"a.cc"]
  references := []
  rulesProps := []
  rulesTargets := []
  builder := []

/-- Names of files are not empty on this machine. -/
theorem machine_sane (names : List Str) (h : [] ∉ names) : SaneNames (machine names) := by
  intro d l hl
  unfold machine at hl
  dsimp only at hl
  split at hl
  · cases hl
    simp [h]
  · exact absurd hl (by simp)

/-- Visual Studio 2022 works with two SDKs, the newest first; an old one needs none. -/
example : compatibleSdks c!"2022" = [c!"v10.0", c!"v8.1"] ∧ compatibleSdks c!"2015" = [] := by decide

/-- The newest SDK of the machine. -/
example : SdkOf (machine [c!"10.0.19041.0", c!"10.0.22621.0"]) (compatibleSdks c!"2022") {}
    c!"10.0.22621.0" := (C103_sdk _ _ _ _).mp (by decide)

/-- The SDK that node-gyp names. -/
example : SdkOf (machine [c!"10.0.22621.0"]) (compatibleSdks c!"2022")
    { targetVersion := some c!"10.0.19041.0" } c!"10.0.19041.0" := (C103_sdk _ _ _ _).mp (by decide)

/-- A name that does not begin with a digit is as none. -/
example : SdkOf (machine [c!"10.0.22621.0"]) (compatibleSdks c!"2022")
    { targetVersion := some c!"latest" } c!"10.0.22621.0" := (C103_sdk _ _ _ _).mp (by decide)

/-- The properties of a project. -/
example : globalProperties (machine [c!"10.0.22621.0"]) (compatibleSdks c!"2022") target c!"{GUID}"
    c!"addon.vcxproj" = some [(c!"ProjectGuid", c!"{GUID}"), (c!"Keyword", c!"Win32Proj"),
      (c!"RootNamespace", c!"addon"), (c!"IgnoreWarnCompileDuplicatedFilename", c!"true"),
      (c!"PreferredToolArchitecture", c!"x64"), (c!"WindowsTargetPlatformVersion", c!"10.0.22621.0")] := by
  decide +kernel

/-- No SDK of the machine has headers. -/
example : globalProperties (machine []) (compatibleSdks c!"2022") target c!"{GUID}" c!"addon.vcxproj" =
    none := by decide +kernel

/-- A whole project. -/
example : (projectParts (machine [c!"10.0.22621.0"]) (compatibleSdks c!"2022") target (some c!"v143")
    c!"{GUID}" c!"addon.vcxproj" given).map (fun l => (l.length, l.head?, l[4]?, vcImports l)) =
    some (18, some (.configurations [(c!"Debug", c!"x64"), (c!"Release", c!"arm64")]),
      some (.toolset c!"v143"),
      [vcPath c!"Microsoft.Cpp.Default.props", vcPath c!"Microsoft.Cpp.props",
        vcPath (c!"BuildCustomizations\\" ++ c!"masm.props"),
        vcPath (c!"BuildCustomizations\\" ++ c!"marmasm.props"),
        vcPath c!"Microsoft.Cpp.targets", vcPath (c!"BuildCustomizations\\" ++ c!"masm.targets"),
        vcPath (c!"BuildCustomizations\\" ++ c!"marmasm.targets")]) := by
  decide +kernel

/-- The tool set is that of the default configuration only: `v143` of the other one does not matter. -/
example : ¬ ToolsetOf target none c!"v143" := by
  unfold ToolsetOf
  rw [if_neg (by decide), if_neg (by decide)]
  rintro ⟨_, c, hc, h⟩
  have : aget target.configurations target.defaultConfiguration = some { platform := some c!"x64" } := by
    decide
  rw [this] at hc
  cases hc
  rcases h with h | ⟨_, h⟩ <;> exact absurd h (by simp)

end GlobalsExample

/-- **C103, the order of text.**  Versions are compared as text: of `10.0.9600.0` and `10.0.22621.0` the
older one is taken. -/
theorem C103_text_order_witness :
    SdkOf (GlobalsExample.machine [c!"10.0.9600.0", c!"10.0.22621.0"]) (compatibleSdks c!"2022") {}
      c!"10.0.9600.0" := (C103_sdk _ _ _ _).mp (by decide)

/-- **C103, two versions.**  A target that names a version for all configurations has a project that names
two, and MSBuild takes the second, the one found on the machine. -/
theorem C103_twice_witness :
    (globalProperties (GlobalsExample.machine [c!"10.0.22621.0"]) (compatibleSdks c!"2022")
      { GlobalsExample.target with targetPlatform := c!"10.0.17763.0" } c!"{GUID}" c!"addon.vcxproj").map
      (valuesOf c!"WindowsTargetPlatformVersion") = some [c!"10.0.17763.0", c!"10.0.22621.0"] := by
  decide +kernel

end Gyp
