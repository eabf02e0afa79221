import Verif.Spec.MsvsFinal
import Verif.Proofs.MsvsFinal
import Verif.Proofs.MsvsDetails
/-
C88: in a Visual Studio project every tool gets, in each configuration, the settings of the target.
-/
namespace Gyp
open Spec

/-! ### The calls -/

/-- `new` is what a call leaves of `old`, and the call is not refused. -/
def CallRel (c : SCall) (v : GVal) (old new : Option GVal) : Prop :=
  callConflict old c.setting v c.onlyIfUnset c.evenEmpty = false ∧
    new = callAfter old c.setting v c.onlyIfUnset c.evenEmpty

theorem unset_iff (v : GVal) : Unset (some v) ↔ v.isEmpty = true := by
  cases v with
  | text s => simp [Unset, GVal.isEmpty]
  | list l => simp [Unset, GVal.isEmpty]

theorem appended_iff {T N : Str} {o : SVal} {l l' : List Str} (hN : N ≠ c!"CompileAsWinRT")
    (hl : (if pathSetting N then l'.map (replaceChar '/' c!"\\") else l') = l) (old new : Option GVal) :
    CallRel ⟨T, N, o, false, false⟩ (.list l') old new ↔ Appended l old new := by
  have hadd : addedValue N (.list l') = .list l := by
    unfold addedValue
    rw [← hl]
    split <;> rfl
  have hnil : l' = [] ↔ l = [] := by
    rw [← hl]
    split <;> simp
  unfold CallRel callConflict callAfter callActive
  simp only [hadd, hN, Bool.false_or, ne_eq, not_false_eq_true, decide_true, Bool.and_true, Bool.not_false,
    GVal.isEmpty]
  by_cases h : l = []
  · have h' := hnil.mpr h
    simp only [h', decide_true, Bool.not_true, Bool.false_and, true_and, Bool.false_eq_true, if_false]
    constructor
    · rintro rfl
      exact .nothing _ h
    · intro ha
      cases ha with
      | nothing _ _ => rfl
      | onto m => rw [h, List.append_nil]
      | set _ hne _ => exact absurd h hne
  · have h' : ¬ l' = [] := fun e => h (hnil.mp e)
    simp only [h', decide_false, Bool.not_false, Bool.true_and, if_true]
    cases old with
    | none =>
      simp only [true_and]
      constructor
      · rintro rfl
        exact .set _ h (Or.inl rfl)
      · intro ha
        cases ha with
        | nothing _ he => exact absurd he h
        | set _ _ _ => rfl
    | some v =>
      cases v with
      | text s =>
        simp only [Bool.and_true]
        by_cases hs : s = []
        · subst hs
          simp only [decide_true, Bool.not_true, true_and, if_true]
          constructor
          · rintro rfl
            exact .set _ h (Or.inr (Or.inl rfl))
          · intro ha
            cases ha with
            | nothing _ he => exact absurd he h
            | set _ _ _ => rfl
        · simp only [hs, decide_false, Bool.not_false, Bool.true_eq_false, false_and, false_iff]
          intro ha
          cases ha with
          | nothing _ he => exact absurd he h
          | set _ _ hu =>
            rw [unset_iff] at hu
            simp [GVal.isEmpty, hs] at hu
      | list m =>
        simp only [Bool.and_false, true_and, Bool.false_eq_true, if_false]
        by_cases hm : m = []
        · subst hm
          simp only [decide_true, if_true]
          constructor
          · rintro rfl
            exact .set _ h (Or.inr (Or.inr rfl))
          · intro ha
            cases ha with
            | nothing _ he => exact absurd he h
            | onto _ => rfl
            | set _ _ _ => rfl
        · simp only [hm, decide_false, Bool.false_eq_true, if_false]
          constructor
          · rintro rfl
            exact .onto m
          · intro ha
            cases ha with
            | nothing _ he => exact absurd he h
            | onto _ => rfl
            | set _ _ hu =>
              rw [unset_iff] at hu
              simp [GVal.isEmpty, hm] at hu

theorem alwaysAppended_iff {T N : Str} {o : SVal} {l l' : List Str} (hN : N ≠ c!"CompileAsWinRT")
    (hl : (if pathSetting N then l'.map (replaceChar '/' c!"\\") else l') = l) (old new : Option GVal) :
    CallRel ⟨T, N, o, false, true⟩ (.list l') old new ↔ AlwaysAppended l old new := by
  have hadd : addedValue N (.list l') = .list l := by
    unfold addedValue
    rw [← hl]
    split <;> rfl
  unfold CallRel callConflict callAfter callActive
  simp only [hadd, hN, Bool.true_or, ne_eq, not_false_eq_true, decide_true, Bool.and_true, Bool.not_false, if_true,
    Bool.true_and]
  cases old with
  | none =>
    simp only [true_and]
    constructor
    · rintro rfl
      exact .set _ (Or.inl rfl)
    · intro ha
      cases ha with
      | set _ _ => rfl
  | some v =>
    cases v with
    | text s =>
      simp only [Bool.and_true, GVal.isEmpty]
      by_cases hs : s = []
      · subst hs
        simp only [decide_true, Bool.not_true, true_and, if_true]
        constructor
        · rintro rfl
          exact .set _ (Or.inr (Or.inl rfl))
        · intro ha
          cases ha with
          | set _ _ => rfl
      · simp only [hs, decide_false, Bool.not_false, Bool.true_eq_false, false_and, false_iff]
        intro ha
        cases ha with
        | set _ hu =>
          rw [unset_iff] at hu
          simp [GVal.isEmpty, hs] at hu
    | list m =>
      simp only [Bool.and_false, true_and, Bool.false_eq_true, if_false, GVal.isEmpty]
      by_cases hm : m = []
      · subst hm
        simp only [decide_true, if_true]
        constructor
        · rintro rfl
          exact .set _ (Or.inr (Or.inr rfl))
        · intro ha
          cases ha with
          | onto _ => rfl
          | set _ _ => rfl
      · simp only [hm, decide_false, Bool.false_eq_true, if_false]
        constructor
        · rintro rfl
          exact .onto m
        · intro ha
          cases ha with
          | onto _ => rfl
          | set _ hu =>
            rw [unset_iff] at hu
            simp [GVal.isEmpty, hm] at hu

theorem textSet_iff {T N : Str} {o : SVal} {s : Str} (hN : N ≠ c!"CompileAsWinRT") (hp : pathSetting N = false)
    (old new : Option GVal) :
    CallRel ⟨T, N, o, false, false⟩ (.text s) old new ↔ TextSet s old new := by
  have hadd : addedValue N (.text s) = .text s := by
    unfold addedValue
    rw [hp]
    rfl
  unfold CallRel callConflict callAfter callActive
  simp only [hadd, hN, Bool.false_or, ne_eq, not_false_eq_true, decide_true, Bool.and_true, Bool.not_false]
  have hte : (GVal.text s).isEmpty = decide (s = []) := rfl
  rw [hte]
  by_cases h : s = []
  · simp only [h, decide_true, Bool.not_true, Bool.false_and, true_and, Bool.false_eq_true, if_false]
    constructor
    · rintro rfl
      exact .nothing _ rfl
    · intro ha
      cases ha with
      | nothing _ => rfl
      | set hne _ => exact absurd rfl hne
  · simp only [h, decide_false, Bool.not_false, Bool.true_and, if_true]
    cases old with
    | none =>
      simp only [true_and]
      constructor
      · rintro rfl
        exact .set _ h (Or.inl rfl)
      · intro ha
        cases ha with
        | nothing he => exact absurd he h
        | set _ _ => rfl
    | some v =>
      have hm : (match v, (GVal.text s) with | .list _, .list _ => false | _, _ => true) = true := by
        cases v <;> rfl
      by_cases hv : v.isEmpty = true
      · simp only [hv, Bool.not_true, true_and, if_true]
        constructor
        · rintro rfl
          exact .set _ h ((unset_iff v).mpr hv)
        · intro ha
          cases ha with
          | nothing he => exact absurd he h
          | set _ _ => rfl
      · have hx : ¬ TextSet s (some v) new := by
          intro ha
          cases ha with
          | nothing he => exact h he
          | set _ hu => exact hv ((unset_iff v).mp hu)
        simp only [Bool.not_eq_true] at hv
        simp only [hx, iff_false, not_and]
        intro hc
        cases v <;> simp [hv] at hc

theorem textDefault_iff {T N : Str} {o : SVal} {s : Str} (hN : N ≠ c!"CompileAsWinRT") (hp : pathSetting N = false)
    (old new : Option GVal) :
    CallRel ⟨T, N, o, true, false⟩ (.text s) old new ↔ TextDefault s old new := by
  have hadd : addedValue N (.text s) = .text s := by
    unfold addedValue
    rw [hp]
    rfl
  unfold CallRel callConflict callAfter callActive
  simp only [hadd, hN, Bool.false_or, ne_eq, not_false_eq_true, decide_true, Bool.and_true, Bool.not_true,
    Bool.and_false, Bool.false_and, true_and]
  have hte : (GVal.text s).isEmpty = decide (s = []) := rfl
  rw [hte]
  by_cases h : s = []
  · simp only [h, decide_true, Bool.not_true, Bool.false_eq_true, if_false]
    constructor
    · rintro rfl
      exact .nothing _ rfl
    · intro ha
      cases ha with
      | nothing _ => rfl
      | given _ => rfl
      | set hne _ => exact absurd rfl hne
  · simp only [h, decide_false, Bool.not_false, if_true]
    cases old with
    | none =>
      constructor
      · rintro rfl
        exact .set _ h (Or.inl rfl)
      · intro ha
        cases ha with
        | nothing he => exact absurd he h
        | given hg => exact absurd (Or.inl rfl) hg
        | set _ _ => rfl
    | some v =>
      by_cases hv : v.isEmpty = true
      · simp only [hv, if_true]
        constructor
        · rintro rfl
          exact .set _ h ((unset_iff v).mpr hv)
        · intro ha
          cases ha with
          | nothing he => exact absurd he h
          | given hg => exact absurd ((unset_iff v).mpr hv) hg
          | set _ _ => rfl
      · simp only [hv, Bool.false_eq_true, if_false]
        constructor
        · rintro rfl
          exact .given _ fun hu => hv ((unset_iff v).mp hu)
        · intro ha
          cases ha with
          | nothing he => exact absurd he h
          | given _ => rfl
          | set _ hu => exact absurd ((unset_iff v).mp hu) hv

/-! ### What is worked out -/

theorem libraryName_iff (entry name : Str) : LibraryName entry name ↔ name = libraryFile entry := by
  have hext : ∀ b : Str, (∃ ext, HasExtension b ext) ↔ (winSplitext b).2 ≠ [] := by
    intro b
    constructor
    · rintro ⟨ext, h⟩
      have hne : ext ≠ [] := by
        obtain ⟨_, _, e, _, rfl, _⟩ := h
        simp
      rw [(winSplitext_ext b ext hne).mpr h]
      exact hne
    · intro h
      exact ⟨_, (winSplitext_ext b _ h).mp rfl⟩
  have hname : ∀ b : Str, ((∃ ext, HasExtension b ext) ∧ name = b ∨
      (¬ ∃ ext, HasExtension b ext) ∧ name = b ++ c!".lib") ↔
      name = if (winSplitext b).2 = [] then b ++ c!".lib" else b := by
    intro b
    rw [hext]
    by_cases h : (winSplitext b).2 = [] <;> simp [h]
  unfold LibraryName
  simp only [hname]
  unfold libraryFile
  simp only
  by_cases hl : startsWith entry c!"-l" = true
  · have hp : c!"-l" <+: entry := List.isPrefixOf_iff_prefix.mp hl
    obtain ⟨rest, hr⟩ := hp
    rw [if_pos hl]
    constructor
    · rintro ⟨base, hb | ⟨hb, _⟩, hn⟩
      · rw [hb]
        exact hn
      · exact absurd ⟨rest, hr⟩ hb
    · intro hn
      refine ⟨rest, Or.inl hr.symm, ?_⟩
      rw [← hr] at hn
      exact hn
  · have hp : ¬ c!"-l" <+: entry := fun h => hl (List.isPrefixOf_iff_prefix.mpr h)
    rw [if_neg hl]
    constructor
    · rintro ⟨base, hb | ⟨_, rfl⟩, hn⟩
      · exact absurd ⟨base, hb.symm⟩ hp
      · exact hn
    · intro hn
      exact ⟨entry, Or.inr ⟨hp, rfl⟩, hn⟩

theorem forall₂_fun {α β : Type} {R : α → β → Prop} {f : α → β} (h : ∀ a b, R a b ↔ b = f a) (l : List α) (m : List β) :
    List.Forall₂ R l m ↔ m = l.map f := by
  induction l generalizing m with
  | nil => simp
  | cons a l ih =>
    cases m with
    | nil => simp
    | cons b m => simp [h, ih]

theorem forall₂_mapM {α β : Type} {f : α → Option β} (l : List α) (m : List β) :
    List.Forall₂ (fun a b => f a = some b) l m ↔ l.mapM f = some m := by
  induction l generalizing m with
  | nil => simp [eq_comm]
  | cons a l ih =>
    rw [List.mapM_cons]
    cases m with
    | nil => cases f a <;> cases l.mapM f <;> simp
    | cons b m =>
      rw [List.forall₂_cons, ih]
      cases hf : f a with
      | none => simp
      | some y =>
        cases hl : l.mapM f with
        | none => simp
        | some r => simp

theorem defines_iff (c : WinSettings) (defs : List Str) :
    List.Forall₂ (fun d e => EscapeCppDefineForMSBuild d = some e)
      (c.defines.filter fun d => decide (¬ (c.converted = true ∧ d = c!"_HAS_TR1=0"))) defs ↔
      finalDefines c = some defs := by
  rw [forall₂_mapM]
  unfold finalDefines
  cases c.converted with
  | true => simp
  | false => simp

theorem product_iff (w : WinPaths) (t : WinLinked) (tool file : Str) :
    Product w t tool file ↔ outputFileAndTool w t = (file, tool) := by
  have hlink : t.type ∈ linkedKinds → aget outputFileMap t.type = some (c!"Link", c!"$(OutDir)") := by
    intro h
    simp only [linkedKinds, List.mem_cons, List.not_mem_nil, or_false] at h
    rcases h with h | h | h | h <;> rw [h] <;> decide
  have hlib : aget outputFileMap c!"static_library" = some (c!"Lib", c!"$(OutDir)lib\\") := by decide
  have hnone : t.type ∉ c!"static_library" :: linkedKinds → aget outputFileMap t.type = none := by
    intro h
    simp only [linkedKinds, List.mem_cons, List.not_mem_nil, or_false, not_or] at h
    obtain ⟨h5, h1, h2, h3, h4⟩ := h
    simp only [outputFileMap, aget, if_neg (Ne.symm h1), if_neg (Ne.symm h2), if_neg (Ne.symm h3),
      if_neg (Ne.symm h4), if_neg (Ne.symm h5)]
  unfold Product outputFileAndTool
  by_cases hk : t.type ∈ c!"static_library" :: linkedKinds
  swap
  · rw [hnone hk]
    constructor
    · rintro (⟨_, rfl, rfl⟩ | ⟨_, dir, (⟨h, _⟩ | ⟨h, _⟩), _⟩)
      · rfl
      · exact absurd (List.mem_cons_of_mem _ h) hk
      · exact absurd (h ▸ List.mem_cons_self ..) hk
    · intro h
      cases h
      exact Or.inl ⟨Or.inr hk, rfl, rfl⟩
  have hsome : ∃ e, aget outputFileMap t.type = some e := by
    rcases List.mem_cons.mp hk with h | h
    · rw [h]; exact ⟨_, hlib⟩
    · exact ⟨_, hlink h⟩
  cases ha : t.autoOutput with
  | false =>
    obtain ⟨⟨a, b⟩, he⟩ := hsome
    rw [he]
    constructor
    · rintro (⟨_, rfl, rfl⟩ | ⟨h, _⟩)
      · rfl
      · cases h
    · intro h
      cases h
      exact Or.inl ⟨Or.inl rfl, rfl, rfl⟩
  | true =>
    by_cases hl : t.type ∈ linkedKinds
    · rw [hlink hl]
      simp only [if_true, ite_self]
      constructor
      · rintro (⟨h | h, _⟩ | ⟨_, dir, (⟨_, rfl, rfl⟩ | ⟨h, _⟩), rfl⟩)
        · cases h
        · exact absurd hk h
        · rfl
        · rw [h] at hl
          exact absurd hl (by decide)
      · intro h
        cases h
        exact Or.inr ⟨trivial, _, Or.inl ⟨hl, rfl, rfl⟩, rfl⟩
    · have hs : t.type = c!"static_library" := by
        rcases List.mem_cons.mp hk with h | h
        · exact h
        · exact absurd h hl
      rw [hs, hlib]
      simp only [if_true]
      constructor
      · rintro (⟨h | h, _⟩ | ⟨_, dir, (⟨h, _⟩ | ⟨_, rfl, rfl⟩), rfl⟩)
        · cases h
        · exact absurd (List.mem_cons_self ..) h
        · exact absurd h (by decide)
        · rfl
      · intro h
        cases h
        exact Or.inr ⟨trivial, _, Or.inr ⟨trivial, rfl, rfl⟩, rfl⟩

theorem endsWith_def (s : Str) : endsWith s c!".def" = true ↔ c!".def" <:+ s := List.isSuffixOf_iff_suffix

theorem definition_iff (w : WinPaths) (t : WinLinked) (file : Str) :
    DefinitionFile w t file ↔ moduleDefinition w t = some file := by
  unfold DefinitionFile moduleDefinition
  have hk : t.type ∈ linkedKinds ↔
      t.type ∈ [c!"shared_library", c!"loadable_module", c!"executable", c!"windows_driver"] := by
    simp only [linkedKinds, List.mem_cons, List.not_mem_nil, or_false]
    tauto
  by_cases h : t.type ∈ linkedKinds
  · rw [if_pos (hk.mp h)]
    simp only [h, not_true_eq_false, false_or, true_and]
    match hf : t.sources.filter (endsWith · c!".def") with
    | [] =>
      have hno : ∀ s ∈ t.sources, ¬ c!".def" <:+ s := fun s hs hd => by
        have : s ∈ t.sources.filter (endsWith · c!".def") := List.mem_filter.mpr ⟨hs, (endsWith_def s).mpr hd⟩
        rw [hf] at this
        cases this
      simp only [Option.some.injEq]
      constructor
      · rintro (⟨rfl, _⟩ | ⟨pre, f, post, hs, hd, _⟩)
        · rfl
        · exact absurd hd (hno f (by rw [hs]; simp))
      · rintro rfl
        exact Or.inl ⟨rfl, hno⟩
    | [f] =>
      simp only [Option.some.injEq]
      have hmem : f ∈ t.sources ∧ c!".def" <:+ f := by
        have : f ∈ t.sources.filter (endsWith · c!".def") := by rw [hf]; simp
        rw [List.mem_filter] at this
        exact ⟨this.1, (endsWith_def f).mp this.2⟩
      constructor
      · rintro (⟨_, hno⟩ | ⟨pre, g, post, hs, hd, hrest, rfl⟩)
        · exact absurd hmem.2 (hno f hmem.1)
        · have : g ∈ t.sources.filter (endsWith · c!".def") :=
            List.mem_filter.mpr ⟨by rw [hs]; simp, (endsWith_def g).mpr hd⟩
          rw [hf] at this
          rw [List.mem_singleton.mp this]
      · intro he
        obtain ⟨pre, post, hs, hpre, hpost⟩ : ∃ pre post, t.sources = pre ++ f :: post ∧
            (∀ s ∈ pre, ¬ endsWith s c!".def" = true) ∧ ∀ s ∈ post, ¬ endsWith s c!".def" = true := by
          rw [List.filter_eq_cons_iff] at hf
          obtain ⟨l1, l2, h1, h2, _, h4⟩ := hf
          exact ⟨l1, l2, h1, h2, by simpa using h4⟩
        refine Or.inr ⟨pre, f, post, hs, hmem.2, ?_, he.symm⟩
        intro s hsm hd
        rcases List.mem_append.mp hsm with hsm | hsm
        · exact hpre s hsm ((endsWith_def s).mpr hd)
        · exact hpost s hsm ((endsWith_def s).mpr hd)
    | a :: b :: l =>
      simp only [reduceCtorEq, iff_false]
      rintro (⟨_, hno⟩ | ⟨pre, g, post, hs, hd, hrest, _⟩)
      · have : a ∈ t.sources.filter (endsWith · c!".def") := by rw [hf]; simp
        rw [List.mem_filter] at this
        exact hno a this.1 ((endsWith_def a).mp this.2)
      · have hz : ∀ l : List Str, (∀ s ∈ l, ¬ c!".def" <:+ s) → l.filter (endsWith · c!".def") = [] := by
          intro l hl
          rw [List.filter_eq_nil_iff]
          exact fun s hsm he => hl s hsm ((endsWith_def s).mp he)
        rw [hs, List.filter_append, List.filter_cons, if_pos ((endsWith_def g).mpr hd),
          hz pre fun s h => hrest s (List.mem_append_left _ h), hz post fun s h => hrest s (List.mem_append_right _ h)] at hf
        simp at hf
  · rw [if_neg (fun h' => h (hk.mpr h'))]
    simp [h, eq_comm]

theorem winBasename_iff (p h : Str) : h = winBasename p ↔ ∃ dir, p = dir ++ h ∧ '/' ∉ h ∧ '\\' ∉ h ∧
    (dir = [] ∨ dir.getLast? = some '\\' ∨ dir.getLast? = some '/') := by
  unfold winBasename
  constructor
  · rintro rfl
    have hswap : (fun c : Char => decide (c ≠ '/') && decide (c ≠ '\\')) = fun c => c ≠ '\\' && c ≠ '/' := by
      funext c
      exact Bool.and_comm _ _
    obtain ⟨dir, h1, h2⟩ := takeWhile_last p
    rw [hswap]
    refine ⟨dir, h1, ?_, ?_, h2⟩ <;>
    · intro hm
      have h := List.all_takeWhile (p := fun c : Char => c ≠ '\\' && c ≠ '/') (l := p.reverse)
      rw [List.all_eq_true] at h
      have := h _ (List.mem_reverse.mp hm)
      simp at this
  · rintro ⟨dir, rfl, h1, h2, hd⟩
    rw [List.reverse_append, List.takeWhile_append_of_pos]
    · have : (dir.reverse.takeWhile fun c => c ≠ '/' && c ≠ '\\') = [] := by
        rcases hd with rfl | hd | hd
        · rfl
        · obtain ⟨l, rfl⟩ := List.getLast?_eq_some_iff.mp hd
          simp
        · obtain ⟨l, rfl⟩ := List.getLast?_eq_some_iff.mp hd
          simp
      rw [this]
      simp
    · intro c hc
      have hc := List.mem_reverse.mp hc
      have e1 : c ≠ '/' := fun e => h1 (e ▸ hc)
      have e2 : c ≠ '\\' := fun e => h2 (e ▸ hc)
      simp [e1, e2]

theorem header_iff (c : WinSettings) (h : Str) :
    HeaderName c h ↔ h = if c.precompiledHeader = [] then [] else headerName c := by
  unfold HeaderName headerName
  by_cases hp : c.precompiledHeader = []
  · simp [hp]
  · rw [if_neg hp, if_neg hp]
    split
    · rfl
    · rw [winBasename_iff]

/-! ### All calls -/

/-- The calls, with those that change nothing. -/
def fullCalls (t : WinLinked) (c : WinSettings) (tool out imp defFile : Str) : List SCall :=
  [⟨c!"ClCompile", c!"AdditionalIncludeDirectories", .obj (.made c!"include_dirs"), false, false⟩,
   ⟨c!"Midl", c!"AdditionalIncludeDirectories", .obj (.made c!"midl_include_dirs"), false, false⟩,
   ⟨c!"ResourceCompile", c!"AdditionalIncludeDirectories", .obj (.made c!"resource_include_dirs"), false, false⟩,
   ⟨c!"Link", c!"AdditionalDependencies", .obj (.made c!"libraries"), false, true⟩,
   ⟨c!"Link", c!"AdditionalLibraryDirectories", .obj (.made c!"library_dirs"), false, false⟩] ++
  [⟨tool, c!"OutputFile", .text out, true, false⟩] ++
  [⟨tool, c!"TargetExt", .text (if t.productExtension = [] then [] else c!"." ++ t.productExtension), true, false⟩] ++
  [⟨c!"ClCompile", c!"PreprocessorDefinitions", .obj (.made c!"defines"), false, false⟩,
   ⟨c!"ResourceCompile", c!"PreprocessorDefinitions", .obj (.made c!"defines"), false, false⟩,
   ⟨c!"ClCompile", c!"DisableSpecificWarnings", .obj (.made c!"disabled_warnings"), false, false⟩] ++
  [⟨c!"ClCompile", c!"PrecompiledHeader", .text (if c.precompiledHeader = [] then c!"NotUsing" else c!"Use"), false, false⟩,
   ⟨c!"ClCompile", c!"PrecompiledHeaderFile", .text (if c.precompiledHeader = [] then [] else headerName c), false, false⟩,
   ⟨c!"ClCompile", c!"ForcedIncludeFiles", if c.precompiledHeader = [] then .text [] else .obj (.made c!"precompiled_header"),
     false, false⟩] ++
  [⟨c!"ClCompile", c!"CompileAsWinRT", .text c!"false", false, false⟩] ++
  [⟨[], c!"IgnoreImportLibrary", .text imp, false, false⟩] ++
  [⟨c!"Link", c!"ModuleDefinitionFile", .text defFile, false, false⟩] ++
  [⟨c!"PreBuildEvent", c!"Command", .text c.prebuild, false, false⟩] ++
  [⟨c!"PostBuildEvent", c!"Command", .text c.postbuild, false, false⟩]

theorem toolCall_empty (t : STools) (T N : Str) (only : Bool) : toolCall t ⟨T, N, .text [], only, false⟩ = some t := rfl

/-- The text for import libraries, unless both are asked for. -/
def importText (t : WinLinked) : Str :=
  if t.type = c!"loadable_module" then c!"true" else if t.requiresImportLibrary then c!"false" else []

/-- The calls have the same effect. -/
def SameCalls (A B : List SCall) : Prop := ∀ s, A.foldlM toolCall s = B.foldlM toolCall s

theorem sameCalls_append {A A' B B' : List SCall} (h1 : SameCalls A A') (h2 : SameCalls B B') :
    SameCalls (A ++ B) (A' ++ B') := by
  intro s
  rw [List.foldlM_append, List.foldlM_append, h1 s]
  exact congrArg _ (funext h2)

theorem optional_call (T N s : Str) (only : Bool) :
    SameCalls (if s = [] then [] else [⟨T, N, .text s, only, false⟩]) [⟨T, N, .text s, only, false⟩] := by
  intro t
  by_cases h : s = []
  · subst h
    rfl
  · rw [if_neg h]

theorem full_calls (w : WinPaths) (t : WinLinked) (c : WinSettings) (defFile : Str)
    (hb : ¬ (t.requiresImportLibrary = true ∧ t.type = c!"loadable_module")) :
    SameCalls (settingCalls w t c defFile)
      (fullCalls t c (outputFileAndTool w t).2 (outputFileAndTool w t).1 (importText t) defFile) := by
  have same : ∀ A, SameCalls A A := fun A s => rfl
  unfold settingCalls fullCalls
  refine sameCalls_append (sameCalls_append (sameCalls_append ?_ (optional_call _ _ _ _)) (optional_call _ _ _ _)) (optional_call _ _ _ _)
  rw [List.append_assoc]
  refine sameCalls_append (sameCalls_append (sameCalls_append (sameCalls_append (sameCalls_append (sameCalls_append
    (same _) (optional_call _ _ _ _)) (optional_call _ _ _ _)) (same _)) ?_) (same _)) ?_
  · intro s
    by_cases hp : c.precompiledHeader = []
    · simp only [hp, if_true]
      rfl
    · simp only [hp, if_false]
  · intro s
    unfold importText
    by_cases h1 : t.type = c!"loadable_module"
    · have h2 : t.requiresImportLibrary = false := by
        cases h : t.requiresImportLibrary
        · rfl
        · exact absurd ⟨h, h1⟩ hb
      simp only [h1, h2, if_true, Bool.false_eq_true, if_false]
      rfl
    · simp only [h1, if_false]
      cases t.requiresImportLibrary <;> rfl

theorem full_keys (t : WinLinked) (c : WinSettings) (tool out imp defFile : Str) :
    (fullCalls t c tool out imp defFile).map (fun x => (x.tool, x.setting)) =
      [(c!"ClCompile", c!"AdditionalIncludeDirectories"), (c!"Midl", c!"AdditionalIncludeDirectories"),
       (c!"ResourceCompile", c!"AdditionalIncludeDirectories"), (c!"Link", c!"AdditionalDependencies"),
       (c!"Link", c!"AdditionalLibraryDirectories"), (tool, c!"OutputFile"), (tool, c!"TargetExt"),
       (c!"ClCompile", c!"PreprocessorDefinitions"), (c!"ResourceCompile", c!"PreprocessorDefinitions"),
       (c!"ClCompile", c!"DisableSpecificWarnings"), (c!"ClCompile", c!"PrecompiledHeader"),
       (c!"ClCompile", c!"PrecompiledHeaderFile"), (c!"ClCompile", c!"ForcedIncludeFiles"),
       (c!"ClCompile", c!"CompileAsWinRT"), ([], c!"IgnoreImportLibrary"), (c!"Link", c!"ModuleDefinitionFile"),
       (c!"PreBuildEvent", c!"Command"), (c!"PostBuildEvent", c!"Command")] := rfl

theorem product_tool (w : WinPaths) (t : WinLinked) :
    (outputFileAndTool w t).2 ∈ [[], c!"Link", c!"Lib"] := by
  have h := (product_iff w t (outputFileAndTool w t).2 (outputFileAndTool w t).1).mpr rfl
  rcases h with ⟨_, h, _⟩ | ⟨_, _, (⟨_, h, _⟩ | ⟨_, h, _⟩), _⟩ <;> rw [h] <;> simp

theorem full_keys_nodup (w : WinPaths) (t : WinLinked) (c : WinSettings) (out imp defFile : Str) :
    ((fullCalls t c (outputFileAndTool w t).2 out imp defFile).map fun x => (x.tool, x.setting)).Nodup := by
  rw [full_keys]
  have h := product_tool w t
  simp only [List.mem_cons, List.not_mem_nil, or_false] at h
  rcases h with h | h | h <;> rw [h] <;> decide

theorem full_values (t : WinLinked) (c : WinSettings) (tool out imp defFile : Str) :
    ∀ x ∈ fullCalls t c tool out imp defFile, ∀ o, x.value = .obj o → ∃ n, o = .made n := by
  unfold fullCalls
  simp only [List.cons_append, List.nil_append, List.forall_mem_cons, reduceCtorEq, false_imp_iff, implies_true,
    SVal.obj.injEq, List.not_mem_nil, true_and, and_true, forall_eq', exists_eq', SObj.made.injEq]
  intro o h
  split at h
  · cases h
  · cases h
    exact ⟨_, rfl⟩

/-- What is given, as a function. -/
def givenSettings (c : WinSettings) (T N : Str) : Option GVal := (aget c.given T).bind fun d => aget d N

theorem keys_moved (A B C : List (Str × Str)) (o e v x : Str × Str) :
    x ∉ A ++ (o :: e :: (B ++ v :: C)) ↔ x ∉ v :: o :: e :: (A ++ (B ++ C)) := by
  simp only [List.mem_append, List.mem_cons]
  tauto

theorem settingsOf_iff (w : WinPaths) (t : WinLinked) (c : WinSettings) {defs : List Str} {defFile : Str}
    (hd : finalDefines c = some defs) (hm : moduleDefinition w t = some defFile)
    (hb : ¬ (t.requiresImportLibrary = true ∧ t.type = c!"loadable_module")) (given got : Str → Str → Option GVal) :
    SettingsOf w t c given got ↔
      (∀ x ∈ fullCalls t c (outputFileAndTool w t).2 (outputFileAndTool w t).1 (importText t) defFile,
        CallRel x ((loadSettings c.given (madeLists w t c defs)).deref x.value)
          (given x.tool x.setting) (got x.tool x.setting)) ∧
      ∀ T N, (∀ x ∈ fullCalls t c (outputFileAndTool w t).2 (outputFileAndTool w t).1 (importText t) defFile,
        (x.tool, x.setting) ≠ (T, N)) → got T N = given T N := by
  have hwin : ∀ (old new : Option GVal), CallRel ⟨c!"ClCompile", c!"CompileAsWinRT", .text c!"false", false, false⟩
      (.text c!"false") old new ↔ new = old := by
    intro old new
    unfold CallRel callConflict callAfter callActive
    simp
  have hkeys : ∀ T N, (∀ x ∈ fullCalls t c (outputFileAndTool w t).2 (outputFileAndTool w t).1 (importText t) defFile,
        (x.tool, x.setting) ≠ (T, N)) ↔
      (T, N) ∉ (c!"ClCompile", c!"CompileAsWinRT") :: ((outputFileAndTool w t).2, c!"OutputFile") ::
        ((outputFileAndTool w t).2, c!"TargetExt") :: generatedSettings := by
    intro T N
    have h := full_keys t c (outputFileAndTool w t).2 (outputFileAndTool w t).1 (importText t) defFile
    have h2 : (∀ x ∈ fullCalls t c (outputFileAndTool w t).2 (outputFileAndTool w t).1 (importText t) defFile,
        (x.tool, x.setting) ≠ (T, N)) ↔ (T, N) ∉ (fullCalls t c (outputFileAndTool w t).2 (outputFileAndTool w t).1
          (importText t) defFile).map (fun x => (x.tool, x.setting)) := by
      simp only [List.mem_map, not_exists, not_and]
    rw [h2, h]
    exact keys_moved (generatedSettings.take 5) ((generatedSettings.drop 5).take 6) (generatedSettings.drop 11) _ _ _ _
  have himp : ∀ old new : Option GVal, TextSet (importText t) old new ↔
      (t.requiresImportLibrary = true → TextSet c!"false" old new) ∧
      (t.type = c!"loadable_module" → TextSet c!"true" old new) ∧
      (t.requiresImportLibrary = false → t.type ≠ c!"loadable_module" → new = old) := by
    intro old new
    have hnil : TextSet [] old new ↔ new = old := by
      constructor
      · intro h
        cases h with
        | nothing _ => rfl
        | set h _ => exact absurd rfl h
      · rintro rfl
        exact .nothing _ rfl
    unfold importText
    by_cases h1 : t.type = c!"loadable_module"
    · have h2 : t.requiresImportLibrary = false := by
        cases h : t.requiresImportLibrary
        · rfl
        · exact absurd ⟨h, h1⟩ hb
      simp [h1, h2]
    · cases h2 : t.requiresImportLibrary
      · simp [h1, hnil]
      · simp [h1]
  have hforced : ∀ old new : Option GVal, CallRel ⟨c!"ClCompile", c!"ForcedIncludeFiles",
      if c.precompiledHeader = [] then .text [] else .obj (.made c!"precompiled_header"), false, false⟩
      ((loadSettings c.given (madeLists w t c defs)).deref
        (if c.precompiledHeader = [] then .text [] else .obj (.made c!"precompiled_header"))) old new ↔
      Appended (if c.precompiledHeader = [] then [] else [if c.precompiledHeader = [] then [] else headerName c]) old new := by
    intro old new
    by_cases hp : c.precompiledHeader = []
    · simp only [hp, if_true]
      have e : (loadSettings c.given (madeLists w t c defs)).deref (.text []) = .text [] := rfl
      rw [e, textSet_iff (by decide) (by decide)]
      constructor
      · intro h
        cases h with
        | nothing _ => exact .nothing _ rfl
        | set h _ => exact absurd rfl h
      · intro h
        cases h with
        | nothing _ _ => exact .nothing _ rfl
        | onto l =>
          rw [List.append_nil]
          exact .nothing _ rfl
        | set _ h _ => exact absurd rfl h
    · simp only [hp, if_false]
      exact appended_iff (by decide) (by rw [if_neg (by decide)]; rfl) _ _
  simp only [hkeys]
  generalize hg : (outputFileAndTool w t).2 = tool at hkeys ⊢
  generalize ho : (outputFileAndTool w t).1 = out at hkeys ⊢
  have hprod : ∀ T f, Product w t T f ↔ T = tool ∧ f = out := by
    intro T f
    rw [product_iff, ← hg, ← ho]
    constructor
    · intro h; rw [h]; exact ⟨rfl, rfl⟩
    · rintro ⟨rfl, rfl⟩; rfl
  have hdef : ∀ f, DefinitionFile w t f ↔ f = defFile := by
    intro f
    rw [definition_iff, hm, Option.some.injEq, eq_comm]
  have hdefs : ∀ ds, List.Forall₂ (fun d e => EscapeCppDefineForMSBuild d = some e)
      (c.defines.filter fun d => decide (¬ (c.converted = true ∧ d = c!"_HAS_TR1=0"))) ds ↔ ds = defs := by
    intro ds
    rw [defines_iff, hd, Option.some.injEq, eq_comm]
  have hlibs : ∀ names, List.Forall₂ LibraryName t.libraries names ↔ names = t.libraries.map libraryFile :=
    fun names => forall₂_fun libraryName_iff _ _
  unfold fullCalls
  simp only [List.cons_append, List.nil_append, List.forall_mem_cons]
  have e1 : (if pathSetting c!"AdditionalIncludeDirectories" then
      ((c.includeDirs ++ c.systemDirs).map (fixPath w)).map (replaceChar '/' c!"\\") else
      (c.includeDirs ++ c.systemDirs).map (fixPath w)) = (c.includeDirs ++ c.systemDirs).map (settingDir w) := by
    rw [if_pos (by decide)]
    exact List.map_map
  have e2 : (if pathSetting c!"AdditionalIncludeDirectories" then
      ((c.midlDirs ++ c.systemDirs).map (fixPath w)).map (replaceChar '/' c!"\\") else
      (c.midlDirs ++ c.systemDirs).map (fixPath w)) = (c.midlDirs ++ c.systemDirs).map (settingDir w) := by
    rw [if_pos (by decide)]
    exact List.map_map
  have e3 : (if pathSetting c!"AdditionalIncludeDirectories" then
      ((c.resourceDirs.getD (c.includeDirs ++ c.systemDirs)).map (fixPath w)).map (replaceChar '/' c!"\\") else
      (c.resourceDirs.getD (c.includeDirs ++ c.systemDirs)).map (fixPath w)) =
      (c.resourceDirs.getD (c.includeDirs ++ c.systemDirs)).map (settingDir w) := by
    rw [if_pos (by decide)]
    exact List.map_map
  have e4 : (if pathSetting c!"AdditionalDependencies" then
      (getLibraries t.libraries).map (replaceChar '/' c!"\\") else getLibraries t.libraries) =
      (t.libraries.map libraryFile).dedup.map (replaceChar '/' c!"\\") := by
    rw [if_pos (by decide), getLibraries_eq]
  have e5 : (if pathSetting c!"AdditionalLibraryDirectories" then
      (c.libraryDirs.map (fixPath w)).map (replaceChar '/' c!"\\") else
      c.libraryDirs.map (fixPath w)) = c.libraryDirs.map (settingDir w) := by
    rw [if_pos (by decide)]
    exact List.map_map
  have e6 : (if pathSetting c!"PreprocessorDefinitions" then defs.map (replaceChar '/' c!"\\") else defs) = defs := by
    rw [if_neg (by decide)]
  have e7 : (if pathSetting c!"DisableSpecificWarnings" then c.disabledWarnings.map (replaceChar '/' c!"\\")
      else c.disabledWarnings) = c.disabledWarnings := by
    rw [if_neg (by decide)]
  have hw : ((c!"ClCompile", c!"CompileAsWinRT") : Str × Str) ∉
      (tool, c!"OutputFile") :: (tool, c!"TargetExt") :: generatedSettings := by
    simp [generatedSettings]
  constructor
  · intro h
    obtain ⟨names, hn, hlib⟩ := h.libraries
    obtain ⟨ds, hds, hd1, hd2⟩ := h.defines
    obtain ⟨hdr, hhd, hh1, hh2⟩ := h.header
    obtain ⟨df, hdf, hmod⟩ := h.definition
    obtain ⟨T0, f0, hp, hout, hext, hrest⟩ := h.product
    obtain rfl := (hlibs names).mp hn
    obtain rfl := (hdefs ds).mp hds
    obtain rfl := (header_iff c hdr).mp hhd
    obtain rfl := (hdef df).mp hdf
    obtain ⟨rfl, rfl⟩ := (hprod T0 f0).mp hp
    refine ⟨⟨(appended_iff (by decide) e1 _ _).mpr h.includes, (appended_iff (by decide) e2 _ _).mpr h.midl,
      (appended_iff (by decide) e3 _ _).mpr h.resource, (alwaysAppended_iff (by decide) e4 _ _).mpr hlib,
      (appended_iff (by decide) e5 _ _).mpr h.libraryDirs, (textDefault_iff (by decide) (by decide) _ _).mpr hout,
      (textDefault_iff (by decide) (by decide) _ _).mpr hext, (appended_iff (by decide) e6 _ _).mpr hd1,
      (appended_iff (by decide) e6 _ _).mpr hd2, (appended_iff (by decide) e7 _ _).mpr h.warnings,
      (textSet_iff (by decide) (by decide) _ _).mpr h.pch, (textSet_iff (by decide) (by decide) _ _).mpr hh1,
      (hforced _ _).mpr hh2, (hwin _ _).mpr (hrest _ _ hw),
      (textSet_iff (by decide) (by decide) _ _).mpr ((himp _ _).mpr ⟨h.required, h.loadable, h.otherwise⟩),
      (textSet_iff (by decide) (by decide) _ _).mpr hmod, (textSet_iff (by decide) (by decide) _ _).mpr h.before,
      (textSet_iff (by decide) (by decide) _ _).mpr h.after, fun x hx => by cases hx⟩, ?_⟩
    intro T N hTN
    exact hrest T N fun hm => hTN (List.mem_cons_of_mem _ hm)
  · rintro ⟨⟨h1, h2, h3, h4, h5, h6, h7, h8, h9, h10, h11, h12, h13, h14, h15, h16, h17, h18, _⟩, hrest⟩
    have h15 := (himp _ _).mp ((textSet_iff (by decide) (by decide) _ _).mp h15)
    exact {
      includes := (appended_iff (by decide) e1 _ _).mp h1
      midl := (appended_iff (by decide) e2 _ _).mp h2
      resource := (appended_iff (by decide) e3 _ _).mp h3
      libraries := ⟨_, (hlibs _).mpr rfl, (alwaysAppended_iff (by decide) e4 _ _).mp h4⟩
      libraryDirs := (appended_iff (by decide) e5 _ _).mp h5
      defines := ⟨_, (hdefs _).mpr rfl, (appended_iff (by decide) e6 _ _).mp h8, (appended_iff (by decide) e6 _ _).mp h9⟩
      warnings := (appended_iff (by decide) e7 _ _).mp h10
      pch := (textSet_iff (by decide) (by decide) _ _).mp h11
      header := ⟨_, (header_iff c _).mpr rfl, (textSet_iff (by decide) (by decide) _ _).mp h12, (hforced _ _).mp h13⟩
      required := h15.1
      loadable := h15.2.1
      otherwise := h15.2.2
      definition := ⟨_, (hdef _).mpr rfl, (textSet_iff (by decide) (by decide) _ _).mp h16⟩
      before := (textSet_iff (by decide) (by decide) _ _).mp h17
      after := (textSet_iff (by decide) (by decide) _ _).mp h18
      product := ⟨_, _, (hprod _ _).mpr ⟨rfl, rfl⟩, (textDefault_iff (by decide) (by decide) _ _).mp h6,
        (textDefault_iff (by decide) (by decide) _ _).mp h7, fun T N hTN => by
          by_cases hTw : (T, N) = (c!"ClCompile", c!"CompileAsWinRT")
          · cases hTw
            exact (hwin _ _).mp h14
          · refine hrest T N fun hm => ?_
            rcases List.mem_cons.mp hm with hm | hm
            · exact hTw hm
            · exact hTN hm⟩ }

theorem textSet_unique {a b : Str} {old new : Option GVal} (h1 : TextSet a old new) (h2 : TextSet b old new)
    (ha : a ≠ []) (hb : b ≠ []) : a = b := by
  cases h1 with
  | nothing h => exact absurd h ha
  | set _ _ =>
    generalize he : some (GVal.text a) = new at h2
    cases h2 with
    | nothing h => exact absurd h hb
    | set _ _ =>
      cases he
      rfl

theorem textSet_unset {a : Str} {old new : Option GVal} (h : TextSet a old new) (ha : a ≠ []) : Unset old := by
  cases h with
  | nothing h => exact absurd h ha
  | set _ h => exact h

/-- The lists that are made and the settings they are for. -/
def madeFor : List (Str × Str × Str) :=
  [(c!"include_dirs", c!"ClCompile", c!"AdditionalIncludeDirectories"),
   (c!"midl_include_dirs", c!"Midl", c!"AdditionalIncludeDirectories"),
   (c!"resource_include_dirs", c!"ResourceCompile", c!"AdditionalIncludeDirectories"),
   (c!"libraries", c!"Link", c!"AdditionalDependencies"),
   (c!"library_dirs", c!"Link", c!"AdditionalLibraryDirectories"),
   (c!"defines", c!"ClCompile", c!"PreprocessorDefinitions"),
   (c!"defines", c!"ResourceCompile", c!"PreprocessorDefinitions"),
   (c!"disabled_warnings", c!"ClCompile", c!"DisableSpecificWarnings"),
   (c!"precompiled_header", c!"ClCompile", c!"ForcedIncludeFiles")]

theorem madeFor_mem (t : WinLinked) (c : WinSettings) (tool out imp defFile : Str) (n : Str) :
    ∀ x ∈ fullCalls t c tool out imp defFile, x.value = .obj (.made n) → (n, x.tool, x.setting) ∈ madeFor := by
  unfold fullCalls
  simp only [List.cons_append, List.nil_append, List.forall_mem_cons, reduceCtorEq, false_imp_iff,
    SVal.obj.injEq, SObj.made.injEq, forall_eq', true_and]
  refine ⟨?_, ?_, ?_, ?_, ?_, ?_, ?_, ?_, ?_, fun x hx => by cases hx⟩
  · rintro rfl; decide
  · rintro rfl; decide
  · rintro rfl; decide
  · rintro rfl; decide
  · rintro rfl; decide
  · rintro rfl; decide
  · rintro rfl; decide
  · rintro rfl; decide
  · intro h
    split at h
    · cases h
    · cases h
      decide

theorem madeFor_shared : ∀ a ∈ madeFor, ∀ b ∈ madeFor, a.1 = b.1 → a.2 ≠ b.2 →
    a.2.2 = c!"PreprocessorDefinitions" ∧ b.2.2 = c!"PreprocessorDefinitions" ∧
      (a.2.1 = c!"ClCompile" ∧ b.2.1 = c!"ResourceCompile" ∨ b.2.1 = c!"ClCompile" ∧ a.2.1 = c!"ResourceCompile") := by
  decide

theorem both_refused (w : WinPaths) (t : WinLinked) (c : WinSettings) (defFile : Str)
    (h1 : t.requiresImportLibrary = true) (h2 : t.type = c!"loadable_module") (s : STools) :
    (settingCalls w t c defFile).foldlM toolCall s = none := by
  unfold settingCalls
  simp only [h1, h2, if_true]
  simp only [List.foldlM_append (l' := if c.postbuild = [] then _ else _), List.foldlM_append
    (l' := if c.prebuild = [] then _ else _), List.foldlM_append (l' := if defFile = [] then _ else _)]
  rw [List.foldlM_append, List.foldlM_append]
  generalize List.foldlM toolCall s _ = r
  cases r with
  | none => rfl
  | some u =>
    have h := text_twice u [] c!"IgnoreImportLibrary" c!"false" c!"true" (by decide) (by decide) (by decide) (by decide)
    have e : ((some u).bind fun a => List.foldlM toolCall a
        [(⟨[], c!"IgnoreImportLibrary", .text c!"false", false, false⟩ : SCall)]).bind
        (fun a => List.foldlM toolCall a [⟨[], c!"IgnoreImportLibrary", .text c!"true", false, false⟩]) = none := by
      simp only [Option.bind_some, List.foldlM_cons, List.foldlM_nil]
      cases hc : toolCall u ⟨[], c!"IgnoreImportLibrary", .text c!"false", false, false⟩ with
      | none => rfl
      | some x =>
        rw [hc, Option.bind_some] at h
        simp only [Option.bind_eq_bind, Option.bind_some, h, Option.pure_def, Option.bind_none]
    simp only [Option.bind_eq_bind] at e ⊢
    rw [e]
    rfl

/-- In each configuration every tool gets the settings of the target. -/
theorem C88_settings (w : WinPaths) (t : WinLinked) (c : WinSettings) {s : STools}
    (h : finalizeSettings w t c = some s) :
    SettingsOf w t c (fun T N => (aget c.given T).bind fun d => aget d N) s.value := by
  unfold finalizeSettings at h
  cases hd : finalDefines c with
  | none => rw [hd] at h; cases h
  | some defs =>
    cases hm : moduleDefinition w t with
    | none => rw [hd, hm] at h; cases h
    | some df =>
      rw [hd, hm] at h
      simp only [Option.bind_eq_bind, Option.bind_some] at h
      have hb : ¬ (t.requiresImportLibrary = true ∧ t.type = c!"loadable_module") := by
        rintro ⟨h1, h2⟩
        rw [both_refused w t c df h1 h2] at h
        cases h
      rw [full_calls w t c df hb] at h
      have hf := (calls_fold (full_values t c _ _ _ _) (load_inv c.given (madeLists w t c defs))
        (by simpa using full_keys_nodup w t c (outputFileAndTool w t).1 (importText t) df)).2 s h
      obtain ⟨_, hval, hrest⟩ := hf
      have hno := (calls_fold (full_values t c _ _ _ _) (load_inv c.given (madeLists w t c defs))
        (by simpa using full_keys_nodup w t c (outputFileAndTool w t).1 (importText t) df)).1
      rw [h] at hno
      rw [settingsOf_iff w t c hd hm hb]
      have hg : ∀ T N, (loadSettings c.given (madeLists w t c defs)).value T N =
          (aget c.given T).bind fun d => aget d N := load_value c.given _
      refine ⟨fun x hx => ⟨?_, ?_⟩, fun T N hTN => ?_⟩
      · by_contra hcon
        simp only [Bool.not_eq_false] at hcon
        rw [← hg] at hcon
        exact absurd (hno.mpr ⟨x, hx, hcon⟩) (by simp)
      · rw [hval x hx, hg]
      · rw [hrest T N hTN, hg]

/-- The project is refused only when it cannot be as the target says: a definition cannot be
escaped, there are several module definition files, or a text or list is given where the target
asks for another text, or for a list. -/
theorem C88_refused (w : WinPaths) (t : WinLinked) (c : WinSettings) :
    finalizeSettings w t c = none ↔
      ¬ ∃ got, SettingsOf w t c (fun T N => (aget c.given T).bind fun d => aget d N) got := by
  constructor
  · rintro h ⟨got, hs⟩
    obtain ⟨ds, hds, _⟩ := hs.defines
    obtain ⟨df, hdf, _⟩ := hs.definition
    have hd := (defines_iff c ds).mp hds
    have hm := (definition_iff w t df).mp hdf
    have hb : ¬ (t.requiresImportLibrary = true ∧ t.type = c!"loadable_module") := by
      rintro ⟨h1, h2⟩
      have a := hs.required h1
      have b := hs.loadable h2
      exact absurd (textSet_unique a b (by decide) (by decide)) (by decide)
    unfold finalizeSettings at h
    rw [hd, hm] at h
    simp only [Option.bind_eq_bind, Option.bind_some] at h
    rw [full_calls w t c df hb] at h
    rw [settingsOf_iff w t c hd hm hb] at hs
    obtain ⟨x, hx, hc⟩ := (calls_fold (full_values t c _ _ _ _) (load_inv c.given (madeLists w t c ds))
        (by simpa using full_keys_nodup w t c (outputFileAndTool w t).1 (importText t) df)).1.mp h
    have := (hs.1 x hx).1
    rw [load_value] at hc
    rw [hc] at this
    cases this
  · intro h
    cases hf : finalizeSettings w t c with
    | none => rfl
    | some s => exact absurd ⟨_, C88_settings w t c hf⟩ h

/-- What is written for a setting of a tool. -/
def writtenSetting (s : STools) (T N : Str) : Option Str := (aget (toolSections s) T).bind fun d => aget d N

/-- What is written for a tool is what it gets: a text, or the entries of a list (C78_lists says how
MSBuild reads them).  One list may be written with the reference to what is inherited twice, the
definitions of the resource compiler, when they are those of the compiler. -/
theorem C88_written (w : WinPaths) (t : WinLinked) (c : WinSettings) (hk : (akeys c.given).Nodup)
    (hs : ∀ x ∈ c.given, (akeys x.2).Nodup) {s : STools} (h : finalizeSettings w t c = some s) (T N : Str) (hT : T ≠ []) :
    (s.value T N = none → writtenSetting s T N = none) ∧
    (∀ x, s.value T N = some (.text x) → writtenSetting s T N = some (ConvertVCMacrosToMSBuild x)) ∧
    ∀ l, s.value T N = some (.list l) →
      writtenSetting s T N = some (GetValueFormattedForMSBuild T N l) ∨
      (T, N) = (c!"ResourceCompile", c!"PreprocessorDefinitions") ∧
        s.value c!"ClCompile" c!"PreprocessorDefinitions" = some (.list l) ∧
        writtenSetting s T N = some (GetValueFormattedForMSBuild T N (l ++ [c!"%(PreprocessorDefinitions)"])) := by
  unfold finalizeSettings at h
  cases hd : finalDefines c with
  | none => rw [hd] at h; cases h
  | some defs =>
  cases hm : moduleDefinition w t with
  | none => rw [hd, hm] at h; cases h
  | some df =>
  rw [hd, hm] at h
  simp only [Option.bind_eq_bind, Option.bind_some] at h
  have hb : ¬ (t.requiresImportLibrary = true ∧ t.type = c!"loadable_module") := by
    rintro ⟨h1, h2⟩
    rw [both_refused w t c df h1 h2] at h
    cases h
  rw [full_calls w t c df hb] at h
  obtain ⟨hk', hs'⟩ := calls_nodup h (load_nodup hk hs)
  have inv := ((calls_fold (full_values t c _ _ _ _) (load_inv c.given (madeLists w t c defs))
    (by simpa using full_keys_nodup w t c (outputFileAndTool w t).1 (importText t) df)).2 s h).1
  rw [List.nil_append] at inv
  have hmade : ∀ n, ∀ x ∈ fullCalls t c (outputFileAndTool w t).2 (outputFileAndTool w t).1 (importText t) df,
      ∀ y ∈ fullCalls t c (outputFileAndTool w t).2 (outputFileAndTool w t).1 (importText t) df,
      x.value = .obj (.made n) → y.value = .obj (.made n) → (x.tool, x.setting) ≠ (y.tool, y.setting) →
      x.setting = c!"PreprocessorDefinitions" ∧ y.setting = c!"PreprocessorDefinitions" ∧
      (x.tool = c!"ClCompile" ∧ y.tool = c!"ResourceCompile" ∨ y.tool = c!"ClCompile" ∧ x.tool = c!"ResourceCompile") := by
    intro n x hx y hy hxv hyv hne
    exact madeFor_shared _ (madeFor_mem t c _ _ _ _ n x hx hxv) _ (madeFor_mem t c _ _ _ _ n y hy hyv) rfl hne
  have hshare : ∀ T' N' o, (T', N') ≠ (T, N) → s.lookup T N = some (.obj o) → s.lookup T' N' = some (.obj o) →
      N = c!"PreprocessorDefinitions" ∧ N' = c!"PreprocessorDefinitions" ∧
      (T = c!"ClCompile" ∧ T' = c!"ResourceCompile" ∨ T' = c!"ClCompile" ∧ T = c!"ResourceCompile") := by
    intro T' N' o hne h1 h2
    rcases inv.objects T N o h1 with rfl | ⟨x, hx, hxk, hxv, n, rfl⟩ | ⟨k, _, rfl, _⟩
    · rcases inv.objects T' N' _ h2 with he | ⟨_, _, _, _, _, he⟩ | ⟨_, _, he, _⟩
      · cases he; exact absurd rfl hne
      · cases he
      · cases he
    · rcases inv.objects T' N' _ h2 with he | ⟨y, hy, hyk, hyv, _⟩ | ⟨_, _, he, _⟩
      · cases he
      · have := hmade n x hx y hy hxv hyv (by rw [hxk, hyk]; exact fun h => hne h.symm)
        cases hxk
        cases hyk
        exact this
      · cases he
    · exact absurd (inv.copies T N T' N' k h1 h2).symm hne
  refine ⟨?_, ?_, ?_⟩
  · intro hv
    refine sections_none hk' hs' ?_
    unfold STools.value at hv
    cases hl : s.lookup T N with
    | none => rfl
    | some v => rw [hl] at hv; cases hv
  · intro x hv
    unfold STools.value at hv
    rw [Option.map_eq_some_iff] at hv
    obtain ⟨v, hl, hv⟩ := hv
    cases v with
    | obj o => cases hv
    | text y =>
      cases hv
      obtain ⟨_, _, _, h3⟩ := sections_text hk' hs' hT hl
      exact h3
  · intro l hv
    unfold STools.value at hv
    rw [Option.map_eq_some_iff] at hv
    obtain ⟨v, hl, hv⟩ := hv
    cases v with
    | text y => cases hv
    | obj o =>
      cases hv
      obtain ⟨others, h1, h2, h3⟩ := sections_text hk' hs' hT hl
      cases others with
      | nil =>
        left
        simp only [List.map_nil, List.append_nil] at h3
        exact h3
      | cons p ps =>
        right
        have hp : ∀ q ∈ p :: ps, N = c!"PreprocessorDefinitions" ∧ q = (c!"ClCompile", c!"PreprocessorDefinitions") ∧
            T = c!"ResourceCompile" := by
          intro q hq
          obtain ⟨a, b, d⟩ := h2 q hq
          obtain ⟨e1, e2, (⟨e3, e4⟩ | ⟨e3, e4⟩)⟩ := hshare q.1 q.2 o a hl b
          · rw [e3, e4] at d
            exact absurd d (by decide)
          · exact ⟨e1, Prod.ext e3 e2, e4⟩
        obtain ⟨e1, e2, e3⟩ := hp p (List.mem_cons_self ..)
        have hps : ps = [] := by
          cases ps with
          | nil => rfl
          | cons q ps =>
            have := (hp q (by simp)).2.1
            rw [e2, this] at h1
            simp at h1
        subst hps
        refine ⟨by rw [e1, e3], ?_, ?_⟩
        · have := (h2 p (List.mem_cons_self ..)).2.1
          rw [e2] at this
          unfold STools.value
          rw [this]
          rfl
        · rw [e2] at h3
          exact h3

/-! ### An addon -/

/-- Paths of the examples. -/
def finalPaths : WinPaths where
  norm := id
  isabs := fun s => startsWith s c!"\\"
  join := fun a b => a ++ c!"\\" ++ b
  base := c!".."

/-- An addon that is a loadable module. -/
def finalAddon : WinLinked where
  type := c!"loadable_module"
  libraries := [c!"-lfoo", c!"bar/baz.lib", c!"foo"]
  sources := [c!"src/addon.cc", c!"exports.def"]
  productExtension := c!"node"

/-- A configuration of it, with a setting of its own. -/
def finalConfig : WinSettings where
  given := [(c!"ClCompile", [(c!"AdditionalIncludeDirectories", .list [c!"own"]), (c!"RuntimeLibrary", .text c!"MultiThreaded")]),
    (c!"Link", [(c!"OutputFile", .text c!"$(OutDir)own.node")])]
  includeDirs := [c!"include"]
  defines := [c!"A=1", c!"_HAS_TR1=0"]
  precompiledHeader := c!"src/pch.h"

/-- What is written for it. -/
example : ∃ s, finalizeSettings finalPaths finalAddon finalConfig = some s ∧
    toolSections s =
      [(c!"ClCompile", [(c!"AdditionalIncludeDirectories", c!"own;..\\include;%(AdditionalIncludeDirectories)"),
        (c!"ForcedIncludeFiles", c!"pch.h"), (c!"PrecompiledHeader", c!"Use"), (c!"PrecompiledHeaderFile", c!"pch.h"),
        (c!"PreprocessorDefinitions", c!"A=1;%(PreprocessorDefinitions)"), (c!"RuntimeLibrary", c!"MultiThreaded")]),
       (c!"Link", [(c!"AdditionalDependencies", c!"bar\\baz.lib;foo.lib"),
        (c!"ModuleDefinitionFile", c!"..\\exports.def"), (c!"OutputFile", c!"$(OutDir)own.node"), (c!"TargetExt", c!".node")]),
       (c!"ResourceCompile", [(c!"AdditionalIncludeDirectories", c!"..\\include;%(AdditionalIncludeDirectories)"),
        (c!"PreprocessorDefinitions", c!"A=1;%(PreprocessorDefinitions);%(PreprocessorDefinitions)")])] := by
  rw [← Option.map_eq_some_iff (f := toolSections)]
  decide +kernel

/-- The definitions of the resource compiler are followed by the inherited ones twice: they are in
the list of the compiler, to which the reference has been added. -/
theorem C88_shared : ∃ s, finalizeSettings finalPaths finalAddon finalConfig = some s ∧
    writtenSetting s c!"ClCompile" c!"PreprocessorDefinitions" = some c!"A=1;%(PreprocessorDefinitions)" ∧
    writtenSetting s c!"ResourceCompile" c!"PreprocessorDefinitions" =
      some c!"A=1;%(PreprocessorDefinitions);%(PreprocessorDefinitions)" := by
  have h : (finalizeSettings finalPaths finalAddon finalConfig).map (fun s =>
      (writtenSetting s c!"ClCompile" c!"PreprocessorDefinitions",
        writtenSetting s c!"ResourceCompile" c!"PreprocessorDefinitions")) =
      some (some c!"A=1;%(PreprocessorDefinitions)",
        some c!"A=1;%(PreprocessorDefinitions);%(PreprocessorDefinitions)") := by decide +kernel
  rw [Option.map_eq_some_iff] at h
  obtain ⟨s, h1, h2⟩ := h
  exact ⟨s, h1, congrArg Prod.fst h2, congrArg Prod.snd h2⟩

/-- A loadable module that asks for an import library is refused. -/
theorem C88_import_library (w : WinPaths) (t : WinLinked) (c : WinSettings) (h : t.type = c!"loadable_module")
    (hr : t.requiresImportLibrary = true) : finalizeSettings w t c = none := by
  rw [C88_refused]
  rintro ⟨got, hs⟩
  exact absurd (textSet_unique (hs.required hr) (hs.loadable h) (by decide) (by decide)) (by decide)

/-- Without a product the extension goes to no tool, but to the properties of all. -/
theorem C88_no_product : ∃ s, finalizeSettings finalPaths { type := c!"none", productExtension := c!"txt" } {} = some s ∧
    s.value [] c!"TargetExt" = some (.text c!".txt") ∧ aget (toolSections s) [] = none := by
  have h : (finalizeSettings finalPaths { type := c!"none", productExtension := c!"txt" } {}).map (fun s =>
      (s.value [] c!"TargetExt", aget (toolSections s) [])) = some (some (.text c!".txt"), none) := by decide +kernel
  rw [Option.map_eq_some_iff] at h
  obtain ⟨s, h1, h2⟩ := h
  exact ⟨s, h1, congrArg Prod.fst h2, congrArg Prod.snd h2⟩

/-- A text cannot be added to: a prebuild command that is given as a setting and by the target is
refused. -/
theorem C88_text_twice : finalizeSettings finalPaths finalAddon
    { finalConfig with given := [(c!"PreBuildEvent", [(c!"Command", .text c!"a")])], prebuild := c!"b" } = none ∧
    (finalizeSettings finalPaths finalAddon { finalConfig with prebuild := c!"b" }).isSome := by
  rw [C88_refused]
  constructor
  · rintro ⟨got, hs⟩
    rcases textSet_unset hs.before (by decide) with h | h | h <;> cases h
  · decide +kernel

end Gyp
