import Verif.Proofs.MsvsValidate
/-
C79: the settings of a Visual Studio project reach MSBuild with their meaning.
-/
namespace Gyp
open Spec

/-- C79.  A macro of Visual Studio 2008 that was renamed is written with its new name,
slashes after the macros that end in one are dropped, the rest of the text is the same:
`t` is that text exactly if it is the converted one. -/
theorem C79_macros (s t : Str) : ConvertVCMacrosToMSBuild s = t ↔ MacrosConverted s t :=
  (macrosConverted_iff s t).symm

/-- C79.  After a successful conversion a setting of MSBuild has a value exactly if a
setting that was given becomes it with that value.  Only the two settings with two
sources need that not both sources were given. -/
theorem C79_settings {repr : List Str → Str} {l : MsSettings} {out : MsSettings}
    {warns : List MsWarn} (hl : NoRepeats l)
    (h : ConvertToMSBuildSettings repr msTools msDecls l = .ok (out, warns)) (T N : Str)
    (hr : (T, N) ∈ sharedPlaces → NoRivals l) (w : MsVal) :
    msGet out T N = some w ↔
      ∃ t n v d, (t, n, v) ∈ given l ∧ d ∈ msDecls ∧ d.key = (t, n) ∧ Becomes d v T N w :=
  settings_spec hl h T N hr w

/-- C79.  The order in which the settings were given does not matter. -/
theorem C79_order {repr : List Str → Str} {l l' : MsSettings} {out out' : MsSettings}
    {warns warns' : List MsWarn} (hl : NoRepeats l) (hl' : NoRepeats l')
    (hsame : ∀ g, g ∈ given l ↔ g ∈ given l')
    (h : ConvertToMSBuildSettings repr msTools msDecls l = .ok (out, warns))
    (h' : ConvertToMSBuildSettings repr msTools msDecls l' = .ok (out', warns')) (T N : Str)
    (hr : (T, N) ∈ sharedPlaces → NoRivals l) : msGet out T N = msGet out' T N := by
  apply Option.ext
  intro w
  rw [C79_settings hl h T N hr w, C79_settings hl' h' T N ?_ w]
  · simp only [hsame]
  · intro hm r hr' hc
    apply hr hm r hr'
    obtain ⟨⟨v, h1⟩, ⟨v', h2⟩⟩ := hc
    exact ⟨⟨v, (hsame _).mpr h1⟩, ⟨v', (hsame _).mpr h2⟩⟩

/-- C79.  The warnings are: settings whose value is not valid, settings that are not
known and are not the exclusions of known ones, and tools that are not known. -/
theorem C79_warnings {repr : List Str → Str} {l : MsSettings} {out : MsSettings}
    {warns : List MsWarn}
    (h : ConvertToMSBuildSettings repr msTools msDecls l = .ok (out, warns)) (w : MsWarn) :
    w ∈ warns ↔
      (∃ t n v d, (t, n, v) ∈ given l ∧ d ∈ msDecls ∧ d.key = (t, n) ∧ Invalid d v ∧
        w = .failed t n) ∨
      (∃ t n v, (t, n, v) ∈ given l ∧ t ∈ msTools.map MsTool.msvs ∧
        (∀ d ∈ msDecls, d.key ≠ (t, n)) ∧
        (¬ ∃ b, n = b ++ c!"_excluded" ∧ ∃ d ∈ msDecls, d.key = (t, b)) ∧ w = .setting t n) ∨
      (∃ t ∈ akeys l, t ∉ msTools.map MsTool.msvs ∧ w = .tool t) := by
  rw [convert_items] at h
  have := steps_warns h w
  simp only [List.not_mem_nil, false_or] at this
  rw [this]
  constructor
  · rintro ⟨⟨t, e⟩, hi, h | ⟨n, v, d, h1, h2, h3, h4, h5⟩ | ⟨n, v, h1, h2, h3, h4⟩⟩
    · obtain ⟨h1, h2⟩ := h
      simp only at h1; subst h1
      have := mem_items_none.mp hi
      exact .inr (.inr ⟨t, this.1, this.2, h2⟩)
    · simp only at h1; subst h1
      exact .inl ⟨t, n, v, d, (mem_items.mp hi).1, h2, h3, h4, h5⟩
    · simp only at h1; subst h1
      have := mem_items.mp hi
      exact .inr (.inl ⟨t, n, v, this.1, this.2, h2, h3, h4⟩)
  · rintro (⟨t, n, v, d, h1, h2, h3, h4, h5⟩ | ⟨t, n, v, h1, h2, h3, h4, h5⟩ | ⟨t, h1, h2, h3⟩)
    · refine ⟨(t, some (n, v)), mem_items.mpr ⟨h1, ?_⟩, .inr (.inl ⟨n, v, d, rfl, h2, h3, h4, h5⟩)⟩
      have := decl_tool d h2
      rw [h3] at this; exact this
    · exact ⟨(t, some (n, v)), mem_items.mpr ⟨h1, h2⟩, .inr (.inr ⟨n, v, rfl, h3, h4, h5⟩)⟩
    · exact ⟨(t, none), mem_items_none.mpr ⟨h1, h2⟩, .inl ⟨rfl, h3⟩⟩

/-- C79.  The conversion ends with an exception exactly if a list was given for a
setting that takes a single value.  (Texts take lists without the item `$`.) -/
theorem C79_failure (repr : List Str → Str) (l : MsSettings) :
    ConvertToMSBuildSettings repr msTools msDecls l = .error () ↔
      ∃ t n v d ty, (t, n, v) ∈ given l ∧ d ∈ msDecls ∧ d.key = (t, n) ∧
        convertedType d = some ty ∧ Unusable ty v := by
  rw [convert_items, foldlM_error_iff (step_error repr)]
  constructor
  · rintro ⟨⟨t, e⟩, hi, n, v, d, ty, h1, h2, h3, h4⟩
    simp only at h1; subst h1
    exact ⟨t, n, v, d, ty, (mem_items.mp hi).1, h2, h3, h4⟩
  · rintro ⟨t, n, v, d, ty, h1, h2, h3, h4⟩
    refine ⟨(t, some (n, v)), mem_items.mpr ⟨h1, ?_⟩, n, v, d, ty, rfl, h2, h3, h4⟩
    have := decl_tool d h2
    rw [h3] at this; exact this

/-- C79.  The settings after the conversion are valid: their validation gives no warning
and does not fail. -/
theorem C79_valid {repr : List Str → Str} {l : MsSettings} {out : MsSettings}
    {warns : List MsWarn}
    (h : ConvertToMSBuildSettings repr msTools msDecls l = .ok (out, warns))
    (hf : ∀ t n v d, (t, n, v) ∈ given l → d ∈ msDecls → d.key = (t, n) → FitsDecl d v) :
    ValidateMSBuildSettings msTools msDecls out = .ok [] := by
  rw [convert_items] at h
  apply validate_fine
  refine fine_steps ?_ (st := ([], [])) (by intro te hte; cases hte) h
  rintro ⟨t, e⟩ hi n v d h1 h2 h3
  simp only at h1; subst h1
  exact hf t n v d (mem_items.mp hi).1 h2 h3

/-- The numbers of the table and their labels. -/
theorem flags_table : ∀ f ∈ numberFlags, ∃ d ∈ msDecls, d.key = (f.1, f.2.1) ∧
    ∃ g ∈ labelFlags, (g.1, g.2.1) ∈ placesOf d ∧ (g.1, g.2.1) ∉ sharedPlaces ∧
      (convertedType d).bind (fun ty => (ty.convert (.str f.2.2.1)).toOption) =
        some (.str g.2.2.1) ∧ g.2.2.2 = f.2.2.2 := by
  decide +kernel

theorem becomes_of_converted {d : MsDecl} {ty : MsType} (h : convertedType d = some ty) {T N : Str}
    (hp : (T, N) ∈ placesOf d) {v w : MsVal} (hc : Converted ty v w) : Becomes d v T N w := by
  cases d <;> simp only [convertedType, Option.some.injEq, reduceCtorEq] at h <;> subst h <;>
    simp only [placesOf, List.mem_singleton, Prod.mk.injEq] at hp <;> obtain ⟨rfl, rfl⟩ := hp
  · exact .same hc
  · exact .renamed hc
  · exact .moved hc
  · exact .movedAndRenamed hc

/-- C79.  A setting of the compiler or the linker that was given by its number in Visual
Studio 2008 has, for MSBuild, a label that stands for the same option. -/
theorem C79_flags {repr : List Str → Str} {l : MsSettings} {out : MsSettings}
    {warns : List MsWarn} (hl : NoRepeats l)
    (h : ConvertToMSBuildSettings repr msTools msDecls l = .ok (out, warns))
    {t n number flag : Str} (hf : (t, n, number, flag) ∈ numberFlags)
    (hg : (t, n, .str number) ∈ given l) :
    ∃ T N label, msGet out T N = some (.str label) ∧ (T, N, label, flag) ∈ labelFlags := by
  obtain ⟨d, hd, hk, ⟨T, N, label, flag'⟩, hgm, hp, hs, hc, hfl⟩ := flags_table _ hf
  simp only at hk hp hs hc hfl
  obtain ⟨ty, hty, hc⟩ := Option.bind_eq_some_iff.mp hc
  have hc : ty.convert (.str number) = .ok (.str label) := by
    cases hx : ty.convert (.str number) with
    | error e => rw [hx] at hc; cases hc
    | ok w => rw [hx] at hc; cases hc; rfl
  refine ⟨T, N, label, ?_, ?_⟩
  · rw [C79_settings hl h _ _ (fun hm => absurd hm hs)]
    exact ⟨t, n, _, d, hg, hd, hk, becomes_of_converted hty hp ((convert_ok _ _ _).mp hc)⟩
  · rw [← hfl]; exact hgm

/-- The labels are not ambiguous. -/
theorem labels_unambiguous :
    (labelFlags.map fun g => (g.1, g.2.1, g.2.2.1)).Nodup := by decide +kernel

/-- C79.  Whoever adds options and also sets `DefaultCharIsUnsigned` gets one of three
things, depending on the order and on whether the options are a list: the option `/J`
after the options, no `/J`, or `/J` after Python's text of the list. -/
theorem C79_unsigned_char (repr : List Str → Str) :
    let cl := c!"VCCLCompilerTool"
    let options := c!"AdditionalOptions"
    let unsigned := (c!"DefaultCharIsUnsigned", MsVal.str c!"true")
    let result := fun (l : List (Str × MsVal)) =>
      (ConvertToMSBuildSettings repr msTools msDecls [(cl, l)]).toOption.bind fun r =>
        msGet r.1 c!"ClCompile" options
    (∀ s, result [(options, .str s), unsigned] =
      some (.str (ConvertVCMacrosToMSBuild s ++ c!" /J"))) ∧
    (∀ s, result [unsigned, (options, .str s)] = some (.str (ConvertVCMacrosToMSBuild s))) ∧
    (∀ l, result [(options, .list l), unsigned] =
      some (.str (repr (l.map ConvertVCMacrosToMSBuild) ++ c!" /J"))) := by
  have h1 : lastWith (msDecls.map fun d => (d.key, d)) (c!"VCCLCompilerTool", c!"AdditionalOptions") =
      some (.same toolCompile c!"AdditionalOptions" .stringList) := by decide +kernel
  have h2 : lastWith (msDecls.map fun d => (d.key, d))
      (c!"VCCLCompilerTool", c!"DefaultCharIsUnsigned") =
      some (.toOption toolCompile c!"DefaultCharIsUnsigned" c!"/J") := by decide +kernel
  have h3 : c!"VCCLCompilerTool" ∈ msTools.map MsTool.msvs := by decide
  have e : toolCompile.msbuild = c!"ClCompile" := rfl
  refine ⟨?_, ?_, ?_⟩
  · intro s
    simp only [ConvertToMSBuildSettings, List.foldlM_cons, List.foldlM_nil, if_pos h3, convertSetting,
      bind, Except.bind, h1, h2, MsDecl.translate, translateTyped, MsType.convert, pure, Except.pure,
      if_true, Except.toOption, Option.bind_some, msGet_touch, msGet_put, MsVal.text, e]
    simp
  · intro s
    simp only [ConvertToMSBuildSettings, List.foldlM_cons, List.foldlM_nil, if_pos h3, convertSetting,
      bind, Except.bind, h1, h2, MsDecl.translate, translateTyped, MsType.convert, pure, Except.pure,
      if_true, Except.toOption, Option.bind_some, msGet_touch, msGet_put, MsVal.text, e]
    simp [msGet, aget, msGet_touch, msTouch, msPut, aset]
  · intro l
    simp only [ConvertToMSBuildSettings, List.foldlM_cons, List.foldlM_nil, if_pos h3, convertSetting,
      bind, Except.bind, h1, h2, MsDecl.translate, translateTyped, MsType.convert, pure, Except.pure,
      if_true, Except.toOption, Option.bind_some, msGet_touch, msGet_put, MsVal.text, e]
    simp

/-! ### Examples -/

instance : DecidableEq (MsSettings × List MsWarn) := @instDecidableEqProd _ _ inferInstance inferInstance

/-- Settings as they are in `addon.gypi` and in projects. -/
def exampleSettings : MsSettings :=
  [(c!"VCCLCompilerTool",
     [(c!"RuntimeLibrary", .str c!"0"), (c!"ExceptionHandling", .str c!"1"),
      (c!"AdditionalOptions", .list [c!"/std:c++17", c!"$(InputName)"]),
      (c!"ObjectFile", .str c!"$(IntDir)/$(InputName).obj"),
      (c!"GeneratePreprocessedFile", .str c!"2"),
      (c!"DisableSpecificWarnings_excluded", .list [c!"4996"]),
      (c!"WarningLevel", .str c!"9"), (c!"NoSuchThing", .str c!"1")]),
   (c!"VCLinkerTool", [(c!"LinkIncremental", .str c!"2"), (c!"SubSystem", .str c!"1")]),
   (c!"VCNoTool", [])]

example : NoRepeats exampleSettings ∧ NoRivals exampleSettings := by
  refine ⟨by unfold NoRepeats; decide, ?_⟩
  intro r hr hc
  obtain ⟨⟨v, h1⟩, ⟨v', h2⟩⟩ := hc
  simp only [rivals, List.mem_cons, List.not_mem_nil, or_false] at hr
  rcases hr with rfl | rfl | rfl | rfl <;> simp [given, exampleSettings] at h1 h2

example : (ConvertToMSBuildSettings (fun _ => []) msTools msDecls exampleSettings |>.toOption) =
    some ([(c!"ClCompile",
       [(c!"RuntimeLibrary", .str c!"MultiThreaded"), (c!"ExceptionHandling", .str c!"Sync"),
        (c!"AdditionalOptions", .list [c!"/std:c++17", c!"%(Filename)"]),
        (c!"ObjectFileName", .str c!"$(IntDir)%(Filename).obj"),
        (c!"PreprocessToFile", .str c!"true"),
        (c!"PreprocessSuppressLineNumbers", .str c!"true")]),
      (c!"", [(c!"LinkIncremental", .str c!"true")]),
      (c!"Link", [(c!"SubSystem", .str c!"Console")])],
     [.failed c!"VCCLCompilerTool" c!"WarningLevel",
      .setting c!"VCCLCompilerTool" c!"NoSuchThing", .tool c!"VCNoTool"]) := by
  decide +kernel

example : FitsDecl (.same toolCompile c!"WarningLevel" newlyBoolean) (.str c!"9") := by
  intro ty h; cases h; trivial

/-- C79.  A negative number in base 16 is not valid after its conversion. -/
theorem C79_negative_number :
    (ConvertToMSBuildSettings (fun _ => []) msTools msDecls
      [(c!"VCResourceCompilerTool", [(c!"Culture", .str c!"-5")])]).toOption =
      some ([(c!"ResourceCompile", [(c!"Culture", .str c!"0x-005")])], []) ∧
    (ValidateMSBuildSettings msTools msDecls
      [(c!"ResourceCompile", [(c!"Culture", .str c!"0x-005")])]).toOption = some [.failed c!"ResourceCompile" c!"Culture"] := by
  constructor <;> decide +kernel

/-- C79.  The two kinds of browse information of Visual Studio 2008, with and without
local symbols, are one for MSBuild. -/
theorem C79_browse_information :
    ∀ number ∈ [c!"1", c!"2"],
      (ConvertToMSBuildSettings (fun _ => []) msTools msDecls
        [(c!"VCCLCompilerTool", [(c!"BrowseInformation", .str number)])]).toOption.map
          (fun r => msGet r.1 c!"ClCompile" c!"BrowseInformation") = some (some (.str c!"true")) := by
  decide +kernel

end Gyp
