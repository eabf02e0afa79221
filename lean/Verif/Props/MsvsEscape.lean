import Verif.Proofs.MsvsVcproj
/-
C78: preprocessor definitions in Visual Studio projects.
-/
namespace Gyp
open Spec

/-- C78 for MSBuild projects (Visual Studio 2010 and later): the list that is written
for the definitions is read by MSBuild as these very definitions, one for one and in
order, followed by the inherited ones: nothing in a definition separates, refers to
anything or is a wildcard.  Each is on the command line as a text that, percent signs
and octal number signs read, is the definition.  Missing: definitions with a
backslash in front of a quote, `C78_refused`. -/
theorem C78_msbuild_partial (tool : Str) (ds outs : List Str)
    (h : ds.mapM EscapeCppDefineForMSBuild = some outs)
    (ho : ∀ d ∈ ds, ¬ c!"\\043" <:+: d) :
    ∃ ws : List Str,
      msbuildList (GetValueFormattedForMSBuild tool c!"PreprocessorDefinitions" outs) =
        (ws.map fun w => trimToks (literalWord w)).filter (· ≠ []) ++
          [[.metadata c!"PreprocessorDefinitions"]] ∧
      List.Forall₂ (fun d w => (batchPercent w).map hashOctal = some d) ds ws := by
  refine ⟨ds.map fun d => (replaceChar '%' c!"%%" d).flatMap clChar, ?_, ?_⟩
  · have houts : outs = (ds.map (replaceChar '%' c!"%%")).map (·.flatMap msChar) := by
      clear ho
      induction ds generalizing outs with
      | nil => simp at h; subst h; rfl
      | cons d ds ih =>
        rw [List.mapM_cons] at h
        cases e1 : EscapeCppDefineForMSBuild d with
        | none => simp [e1] at h
        | some o =>
          cases e2 : ds.mapM EscapeCppDefineForMSBuild with
          | none => simp [e1, e2] at h
          | some os =>
            simp [e1, e2] at h
            rw [← h, ih os e2]
            unfold EscapeCppDefineForMSBuild at e1
            cases e3 : EscapeCommandLineArgumentForMSBuild false
                (EscapeEnvironmentVariableExpansion d) with
            | none => simp [e3] at e1
            | some t =>
              simp [e3] at e1
              rw [escapeMsbuild_some e3, replace_after_escape] at e1
              rw [← e1]; rfl
    have hfmt : GetValueFormattedForMSBuild tool c!"PreprocessorDefinitions" outs =
        joinWith c!";" ((ds.map (replaceChar '%' c!"%%")).map (·.flatMap msChar) ++
          [c!"%(PreprocessorDefinitions)"]) := by
      unfold GetValueFormattedForMSBuild
      have h1 : msbuildSeparator tool c!"PreprocessorDefinitions" = c!";" := by
        unfold msbuildSeparator
        rw [if_neg]
        rintro ⟨_, h⟩; revert h; decide
      have h2 : extendValue c!"PreprocessorDefinitions" outs =
          outs ++ [c!"%(PreprocessorDefinitions)"] := by
        unfold extendValue; rw [if_pos (by decide)]; rfl
      rw [h1, h2]
      congr 1
      have h3 : ∀ s ∈ outs ++ [c!"%(PreprocessorDefinitions)"],
          ConvertVCMacrosToMSBuild s = s := by
        intro s hs
        apply macros_noDollar
        rw [List.mem_append] at hs
        rcases hs with hs | hs
        · rw [houts, List.mem_map] at hs
          obtain ⟨x, _, rfl⟩ := hs
          exact escapedDefine_noDollar x
        · rw [List.mem_singleton] at hs; subst hs; decide
      rw [← houts, List.map_congr_left h3, List.map_id']
    rw [hfmt]
    unfold msbuildList
    rw [joined_words]
    have hlast : tokenWords (msbuildTokens c!"%(PreprocessorDefinitions)") =
        [[.metadata c!"PreprocessorDefinitions"]] := by decide +kernel
    rw [hlast, List.map_append, List.filter_append]
    congr 1
    · simp [List.map_map, Function.comp_def]
  · clear h
    induction ds with
    | nil => exact .nil
    | cons d ds ih =>
      refine .cons ?_ (ih fun x hx => ho x (by simp [hx]))
      simp only [percent_hash]
      have := percent_doubled (d.flatMap clChar) []
      simp only [List.append_nil, batchPercent, Option.map_some] at this
      rw [this, Option.map_some, hashOctal_replaced d (ho d (by simp))]

example : ∃ outs, [c!"A=\"x;$(y)\"", c!"B=50%*#"].mapM EscapeCppDefineForMSBuild = some outs ∧
    ∀ d ∈ [c!"A=\"x;$(y)\"", c!"B=50%*#"], ¬ c!"\\043" <:+: d :=
  ⟨_, rfl, by decide⟩

/-- Exactly the definitions with a backslash in front of a quote cannot be written:
the generator stops with a `TypeError`. -/
theorem C78_refused (d : Str) : EscapeCppDefineForMSBuild d = none ↔ c!"\\\"" <:+: d := by
  unfold EscapeCppDefineForMSBuild EscapeEnvironmentVariableExpansion
  rw [Option.map_eq_none_iff, escapeMsbuild_none, doubled_infix]
  simp

/-- The usual way to write a definition that is a C string is refused. -/
example : EscapeCppDefineForMSBuild c!"NAME=\\\"x\\\"" = none ∧
    (EscapeCppDefineForMSBuild c!"NAME=\"x\"").isSome := by decide

/-- C78 for projects of Visual Studio 2008 and earlier: the items of the list are as
many as the definitions, and each, put on the command line, is one argument whose
text, percent signs and octal number signs read, is the definition.  Missing:
definitions with an odd number of quotes or with a backslash at the end. -/
theorem C78_vcproj_partial (ds : List Str) (hne : ds ≠ [])
    (hq : ∀ d ∈ ds, d.count '"' % 2 = 0) (hb : ∀ d ∈ ds, d.getLast? ≠ some '\\')
    (ho : ∀ d ∈ ds, ¬ c!"\\043" <:+: d) :
    ∃ ws : List Str,
      (vcprojList false (joinWith c!";" (ds.map EscapeCppDefineForMSVS))).map argvWords =
        ws.map ([·]) ∧
      List.Forall₂ (fun d w => (batchPercent w).map hashOctal = some d) ds ws := by
  -- what is written for one definition
  have htext : ∀ d, EscapeCppDefineForMSVS d =
      '"' :: vcScan true false 0
        (winQuote 0 (replaceChar '%' c!"%%" (d.flatMap clChar)) ++ ['"']) := by
    intro d
    unfold EscapeCppDefineForMSVS EscapeCommandLineArgumentForMSVS
      EscapeEnvironmentVariableExpansion
    rw [item_scan, ← clChar_flatMap, vcScan_cl, List.flatMap_append, List.flatMap_append,
      winQuote_cl, percent_hash]
    rfl
  have hcount : ∀ d : Str, (replaceChar '%' c!"%%" (d.flatMap clChar)).count '"' =
      d.count '"' := by
    intro d
    have h1 : ∀ d : Str, (d.flatMap clChar).count '"' = d.count '"' := by
      intro d
      induction d with
      | nil => rfl
      | cons c cs ih =>
        rw [List.flatMap_cons, List.count_append, ih]
        by_cases h : c = '#'
        · subst h; simp [clChar]
        · simp only [clChar, if_neg h]
          rw [List.count_cons, List.count_cons]
          simp; omega
    have h2 : ∀ d : Str, (replaceChar '%' c!"%%" d).count '"' = d.count '"' := by
      intro d
      unfold replaceChar
      induction d with
      | nil => rfl
      | cons c cs ih =>
        rw [List.flatMap_cons, List.count_append, ih]
        by_cases h : c = '%'
        · subst h; simp
        · simp only [if_neg h]
          rw [List.count_cons, List.count_cons]
          simp; omega
    rw [h2, h1]
  have hlast : ∀ d : Str, d.getLast? ≠ some '\\' →
      (replaceChar '%' c!"%%" (d.flatMap clChar)).getLast? ≠ some '\\' := by
    have key : ∀ (f : Char → Str), (∀ c, f c ≠ []) → (∀ c, (f c).getLast? = some '\\' → c = '\\') →
        ∀ d : Str, d.getLast? ≠ some '\\' → (d.flatMap f).getLast? ≠ some '\\' := by
      intro f hf hf' d
      rcases List.eq_nil_or_concat d with rfl | ⟨init, last, rfl⟩
      · simp
      · intro h1 h2
        rw [List.concat_eq_append, List.flatMap_append, List.flatMap_cons, List.flatMap_nil,
          List.append_nil, List.getLast?_append] at h2
        cases e : (f last).getLast? with
        | none => exact hf last (List.getLast?_eq_none_iff.mp e)
        | some x =>
          rw [e] at h2
          simp at h2
          subst h2
          apply h1
          simp [hf' last e]
    intro d hd
    refine key _ ?_ ?_ _ (key _ ?_ ?_ d hd)
    · intro c; split <;> simp
    · intro c hc; split at hc
      · simp at hc
      · simpa using hc
    · intro c; unfold clChar; split <;> simp
    · intro c hc
      unfold clChar at hc
      split at hc
      · simp at hc
      · simpa using hc
  -- one item is quiet and ends outside of quotes
  have hquiet : ∀ d, d.count '"' % 2 = 0 → vcQuiet false (EscapeCppDefineForMSVS d) = true ∧
      vcEnd false (EscapeCppDefineForMSVS d) = false := by
    intro d hd
    rw [htext]
    have := scan_quiet (winQuote 0 (replaceChar '%' c!"%%" (d.flatMap clChar)) ++ ['"'])
      true false 0 (by simp)
    rw [List.count_append, winQuote_count, hcount] at this
    have h1 : (d.count '"' + ['"'].count '"') % 2 = 1 := by
      simp; omega
    rw [h1] at this
    exact ⟨this.1, this.2⟩
  have hitems : vcprojList false (joinWith c!";" (ds.map EscapeCppDefineForMSVS)) =
      ds.map EscapeCppDefineForMSVS := by
    clear hb ho
    induction ds with
    | nil => exact absurd rfl hne
    | cons d ds ih =>
      obtain ⟨q1, q2⟩ := hquiet d (hq d (by simp))
      cases ds with
      | nil =>
        simp only [List.map_cons, List.map_nil, joinWith]
        have := vcList_quiet _ [] false q1 [] [] (by rw [q2]; rfl)
        simpa using this
      | cons e es =>
        have ih := ih (by simp) (fun x hx => hq x (by simp [hx]))
        simp only [List.map_cons, joinWith] at ih ⊢
        rw [List.append_assoc]
        have hr : vcprojList (vcEnd false (EscapeCppDefineForMSVS d))
            (c!";" ++ joinWith c!";" (EscapeCppDefineForMSVS e :: es.map EscapeCppDefineForMSVS)) =
            [] :: EscapeCppDefineForMSVS e :: es.map EscapeCppDefineForMSVS := by
          rw [q2, List.singleton_append, vcprojList]
          simp only [or_true, true_and, if_true]
          rw [ih]
        rw [vcList_quiet _ _ false q1 _ _ hr]
        simp
  refine ⟨ds.map fun d => replaceChar '%' c!"%%" (d.flatMap clChar), ?_, ?_⟩
  · rw [hitems, List.map_map, List.map_map]
    apply List.map_congr_left
    intro d hd
    simp only [Function.comp_apply]
    rw [htext]
    unfold argvWords
    rw [List.foldl_cons]
    have h1 : argvStep ⟨false, 0, none, []⟩ '"' = ⟨true, 0, some [], []⟩ := by
      simp [argvStep, ArgvSt.push]
    rw [h1]
    have := argv_scan (replaceChar '%' c!"%%" (d.flatMap clChar)) 0 true false [] []
      (by simp) (by rw [hcount, hq d hd]; simp) (hlast d (hb d hd)) (fun _ => rfl)
    simp only [Bool.not_false] at this
    rw [this]
    simp
  · clear hne hq hb hitems
    induction ds with
    | nil => exact .nil
    | cons d ds ih =>
      refine .cons ?_ (ih fun x hx => ho x (by simp [hx]))
      have := percent_doubled (d.flatMap clChar) []
      simp only [List.append_nil, batchPercent, Option.map_some] at this
      rw [this, Option.map_some, hashOctal_replaced d (ho d (by simp))]

example : (∀ d ∈ [c!"A=\"x;,y\\\"", c!"B=50%, #"], d.count '"' % 2 = 0) ∧
    (∀ d ∈ [c!"A=\"x;,y\\\"", c!"B=50%, #"], d.getLast? ≠ some '\\') ∧
    ∀ d ∈ [c!"A=\"x;,y\\\"", c!"B=50%, #"], ¬ c!"\\043" <:+: d := by decide

/-- What is missing: an odd number of quotes joins a definition with the next, and a
backslash at the end swallows the closing quote. -/
theorem C78_vcproj_odd :
    vcprojList false (joinWith c!";" ([c!"A=\"", c!"B"].map EscapeCppDefineForMSVS)) =
      [c!"\"A=\\\"\";\"B\""] ∧
    argvWords (EscapeCppDefineForMSVS c!"A=\\") = [c!"A=\""] := by decide

/-! The other settings that are lists -/

theorem plain_msChar (v : Str) (h : ∀ c ∈ v, c ∉ c!";%$@*?'#") : v.flatMap msChar = v := by
  induction v with
  | nil => rfl
  | cons c v ih =>
    have hc := h c (by simp)
    simp only [List.mem_cons, List.not_mem_nil, or_false, not_or] at hc
    obtain ⟨h1, h2, h3, h4, h5, h6, h7, h8⟩ := hc
    rw [List.flatMap_cons, ih fun x hx => h x (by simp [hx])]
    simp [msChar, msbuildEscapeChar, *]

theorem plain_clChar (v : Str) (h : ∀ c ∈ v, c ∉ c!";%$@*?'#") : v.flatMap clChar = v := by
  induction v with
  | nil => rfl
  | cons c v ih =>
    have hc := h c (by simp)
    simp only [List.mem_cons, List.not_mem_nil, or_false, not_or] at hc
    rw [List.flatMap_cons, ih fun x hx => h x (by simp [hx])]
    simp [clChar, hc]

theorem formatted_plain (tool name : Str) (vs : List Str) (hv : ∀ v ∈ vs, '$' ∉ v) (hn : '$' ∉ name) :
    GetValueFormattedForMSBuild tool name vs =
      joinWith (msbuildSeparator tool name) (extendValue name vs) := by
  unfold GetValueFormattedForMSBuild
  congr 1
  refine (List.map_congr_left fun v h => ?_).trans (List.map_id _)
  apply macros_noDollar
  unfold extendValue at h
  split at h
  · rw [List.mem_append, List.mem_singleton] at h
    rcases h with h | rfl
    · exact hv v h
    · simpa using hn
  · exact hv v h

/-- A list of plain values that is not a list of command line options is what was given; the
include and library directories, the options, the libraries that load late, the warnings that
are off and the definitions also take what is inherited, and no other list does. -/
theorem C78_lists (tool name : Str) (vs : List Str) (hv : ∀ v ∈ vs, ∀ c ∈ v, c ∉ c!";%$@*?'#")
    (hn : '$' ∉ name)
    (ht : ¬ (tool ∈ [c!"ClCompile", c!"Link", c!"Lib"] ∧ name = c!"AdditionalOptions")) :
    msbuildList (GetValueFormattedForMSBuild tool name vs) =
      ((vs.map fun v => trimToks (literalWord v)).filter (· ≠ [])) ++
        (if name ∈ [c!"AdditionalIncludeDirectories", c!"AdditionalLibraryDirectories",
            c!"AdditionalOptions", c!"DelayLoadDLLs", c!"DisableSpecificWarnings",
            c!"PreprocessorDefinitions"]
          then [[.metadata name]] else []) := by
  have hvd : ∀ v ∈ vs, '$' ∉ v := fun v h hd => hv v h _ hd (by decide)
  rw [formatted_plain _ _ _ hvd hn]
  have hsep : msbuildSeparator tool name = c!";" := by
    unfold msbuildSeparator
    rw [if_neg ht]
  rw [hsep]
  have hwords : ∀ (us : List Str) (last : Str), (∀ v ∈ us, ∀ c ∈ v, c ∉ c!";%$@*?'#") →
      tokenWords (msbuildTokens (joinWith c!";" (us ++ [last]))) =
        us.map literalWord ++ tokenWords (msbuildTokens last) := by
    intro us last hu
    have := joined_words us last
    rw [List.map_congr_left (g := id) fun v h => plain_msChar v (hu v h), List.map_id] at this
    rw [this]
    congr 1
    exact List.map_congr_left fun v h => by rw [plain_clChar v (hu v h)]
  unfold extendValue msbuildList
  by_cases hx : name ∈ extendedSettings
  · have hlast : tokenWords (msbuildTokens (c!"%(" ++ name ++ c!")")) = [[.metadata name]] := by
      simp only [extendedSettings, List.mem_cons, List.not_mem_nil, or_false] at hx
      rcases hx with rfl | rfl | rfl | rfl | rfl | rfl <;> decide +kernel
    have hlist : name ∈ [c!"AdditionalIncludeDirectories", c!"AdditionalLibraryDirectories",
            c!"AdditionalOptions", c!"DelayLoadDLLs", c!"DisableSpecificWarnings",
            c!"PreprocessorDefinitions"] := hx
    rw [if_pos hx, if_pos hlist, hwords vs _ hv, hlast, List.map_append, List.filter_append,
      List.map_map]
    congr 1
  · have hlist : name ∉ [c!"AdditionalIncludeDirectories", c!"AdditionalLibraryDirectories",
            c!"AdditionalOptions", c!"DelayLoadDLLs", c!"DisableSpecificWarnings",
            c!"PreprocessorDefinitions"] := hx
    rw [if_neg hx, if_neg hlist, List.append_nil]
    rcases List.eq_nil_or_concat vs with rfl | ⟨us, last, rfl⟩
    · decide +kernel
    · rw [List.concat_eq_append] at *
      have h1 : tokenWords (msbuildTokens last) = [literalWord last] := by
        have hl := hv last (by simp)
        have := msTokens_flatMap last []
        rw [plain_msChar last hl, plain_clChar last hl] at this
        simp only [List.append_nil] at this
        rw [this, show msbuildTokens [] = [] by rw [msbuildTokens.eq_def], List.append_nil]
        have := tokenWords_last (literalWord last)
        rwa [literalWord, List.map_map] at this
      rw [hwords us last fun v h => hv v (by simp [h]), h1, List.map_append, List.map_map,
        List.map_append]
      rfl

/-- The options of the compiler, the linker and the librarian are one command line: the options
given, and then what is inherited, with a blank between each and the next. -/
theorem C78_options (tool : Str) (vs : List Str) (hv : ∀ v ∈ vs, '$' ∉ v)
    (ht : tool ∈ [c!"ClCompile", c!"Link", c!"Lib"]) :
    GetValueFormattedForMSBuild tool c!"AdditionalOptions" vs =
      joinWith c!" " (vs ++ [c!"%(AdditionalOptions)"]) := by
  rw [formatted_plain _ _ _ hv (by decide)]
  unfold msbuildSeparator extendValue
  rw [if_pos ⟨ht, rfl⟩, if_pos (by decide)]
  rfl

example : msbuildList (GetValueFormattedForMSBuild c!"Link" c!"DelayLoadDLLs" [c!"a.dll", c!" b.dll"]) =
    [literalWord c!"a.dll", literalWord c!"b.dll", [.metadata c!"DelayLoadDLLs"]] ∧
    GetValueFormattedForMSBuild c!"ClCompile" c!"AdditionalOptions" [c!"/W4", c!"/EHsc"] =
      c!"/W4 /EHsc %(AdditionalOptions)" := by
  refine ⟨?_, ?_⟩
  · rw [C78_lists _ _ _ (by decide) (by decide) (by decide)]; decide
  · rw [C78_options _ _ (by decide) (by decide)]; decide

end Gyp
