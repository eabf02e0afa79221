import Verif.Model.Quoting
/-
How preprocessor definitions and lists of settings are written to Visual Studio
project files: gyp/generator/msvs.py:744-893 and 3448-3474, and the macros of
gyp/MSVSSettings.py:368-371 and 405-442.
-/
namespace Gyp

/-- msvs.py:744-758 `_EscapeEnvironmentVariableExpansion`. -/
def EscapeEnvironmentVariableExpansion (s : Str) : Str := replaceChar '%' c!"%%" s

/-- msvs.py:761-788 `_EscapeCommandLineArgumentForMSVS`; the substitution is the one
of `winQuote`. -/
def EscapeCommandLineArgumentForMSVS (s : Str) : Str := ['"'] ++ winQuote 0 s ++ ['"']

/-- A comma or a semicolon, msvs.py:791. -/
def isDelim (c : Char) : Bool := c = ',' || c = ';'

/-- msvs.py:791,816-820 `delimiters_replacer_regex.sub(_Replace, segment)`: every
run of delimiters is put between quotes, the backslashes in front of it are doubled.
`run` says that a run of delimiters is being read, `n` counts the backslashes just
read. -/
def delimSub : Bool → Nat → Str → Str
  | run, n, [] => if run then ['"'] else List.replicate n '\\'
  | run, n, c :: cs =>
    if isDelim c then
      if run then c :: delimSub true 0 cs
      else List.replicate (2 * n) '\\' ++ '"' :: c :: delimSub true 0 cs
    else
      (if run then ['"'] else []) ++
        if c = '\\' then delimSub false ((if run then 0 else n) + 1) cs
        else List.replicate (if run then 0 else n) '\\' ++ c :: delimSub false 0 cs

/-- msvs.py:822-825 the loop over the segments with even index. -/
def subEven : Bool → List Str → List Str
  | _, [] => []
  | even, seg :: segs => (if even then delimSub false 0 seg else seg) :: subEven (!even) segs

/-- msvs.py:794-842 `_EscapeVCProjCommandLineArgListItem`.  (The warning about an
odd number of quotes is not modelled.) -/
def EscapeVCProjCommandLineArgListItem (s : Str) : Str :=
  joinWith ['"'] (subEven true (splitOn '"' s))

/-- msvs.py:845-853 `_EscapeCppDefineForMSVS`; `"\\%03o" % ord("#")` is `\043`. -/
def EscapeCppDefineForMSVS (s : Str) : Str :=
  replaceChar '#' c!"\\043"
    (EscapeVCProjCommandLineArgListItem
      (EscapeCommandLineArgumentForMSVS (EscapeEnvironmentVariableExpansion s)))

/-- msvs.py:856-867 `_EscapeCommandLineArgumentForMSBuild`.  Where the pattern
`(\\+)"` matches, the replacement multiplies a string by
`len(match.group(1)) / 2 * 4`, which is a float: `TypeError`, modelled as `none`.
Otherwise the text is unchanged.  `bs` says that the last character was a
backslash. -/
def EscapeCommandLineArgumentForMSBuild (bs : Bool) : Str → Option Str
  | [] => some []
  | c :: cs =>
    if c = '"' ∧ bs then none
    else (EscapeCommandLineArgumentForMSBuild (c = '\\') cs).map (c :: ·)

/-- msvs.py:871-879 `escape_dictionary.get(c, c)`. -/
def msbuildEscapeChar (c : Char) : Str :=
  if c = '%' then c!"%25"
  else if c = '$' then c!"%24"
  else if c = '@' then c!"%40"
  else if c = '\'' then c!"%27"
  else if c = ';' then c!"%3B"
  else if c = '?' then c!"%3F"
  else if c = '*' then c!"%2A"
  else [c]

/-- msvs.py:870-881 `_EscapeMSBuildSpecialCharacters`. -/
def EscapeMSBuildSpecialCharacters (s : Str) : Str := s.flatMap msbuildEscapeChar

/-- msvs.py:884-892 `_EscapeCppDefineForMSBuild`; `none` is `TypeError`. -/
def EscapeCppDefineForMSBuild (s : Str) : Option Str :=
  (EscapeCommandLineArgumentForMSBuild false (EscapeEnvironmentVariableExpansion s)).map
    fun s => replaceChar '#' c!"\\043" (EscapeMSBuildSpecialCharacters s)

/-- MSVSSettings.py:368-371,405-415 `FixVCMacroSlashes`: the slashes after
`$(IntDir)` and `$(OutDir)` are dropped. -/
def FixVCMacroSlashes (s : Str) : Str :=
  match s with
  | [] => []
  | c :: cs =>
    if startsWith (c :: cs) c!"$(IntDir)" then
      c!"$(IntDir)" ++ FixVCMacroSlashes
        (((c :: cs).drop 9).dropWhile fun x => x = '\\' || x = '/')
    else if startsWith (c :: cs) c!"$(OutDir)" then
      c!"$(OutDir)" ++ FixVCMacroSlashes
        (((c :: cs).drop 9).dropWhile fun x => x = '\\' || x = '/')
    else c :: FixVCMacroSlashes cs
termination_by s.length
decreasing_by
  · have := (List.dropWhile_sublist (fun x => x = '\\' || x = '/')
      (l := (c :: cs).drop 9)).length_le
    simp at this ⊢; omega
  · have := (List.dropWhile_sublist (fun x => x = '\\' || x = '/')
      (l := (c :: cs).drop 9)).length_le
    simp at this ⊢; omega
  · simp

/-- MSVSSettings.py:424-434 `replace_map`, in order. -/
def vcMacros : List (Str × Str) :=
  [(c!"$(ConfigurationName)", c!"$(Configuration)"),
   (c!"$(InputDir)", c!"%(RelativeDir)"),
   (c!"$(InputExt)", c!"%(Extension)"),
   (c!"$(InputFileName)", c!"%(Filename)%(Extension)"),
   (c!"$(InputName)", c!"%(Filename)"),
   (c!"$(InputPath)", c!"%(Identity)"),
   (c!"$(ParentName)", c!"$(ProjectFileName)"),
   (c!"$(PlatformName)", c!"$(Platform)"),
   (c!"$(SafeInputName)", c!"%(Filename)")]

/-- MSVSSettings.py:418-438 `ConvertVCMacrosToMSBuild`. -/
def ConvertVCMacrosToMSBuild (s : Str) : Str :=
  if '$' ∈ s then
    FixVCMacroSlashes (vcMacros.foldl (fun s m => replaceStr m.1 m.2 s) s)
  else s

/-- msvs.py:3452-3459 the settings whose inherited value is added. -/
def extendedSettings : List Str :=
  [c!"AdditionalIncludeDirectories", c!"AdditionalLibraryDirectories", c!"AdditionalOptions",
   c!"DelayLoadDLLs", c!"DisableSpecificWarnings", c!"PreprocessorDefinitions"]

/-- msvs.py:3460 what the list has become: the reference to the inherited value is
appended to the very list that was passed. -/
def extendValue (name : Str) (value : List Str) : List Str :=
  if name ∈ extendedSettings then value ++ [c!"%(" ++ name ++ c!")"] else value

/-- msvs.py:3463-3468 the separator. -/
def msbuildSeparator (tool name : Str) : Str :=
  if tool ∈ [c!"ClCompile", c!"Link", c!"Lib"] ∧ name = c!"AdditionalOptions" then c!" "
  else c!";"

/-- msvs.py:3448-3474 `_GetValueFormattedForMSBuild` of a list. -/
def GetValueFormattedForMSBuild (tool name : Str) (value : List Str) : Str :=
  joinWith (msbuildSeparator tool name)
    ((extendValue name value).map ConvertVCMacrosToMSBuild)

end Gyp
