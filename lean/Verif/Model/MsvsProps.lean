import Verif.Model.Toposort
import Verif.Model.MsvsSources
import Verif.Model.MsvsEscape
/-
The property groups of a Visual Studio project: gyp/generator/msvs.py:1128-1159, 1458-1482,
2998-3024, 3086-3315.  Texts of settings reach the model formatted (`_GetValueFormattedForMSBuild`
is in MsvsEscape).
-/
namespace Gyp

/-- The dictionary of properties: names, their values, and for each value the conditions under
which it holds. -/
abbrev PropTable := List (Str × List (Str × List Str))

/-- msvs.py:3238-3255 `_AddConditionalProperty`. -/
def addConditional (p : PropTable) (condition name value : Str) : PropTable :=
  let values := (aget p name).getD []
  aset p name (aset values value ((aget values value).getD [] ++ [condition]))

/-- msvs.py:3259 the first character of a name, `[a-zA-Z_]`. -/
def refStart (c : Char) : Bool := ('a' ≤ c && c ≤ 'z') || ('A' ≤ c && c ≤ 'Z') || c = '_'

/-- msvs.py:3259 the other characters of a name, `[a-zA-Z0-9_]`. -/
def refChar (c : Char) : Bool := refStart c || ('0' ≤ c && c ≤ '9')

/-- msvs.py:3259 `MSVS_VARIABLE_REFERENCE` at the start of a text. -/
def refHere : Str → Option Str
  | '$' :: '(' :: rest =>
    let name := rest.takeWhile refChar
    if (name.head?.any refStart) ∧ (rest.dropWhile refChar).head? = some ')' then some name else none
  | _ => none

/-- msvs.py:3259,3294 `findall`.  A match has one `$`, at its start, so that matches do not
overlap, and each place where the expression matches counts. -/
def msvsReferences : Str → List Str
  | [] => []
  | c :: cs => (refHere (c :: cs)).toList ++ msvsReferences cs

/-- msvs.py:3278-3299 `GetEdges`: a set, enumerated in the order given by `ord`. -/
def propEdges (ord : List Str → List Str) (p : PropTable) (node : Str) : List Str :=
  ord ((((pySorted strLe (akeys ((aget p node).getD []))).flatMap msvsReferences).filter
    fun v => decide (v ∈ akeys p ∧ v ≠ node)).foldl listAdd [])

/-- One element of a group: a name, perhaps a condition, and a value. -/
structure PropElement where
  name : Str
  condition : Option Str
  value : Str
deriving DecidableEq

/-- msvs.py:3306-3314: the elements of a property. -/
def propElements (configurations : Nat) (name : Str) (values : List (Str × List Str)) :
    List PropElement :=
  (pySorted (fun a b => strLe a.1 b.1) values).flatMap fun v =>
    if v.2.length = configurations then [⟨name, none, v.1⟩]
    else v.2.map fun condition => ⟨name, some condition, v.1⟩

/-- msvs.py:3262-3315 `_GetMSBuildPropertyGroup`, the elements without the label. -/
def propertyGroup (ord : List Str → List Str) (depth configurations : Nat) (p : PropTable) :
    Except (TopoErr Str) (List PropElement) :=
  match TopologicallySorted depth (akeys p) (propEdges ord p) with
  | .error e => .error e
  | .ok ordered =>
    .ok (ordered.reverse.flatMap fun name => propElements configurations name ((aget p name).getD []))

/-- One call of `_AddConditionalProperty`. -/
structure PropGiven where
  condition : Str
  name : Str
  value : Str
deriving DecidableEq

/-- The dictionary after a number of calls. -/
def propTable (calls : List PropGiven) : PropTable :=
  calls.foldl (fun p g => addConditional p g.condition g.name g.value) []

/-- What a target and one of its configurations say about the project: `msbuildAttributes` is
`msbuild_configuration_attributes` and `msvsAttributes` is `msvs_configuration_attributes`;
`externalDir` is `msvs_external_builder_out_dir` (with its default) of targets with
`msvs_external_builder`; `outputFile` and `toolExt` are `OutputFile` and `TargetExt` of the
settings of the tool that makes the product (empty if missing, or if there is no tool);
`settings` are the settings of the tool named `""`. -/
structure WinProject where
  msbuildAttributes : Option (List (Str × Str)) := none
  msvsAttributes : List (Str × Str) := []
  msvsProps : List Str := []
  externalDir : Option Str := none
  outputFile : Str := []
  toolExt : Str := []
  settings : List (Str × Str) := []

/-- The target: `type`, `product_prefix`, `product_name`, `product_extension`. -/
structure WinProduct where
  type : Str
  productPrefix : Str := []
  productName : Option Str := none
  productExtension : Option Str := none

/-- msvs.py:1139-1147 `_GetMSVSConfigurationType`; `none` is `GypError`. -/
def configurationType (type : Str) : Option Str :=
  aget [(c!"executable", c!"1"), (c!"shared_library", c!"2"), (c!"loadable_module", c!"2"),
    (c!"static_library", c!"4"), (c!"windows_driver", c!"5"), (c!"none", c!"10")] type

/-- msvs.py:3116-3125 `_ConvertMSVSConfigurationType`; `none` is `KeyError`. -/
def convertType (t : Str) : Option Str :=
  if t ≠ [] ∧ t.all (fun c => '0' ≤ c && c ≤ '9') then
    aget [(c!"1", c!"Application"), (c!"2", c!"DynamicLibrary"), (c!"4", c!"StaticLibrary"),
      (c!"5", c!"Driver"), (c!"10", c!"Utility")] t
  else some t

/-- msvs.py:3110-3113 `_ConvertMSVSCharacterSet`; `none` is `KeyError`. -/
def convertCharset (t : Str) : Option Str :=
  if t ≠ [] ∧ t.all (fun c => '0' ≤ c && c ≤ '9') then
    aget [(c!"0", c!"MultiByte"), (c!"1", c!"Unicode"), (c!"2", c!"MultiByte")] t
  else some t

/-- msvs.py:1458-1482 `_GetMSVSAttributes`. -/
def msvsAttributesOf (w : WinPaths) (p : WinProject) (type : Str) : List (Str × Str) :=
  let attrs := p.msvsAttributes.foldl (fun d a => aset d a.1 a.2) []
  let attrs := if p.msvsProps ≠ [] then
      aset attrs c!"InheritedPropertySheets" (joinWith c!";" (p.msvsProps.map (fixPath w)))
    else attrs
  let attrs := aset attrs c!"ConfigurationType" type
  let out := (aget attrs c!"OutputDirectory").getD c!"$(SolutionDir)$(ConfigurationName)"
  let attrs := aset attrs c!"OutputDirectory" (fixPath w out ++ c!"\\")
  match aget attrs c!"IntermediateDirectory" with
  | none => aset attrs c!"IntermediateDirectory"
      (fixPath w c!"$(ConfigurationName)\\obj\\$(ProjectName)" ++ c!"\\")
  | some d => aset attrs c!"IntermediateDirectory" (FixVCMacroSlashes (fixPath w d ++ c!"\\"))

/-- msvs.py:3090-3107: one attribute converted; the others are left out with a warning. -/
def convertAttribute (d : List (Str × Str)) (a : Str × Str) : Option (List (Str × Str)) :=
  if a.1 ∈ [c!"IntermediateDirectory", c!"OutputDirectory"] then
    let directory := ConvertVCMacrosToMSBuild a.2
    some (aset d a.1 (if endsWith directory c!"\\" then directory else directory ++ c!"\\"))
  else if a.1 = c!"CharacterSet" then (convertCharset a.2).map (aset d a.1)
  else if a.1 = c!"ConfigurationType" then (convertType a.2).map (aset d a.1)
  else if a.1 = c!"SpectreMitigation" ∨ a.1 = c!"VCToolsVersion" then some (aset d a.1 a.2)
  else some d

/-- msvs.py:3086-3107 `_ConvertMSVSBuildAttributes`. -/
def convertedAttributes (w : WinPaths) (p : WinProject) (type : Str) : Option (List (Str × Str)) :=
  (msvsAttributesOf w p type).foldlM convertAttribute []

/-- msvs.py:3132-3147: the attributes for MSBuild given by the configuration, completed. -/
def completedAttributes (w : WinPaths) (attrs : List (Str × Str)) (type : Str) :
    Option (List (Str × Str)) :=
  (convertType type).bind fun type =>
    let attrs := if c!"ConfigurationType" ∈ akeys attrs then attrs else aset attrs c!"ConfigurationType" type
    let out := (aget attrs c!"OutputDirectory").getD c!"$(SolutionDir)$(Configuration)"
    let attrs := aset attrs c!"OutputDirectory" (fixPath w out ++ c!"\\")
    let attrs := if c!"IntermediateDirectory" ∈ akeys attrs then attrs
      else aset attrs c!"IntermediateDirectory" (fixPath w c!"$(Configuration)" ++ c!"\\")
    match aget attrs c!"CharacterSet" with
    | none => some attrs
    | some c => (convertCharset c).map (aset attrs c!"CharacterSet")

/-- msvs.py:3128-3183 `_GetMSBuildAttributes`: the attributes, and the configuration after the
call, as its dictionary `msbuild_configuration_attributes` is changed in place. -/
def msbuildAttributes (w : WinPaths) (t : WinProduct) (p : WinProject) :
    Option (List (Str × Str) × WinProject) :=
  (configurationType t.type).bind fun type =>
    let given := match p.msbuildAttributes with
      | none => convertedAttributes w p type
      | some attrs => completedAttributes w attrs type
    given.map fun attrs =>
      let attrs := if c!"TargetName" ∈ akeys attrs then attrs
        else aset attrs c!"TargetName" (t.productPrefix ++ t.productName.getD c!"$(ProjectName)")
      let attrs := match t.productExtension with
        | none => attrs
        | some ext => if c!"TargetExt" ∈ akeys attrs then attrs else aset attrs c!"TargetExt" (c!"." ++ ext)
      let attrs := match p.externalDir with
        | none => attrs
        | some d => aset attrs c!"OutputDirectory" (fixPath w d ++ c!"\\")
      let attrs := if p.outputFile = [] then attrs else aset attrs c!"TargetPath" (fixPath w p.outputFile)
      let attrs := if p.toolExt = [] then attrs else aset attrs c!"TargetExt" p.toolExt
      (attrs, { p with msbuildAttributes := p.msbuildAttributes.map fun _ => attrs })

/-- msvs.py:2998-3024 `_GetMSBuildConfigurationDetails`: the calls for one configuration (drivers
and Windows runtime targets are left out: for them more calls are made, or fewer). -/
def detailCalls (condition : Str) (attrs : List (Str × Str)) : List PropGiven :=
  (aget attrs c!"ConfigurationType").toList.map (⟨condition, c!"ConfigurationType", ·⟩) ++
  ((aget attrs c!"SpectreMitigation").toList.filter (· ≠ [])).map (⟨condition, c!"SpectreMitigation", ·⟩) ++
  ((aget attrs c!"CharacterSet").toList.filter (· ≠ [])).map (⟨condition, c!"CharacterSet", ·⟩) ++
  ((aget attrs c!"VCToolsVersion").toList.filter (· ≠ [])).map (⟨condition, c!"VCToolsVersion", ·⟩)

/-- msvs.py:3203-3234: the calls for one configuration; `paths` is `new_paths`, empty when there
is none. -/
def globalCalls (paths condition : Str) (attrs : List (Str × Str)) (settings : List (Str × Str)) :
    List PropGiven :=
  (aget attrs c!"IntermediateDirectory").toList.map (⟨condition, c!"IntDir", ·⟩) ++
  (aget attrs c!"OutputDirectory").toList.map (⟨condition, c!"OutDir", ·⟩) ++
  (aget attrs c!"TargetName").toList.map (⟨condition, c!"TargetName", ·⟩) ++
  (aget attrs c!"TargetExt").toList.map (⟨condition, c!"TargetExt", ·⟩) ++
  ((aget attrs c!"TargetPath").toList.filter (· ≠ [])).map (⟨condition, c!"TargetPath", ·⟩) ++
  ((aget attrs c!"TargetExt").toList.filter (· ≠ [])).map (⟨condition, c!"TargetExt", ·⟩) ++
  (if paths = [] then [] else [⟨condition, c!"ExecutablePath", paths⟩]) ++
  (pySorted (fun a b => strLe a.1 b.1) settings).map fun s => ⟨condition, s.1, s.2⟩

/-- msvs.py:3190-3201 the value of `new_paths`; `dirs` is the first of `msvs_cygwin_dirs`. -/
def cygwinPaths (w : WinPaths) (dirs : Str) : Str :=
  if dirs = [] then []
  else
    let cyg := c!"$(MSBuildProjectDirectory)\\" ++ fixPath w dirs ++ c!"\\bin\\"
    c!"$(ExecutablePath);" ++ cyg ++ c!";" ++ replaceStr c!"cygwin\\bin" c!"python_26" cyg

/-- msvs.py:2998-3024 and 3186-3235: the two groups, of the details and of the global properties,
for the configurations of a target (name, configuration, and what it says).  Each configuration
is asked for its attributes once for each group.  `none` is an error about attributes. -/
def projectCalls (w : WinPaths) (t : WinProduct) (toolset dirs : Str)
    (configurations : List (Str × WinConfig × WinProject)) : Option (List PropGiven × List PropGiven) := do
  let first ← configurations.mapM fun c => msbuildAttributes w t c.2.2
  let details := (configurations.zip first).map fun c =>
    detailCalls (configurationCondition c.1.1 c.1.2.1 toolset) c.2.1
  let sorted := pySorted (fun a b => strLe a.1.1 b.1.1) (configurations.zip first)
  let second ← sorted.mapM fun c => msbuildAttributes w t c.2.2
  let globals := (sorted.zip second).map fun c =>
    globalCalls (cygwinPaths w dirs) (configurationCondition c.1.1.1 c.1.1.2.1 toolset) c.2.1 c.1.1.2.2.settings
  some (details.flatten, globals.flatten)

end Gyp
