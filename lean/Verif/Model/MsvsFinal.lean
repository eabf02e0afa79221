import Verif.Model.MsvsActions
import Verif.Model.MsvsProps
import Verif.Model.Assoc
import Verif.Model.Sort
/-
The settings of the tools in a Visual Studio project: gyp/generator/msvs.py:269-300, 1252-1407 and
3318-3474 (`_FinalizeMSBuildSettings`, `_GetMSBuildToolSettingsSections`).

The settings of Python are dictionaries of texts and of lists, and a list may be shared: what is
appended to it in one place is seen in the other.  So lists are objects here, named by where they
come from, with their contents in a heap.  The settings given for MSBuild, or made from those for
Visual Studio (`ConvertToMSBuildSettings`, Model/MsvsSettings.lean), are an input, with a list of
its own for every setting.  `os.path` is `ntpath`.
-/
namespace Gyp

/-- The value of a setting. -/
inductive GVal
  | text (s : Str)
  | list (l : List Str)
deriving DecidableEq

/-- A list object: given for a setting of a tool, made by the generator, or a copy it made. -/
inductive SObj
  | given (tool setting : Str)
  | made (name : Str)
  | copy (n : Nat)
deriving DecidableEq

/-- A value in a dictionary: a text or a list object. -/
inductive SVal
  | text (s : Str)
  | obj (o : SObj)
deriving DecidableEq

/-- The dictionaries of settings with the contents of the lists; `next` copies were made. -/
structure STools where
  heap : SObj → List Str
  next : Nat := 0
  tools : List (Str × List (Str × SVal))

/-- `bool(value)`. -/
def STools.truthy (t : STools) : SVal → Bool
  | .text s => s ≠ []
  | .obj o => t.heap o ≠ []

/-- A call of `_ToolAppend`, or of `_ToolSetOrAppend` (`evenEmpty`). -/
structure SCall where
  tool : Str
  setting : Str
  value : SVal
  onlyIfUnset : Bool := false
  evenEmpty : Bool := false

/-- msvs.py:277: the settings in whose values slashes are replaced. -/
def pathSetting (setting : Str) : Bool := hasSub c!"Directories" setting || hasSub c!"Dependencies" setting

/-- msvs.py:277-281: the value with backslashes; a list is copied. -/
def withBackslashes (t : STools) (c : SCall) : STools × SVal :=
  if pathSetting c.setting then
    match c.value with
    | .text s => (t, .text (replaceChar '/' c!"\\" s))
    | .obj o => ({ t with heap := fun x => if x = .copy t.next then (t.heap o).map (replaceChar '/' c!"\\") else t.heap x,
                          next := t.next + 1 }, .obj (.copy t.next))
  else (t, c.value)

/-- msvs.py:282-284: the dictionary of the tool, made if there is none. -/
def withTool (t : STools) (tool : Str) : STools :=
  if (aget t.tools tool).getD [] = [] then { t with tools := aset t.tools tool [] } else t

/-- msvs.py:285-300: the end of `_ToolSetOrAppend`; `none` is `TypeError`. -/
def storeSetting (t : STools) (c : SCall) (value : SVal) : Option STools :=
  let tool := (aget t.tools c.tool).getD []
  let store : STools := { t with tools := aset t.tools c.tool (aset tool c.setting value) }
  if c.setting = c!"CompileAsWinRT" then some t
  else
    match aget tool c.setting with
    | none => some store
    | some old =>
      if t.truthy old then
        if c.onlyIfUnset then some t
        else
          match old, value with
          | .obj o, .obj v => some { t with heap := fun x => if x = o then t.heap o ++ t.heap v else t.heap x }
          | _, _ => none
      else some store

/-- msvs.py:275-300 `_ToolSetOrAppend`. -/
def toolSetOrAppend (t : STools) (c : SCall) : Option STools :=
  let (t, value) := withBackslashes t c
  storeSetting (withTool t c.tool) c value

/-- msvs.py:269-272 `_ToolAppend`, or the call itself. -/
def toolCall (t : STools) (c : SCall) : Option STools :=
  if c.evenEmpty || t.truthy c.value then toolSetOrAppend t c else some t

/-- A given value in a dictionary: a list is an object of its own. -/
def loadValue (tool setting : Str) : GVal → SVal
  | .text v => .text v
  | .list _ => .obj (.given tool setting)

/-- The settings that are given, as dictionaries. -/
def loadSettings (given : List (Str × List (Str × GVal))) (made : Str → List Str) : STools where
  heap
    | .given tool setting =>
      match (aget given tool).bind fun s => aget s setting with
      | some (.list l) => l
      | _ => []
    | .made name => made name
    | .copy _ => []
  tools := given.map fun t => (t.1, t.2.map fun s => (s.1, loadValue t.1 s.1 s.2))

/-- What a target says about its settings.  `autoOutput` is `msvs_auto_output_file`. -/
structure WinLinked where
  type : Str
  libraries : List Str := []
  sources : List Str := []
  productDir : Option Str := none
  standalone : Bool := false
  autoOutput : Bool := true
  productExtension : Str := []
  productPrefix : Str := []
  productName : Option Str := none
  requiresImportLibrary : Bool := false

/-- What a configuration says about its settings: `given` are the settings given or converted, and
`converted` tells which.  A definition given as a list reaches the model joined (msvs.py:1378), a
missing list is empty, a missing text too.  `clang` tells that `msbuild_toolset` is `ClangCL`. -/
structure WinSettings where
  given : List (Str × List (Str × GVal)) := []
  converted : Bool := true
  includeDirs : List Str := []
  midlDirs : List Str := []
  systemDirs : List Str := []
  resourceDirs : Option (List Str) := none
  libraryDirs : List Str := []
  defines : List Str := []
  disabledWarnings : List Str := []
  prebuild : Str := []
  postbuild : Str := []
  precompiledHeader : Str := []
  clang : Bool := false

/-- msvs.py:1308-1310: the name of a library. -/
def libraryFile (entry : Str) : Str :=
  let library := if startsWith entry c!"-l" then entry.drop 2 else entry
  if (winSplitext library).2 = [] then library ++ c!".lib" else library

/-- msvs.py:1291-1315 `_GetLibraries`: from the last to the first, each once. -/
def getLibraries (libraries : List Str) : List Str :=
  (libraries.reverse.foldl (fun unique entry =>
    if libraryFile entry ∈ unique then unique else unique ++ [libraryFile entry]) []).reverse

/-- msvs.py:1332-1338: the tool, the directory of the product. -/
def outputFileMap : List (Str × Str × Str) :=
  [(c!"executable", c!"Link", c!"$(OutDir)"), (c!"shared_library", c!"Link", c!"$(OutDir)"),
   (c!"loadable_module", c!"Link", c!"$(OutDir)"), (c!"windows_driver", c!"Link", c!"$(OutDir)"),
   (c!"static_library", c!"Lib", c!"$(OutDir)lib\\")]

/-- msvs.py:1318-1354 `_GetOutputFilePathAndTool` for MSBuild: the file and the tool. -/
def outputFileAndTool (w : WinPaths) (t : WinLinked) : Str × Str :=
  match aget outputFileMap t.type with
  | none => ([], [])
  | some (tool, dir) =>
    if t.autoOutput then
      let dir := t.productDir.getD (if t.standalone then c!"$(OutDir)" else dir)
      let suffix := if t.productExtension = [] then c!"$(TargetExt)" else c!"." ++ t.productExtension
      (w.join dir (t.productPrefix ++ t.productName.getD c!"$(ProjectName)" ++ suffix), tool)
    else ([], [])

/-- msvs.py:1391-1407 `_GetModuleDefinition`; `none` is `ValueError`. -/
def moduleDefinition (w : WinPaths) (t : WinLinked) : Option Str :=
  if t.type ∈ [c!"shared_library", c!"loadable_module", c!"executable", c!"windows_driver"] then
    match t.sources.filter (endsWith · c!".def") with
    | [] => some []
    | [file] => some (fixPath w file)
    | _ => none
  else some []

/-- msvs.py:3357-3371: the definitions; `none` is `TypeError`. -/
def finalDefines (c : WinSettings) : Option (List Str) :=
  (if c.converted then c.defines.filter (· ≠ c!"_HAS_TR1=0") else c.defines).mapM EscapeCppDefineForMSBuild

/-- msvs.py:3414-3419: the header as the compiler is told. -/
def headerName (c : WinSettings) : Str :=
  if c.clang then c.precompiledHeader else winBasename c.precompiledHeader

/-- The lists the generator makes. -/
def madeLists (w : WinPaths) (t : WinLinked) (c : WinSettings) (defines : List Str) (name : Str) : List Str :=
  if name = c!"include_dirs" then (c.includeDirs ++ c.systemDirs).map (fixPath w)
  else if name = c!"midl_include_dirs" then (c.midlDirs ++ c.systemDirs).map (fixPath w)
  else if name = c!"resource_include_dirs" then
    (c.resourceDirs.getD (c.includeDirs ++ c.systemDirs)).map (fixPath w)
  else if name = c!"libraries" then getLibraries t.libraries
  else if name = c!"library_dirs" then c.libraryDirs.map (fixPath w)
  else if name = c!"defines" then defines
  else if name = c!"disabled_warnings" then c.disabledWarnings
  else if name = c!"precompiled_header" then [headerName c]
  else []

/-- msvs.py:3382-3445: the calls. -/
def settingCalls (w : WinPaths) (t : WinLinked) (c : WinSettings) (defFile : Str) : List SCall :=
  let (outFile, tool) := outputFileAndTool w t
  let targetExt := if t.productExtension = [] then [] else c!"." ++ t.productExtension
  [⟨c!"ClCompile", c!"AdditionalIncludeDirectories", .obj (.made c!"include_dirs"), false, false⟩,
   ⟨c!"Midl", c!"AdditionalIncludeDirectories", .obj (.made c!"midl_include_dirs"), false, false⟩,
   ⟨c!"ResourceCompile", c!"AdditionalIncludeDirectories", .obj (.made c!"resource_include_dirs"), false, false⟩,
   ⟨c!"Link", c!"AdditionalDependencies", .obj (.made c!"libraries"), false, true⟩,
   ⟨c!"Link", c!"AdditionalLibraryDirectories", .obj (.made c!"library_dirs"), false, false⟩] ++
  (if outFile = [] then [] else [⟨tool, c!"OutputFile", .text outFile, true, false⟩]) ++
  (if targetExt = [] then [] else [⟨tool, c!"TargetExt", .text targetExt, true, false⟩]) ++
  [⟨c!"ClCompile", c!"PreprocessorDefinitions", .obj (.made c!"defines"), false, false⟩,
   ⟨c!"ResourceCompile", c!"PreprocessorDefinitions", .obj (.made c!"defines"), false, false⟩,
   ⟨c!"ClCompile", c!"DisableSpecificWarnings", .obj (.made c!"disabled_warnings"), false, false⟩] ++
  (if c.precompiledHeader = [] then
    [⟨c!"ClCompile", c!"PrecompiledHeader", .text c!"NotUsing", false, false⟩]
  else
    [⟨c!"ClCompile", c!"PrecompiledHeader", .text c!"Use", false, false⟩,
     ⟨c!"ClCompile", c!"PrecompiledHeaderFile", .text (headerName c), false, false⟩,
     ⟨c!"ClCompile", c!"ForcedIncludeFiles", .obj (.made c!"precompiled_header"), false, false⟩]) ++
  [⟨c!"ClCompile", c!"CompileAsWinRT", .text c!"false", false, false⟩] ++
  (if t.requiresImportLibrary then [⟨[], c!"IgnoreImportLibrary", .text c!"false", false, false⟩] else []) ++
  (if t.type = c!"loadable_module" then [⟨[], c!"IgnoreImportLibrary", .text c!"true", false, false⟩] else []) ++
  (if defFile = [] then [] else [⟨c!"Link", c!"ModuleDefinitionFile", .text defFile, false, false⟩]) ++
  (if c.prebuild = [] then [] else [⟨c!"PreBuildEvent", c!"Command", .text c.prebuild, false, false⟩]) ++
  (if c.postbuild = [] then [] else [⟨c!"PostBuildEvent", c!"Command", .text c.postbuild, false, false⟩])

/-- msvs.py:3341-3445 `_FinalizeMSBuildSettings`; `none` is an error. -/
def finalizeSettings (w : WinPaths) (t : WinLinked) (c : WinSettings) : Option STools := do
  let defines ← finalDefines c
  let defFile ← moduleDefinition w t
  (settingCalls w t c defFile).foldlM toolCall (loadSettings c.given (madeLists w t c defines))

/-- msvs.py:3448-3474 `_GetValueFormattedForMSBuild`: the text, and the heap after the call. -/
def formatValue (heap : SObj → List Str) (tool setting : Str) : SVal → Str × (SObj → List Str)
  | .text s => (ConvertVCMacrosToMSBuild s, heap)
  | .obj o => (GetValueFormattedForMSBuild tool setting (heap o),
      fun x => if x = o then extendValue setting (heap o) else heap x)

/-- msvs.py:3330-3335: the settings of a tool. -/
def formatSettings (tool : Str) : (SObj → List Str) → List (Str × SVal) → List (Str × Str) × (SObj → List Str)
  | heap, [] => ([], heap)
  | heap, s :: rest =>
    let (text, heap) := formatValue heap tool s.1 s.2
    let (texts, heap) := formatSettings tool heap rest
    ((s.1, text) :: texts, heap)

/-- msvs.py:3326-3336: the tools of a configuration. -/
def formatTools : (SObj → List Str) → List (Str × List (Str × SVal)) → List (Str × List (Str × Str))
  | _, [] => []
  | heap, t :: rest =>
    if t.1 = [] ∨ t.2 = [] then formatTools heap rest
    else
      let (texts, heap) := formatSettings t.1 heap (pySorted (fun a b => strLe a.1 b.1) t.2)
      (t.1, texts) :: formatTools heap rest

/-- msvs.py:3318-3338 `_GetMSBuildToolSettingsSections`, the group of a configuration. -/
def toolSections (t : STools) : List (Str × List (Str × Str)) :=
  formatTools t.heap (pySorted (fun a b => strLe a.1 b.1) t.tools)

end Gyp
