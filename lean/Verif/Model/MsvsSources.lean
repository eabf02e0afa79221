import Verif.Model.OrderedSet
import Verif.Model.Assoc
import Verif.Model.Version
/-
The sources of a target in a Visual Studio project: gyp/generator/msvs.py:137-245,
925-957, 1485-1650, 2190-2310 and 3500-3637.

Modelled for versions of Visual Studio whose projects are `.vcxproj` files (2010 and
later); `UsesVcxproj()` is true throughout.  `os.path` is `ntpath`; `normpath`, `isabs` and
`join` are parameters (`WinPaths`).  Keys of `rules` reach the model as the values computed
from them: the names given to extensions, the dependencies of rules, and whether `.idl` files
are left to a rule.
-/
namespace Gyp

/-- The parts of `ntpath` the generator uses, and msvs.py:134 `fixpath_prefix` (empty when
it is not set). -/
structure WinPaths where
  norm : Str → Str
  isabs : Str → Bool
  join : Str → Str → Str
  base : Str

/-- msvs.py:137-153 `_NormalizedSource`. -/
def normalizedSource (w : WinPaths) (source : Str) : Str :=
  if source.count '$' = (w.norm source).count '$' then w.norm source else source

/-- msvs.py:182-189 `_IsWindowsAbsPath`. -/
def isWindowsAbsPath (path : Str) : Bool := startsWith path c!"c:" || startsWith path c!"C:"

/-- msvs.py:166-173: the path from the directory of the project. -/
def fromProject (w : WinPaths) (path : Str) : Str :=
  if w.base ≠ [] ∧ path ≠ [] ∧ w.isabs path = false ∧ path.head? ≠ some '$' ∧
      isWindowsAbsPath path = false then
    w.join w.base path
  else path

/-- msvs.py:180-181: one separator at the end is removed. -/
def dropLastSep (sep : Char) (path : Str) : Str :=
  if path.getLast? = some sep then path.dropLast else path

/-- msvs.py:158-182 `_FixPath` with backslashes. -/
def fixPath (w : WinPaths) (path : Str) : Str :=
  dropLastSep '\\' (normalizedSource w (replaceChar '/' ['\\'] (fromProject w path)))

/-- msvs.py:158-182 `_FixPath` with slashes. -/
def fixPathSlash (w : WinPaths) (path : Str) : Str :=
  dropLastSep '/' (replaceChar '\\' ['/'] (normalizedSource w (fromProject w path)))

/-- `ntpath.splitext` (`genericpath._splitext`): both separators count. -/
def winSplitext (p : Str) : Str × Str :=
  match rsplit1 '.' p with
  | none => (p, [])
  | some (root, ext) =>
    if '\\' ∈ ext ∨ '/' ∈ ext then (p, [])
    else if (root.reverse.takeWhile fun c => c ≠ '\\' && c ≠ '/').any (· ≠ '.') then
      (root, '.' :: ext)
    else (p, [])

/-- A configuration of a target: what matters for its sources. `pchHeader` and `pchSource` are
`msvs_precompiled_header` and `msvs_precompiled_source`, empty when missing; `platform` is
`msvs_configuration_platform` with its default `Win32` (msvs.py:2899). -/
structure WinConfig where
  pchHeader : Str := []
  pchSource : Str := []
  platform : Str := c!"Win32"
deriving DecidableEq

/-- An action: its inputs and outputs, and `process_outputs_as_sources`. -/
structure WinAction where
  inputs : List Str
  outputs : List Str
  asSources : Bool
deriving DecidableEq

/-- A target: `copies` are the `files` of each copy, `idlRule` tells that a rule for `idl`
files is external (msvs.py:1590-1595), `external` is `msvs_external_builder`. -/
structure WinTarget where
  sources : List Str
  sourcesExcluded : List Str
  actions : List WinAction
  copies : List (List Str)
  configurations : List (Str × WinConfig)
  toolset : Str
  idlRule : Bool := false
  external : Bool := false

/-- `OrderedSet.update`: the elements are added in turn. -/
def winUpdate (l : List Str) (xs : List Str) : List Str := xs.foldl listAdd l

/-- msvs.py:1512-1520: one action. -/
def prepareAction (w : WinPaths) (external : Bool) (acc : List Str × List Str) (a : WinAction) :
    List Str × List Str :=
  let inputs := winUpdate [] (a.inputs.map (normalizedSource w))
  let sources := winUpdate acc.1 inputs
  let excluded := if external then acc.2 else winUpdate acc.2 inputs
  let sources := if a.asSources then winUpdate sources (a.outputs.map (normalizedSource w)) else sources
  (sources, excluded)

/-- msvs.py:1489-1524 `_PrepareListOfSources`. -/
def prepareSources (w : WinPaths) (t : WinTarget) (standalone : Bool) (gypFile : Str) :
    List Str × List Str :=
  let sources := winUpdate [] (t.sources.map (normalizedSource w))
  let sources := if standalone then sources else listAdd sources gypFile
  let acc := t.actions.foldl (prepareAction w t.external) (sources, [])
  (t.copies.foldl (fun s files => winUpdate s (files.map (normalizedSource w))) acc.1, acc.2)

/-- `MSVSProject.Filter` objects and file names. -/
inductive WinTree where
  | file (name : Str)
  | folder (name : Str) (contents : List WinTree)

/-- msvs.py:226-238 for one source below the first level: the recursive calls get one source
each. -/
def sourceChain (w : WinPaths) (excluded : List Str) (listExcluded : Bool) (before : List Str) :
    List Str → List WinTree
  | [] => []          -- not reached: `split` gives at least one part
  | [x] =>
    let name := normalizedSource w (joinWith ['\\'] (before ++ [x]))
    if name ∈ excluded then
      if listExcluded then [.folder c!"_excluded_files" [.file name]] else []
    else [.file name]
  | x :: y :: rest => [.folder x (sourceChain w excluded listExcluded (before ++ [x]) (y :: rest))]

/-- msvs.py:216-239: what one source of the first call adds to `result`. -/
def topEntry (w : WinPaths) (excluded : List Str) (listExcluded : Bool) : List Str → List WinTree
  | [] => []
  | [x] =>
    let name := normalizedSource w x
    if name ∈ excluded then [] else [.file name]
  | x :: y :: rest => [.folder x (sourceChain w excluded listExcluded [x] (y :: rest))]

/-- msvs.py:216-221: what one source of the first call adds to `excluded_result`. -/
def topExcluded (w : WinPaths) (excluded : List Str) : List Str → List WinTree
  | [x] =>
    let name := normalizedSource w x
    if name ∈ excluded then [.file name] else []
  | _ => []

/-- msvs.py:196-248 `_ConvertSourcesToFilterHierarchy`. -/
def sourceHierarchy (w : WinPaths) (excluded : List Str) (listExcluded : Bool)
    (sources : List (List Str)) : List WinTree :=
  let result := sources.flatMap (topEntry w excluded listExcluded)
  let excludedResult := sources.flatMap (topExcluded w excluded)
  if excludedResult ≠ [] ∧ listExcluded then
    result ++ [.folder c!"_excluded_files" excludedResult]
  else result

/-- All entries are folders of one name (msvs.py:1574-1575); a list without entries has no
name. -/
def folderName : List WinTree → Option Str
  | [] => none
  | .file _ :: _ => none
  | .folder n _ :: rest =>
    if rest.all fun t => match t with
      | .folder m _ => m = n
      | .file _ => false
    then some n else none

/-- msvs.py:1577-1578: the only entry of each folder, `none` when the assertion fails. -/
def onlyContents : List WinTree → Option (List WinTree)
  | [] => some []
  | .file _ :: _ => none
  | .folder _ [t] :: rest => (onlyContents rest).map (t :: ·)
  | .folder _ _ :: _ => none

/-- The assertion of msvs.py:1577 only lets smaller trees through. -/
theorem onlyContents_size {ts us : List WinTree} (h : onlyContents ts = some us) (hne : ts ≠ []) :
    sizeOf us < sizeOf ts := by
  induction ts generalizing us with
  | nil => exact absurd rfl hne
  | cons t ts ih =>
    rcases t with n | ⟨n, _ | ⟨c, _ | ⟨d, ds⟩⟩⟩
    · simp [onlyContents] at h
    · simp [onlyContents] at h
    · simp only [onlyContents, Option.map_eq_some_iff] at h
      obtain ⟨vs, h1, rfl⟩ := h
      by_cases hts : ts = []
      · subst hts
        simp only [onlyContents, Option.some.injEq] at h1
        subst h1
        simp
        omega
      · have := ih h1 hts
        simp
        omega
    · simp [onlyContents] at h

/-- msvs.py:1572-1578: common outer folders are removed; `none` is the failed assertion. -/
def pruneFolders (ts : List WinTree) : Option (List WinTree) :=
  if folderName ts = none then some ts
  else match _h : onlyContents ts with
    | none => none
    | some us => if _hne : ts = [] then some ts else pruneFolders us
termination_by sizeOf ts
decreasing_by exact onlyContents_size _h _hne

/-- msvs.py:92-95 and 1600-1608 `_GetPrecompileRelatedFiles`. -/
def precompileRelated (w : WinPaths) (configs : List (Str × WinConfig)) : List Str :=
  configs.flatMap fun c =>
    ([c.2.pchHeader, c.2.pchSource].filter (· ≠ [])).map (fixPath w)

/-- msvs.py:1586-1597 `_IdlFilesHandledNonNatively`. -/
def idlByRule (t : WinTarget) (sources : List Str) : List Str :=
  if t.idlRule then sources.filter (endsWith · c!".idl") else []

/-- What `_AdjustSourcesAndConvertToFilterHierarchy` returns. -/
structure WinAdjusted where
  tree : List WinTree
  excluded : List Str
  excludedIdl : List Str

/-- msvs.py:1528-1583 `_AdjustSourcesAndConvertToFilterHierarchy`. -/
def adjustSources (w : WinPaths) (t : WinTarget) (listExcluded : Bool)
    (sources excluded : List Str) : Option WinAdjusted :=
  let excluded := winUpdate excluded (winUpdate [] t.sourcesExcluded)
  let sources := winUpdate sources excluded
  let sources := sources.map (fixPath w)
  let excluded := excluded.map (fixPath w)
  let idl := idlByRule t sources
  let related := precompileRelated w t.configurations
  let fully := excluded.filter (· ∉ related)
  (pruneFolders (sourceHierarchy w fully listExcluded (sources.map (splitOn '\\')))).map
    fun tree => ⟨tree, excluded, idl⟩

/-- msvs.py:947-957 `_FilterActionsFromExcluded`; `keys` are the files actions are attached to. -/
def keepAttached (w : WinPaths) (excluded keys : List Str) : List Str :=
  excluded.filter (· ∉ winUpdate [] (keys.map (fixPath w)))

/-- msvs.py:1628-1649 `_GetExcludedFilesFromBuild`. -/
def excludedFromBuild (w : WinPaths) (configs : List (Str × WinConfig)) (excluded idl : List Str) :
    List (Str × List (Str × WinConfig)) :=
  let d := excluded.foldl (fun d f => aset d f (configs.filter fun c =>
    f ∉ [fixPath w c.2.pchHeader, fixPath w c.2.pchSource])) []
  idl.foldl (fun d f => aset d f configs) d

/-- msvs.py:2897-2902 `_GetConfigurationAndPlatform`. -/
def configurationAndPlatform (name : Str) (c : WinConfig) (toolset : Str) : Str × Str :=
  let configuration := match rsplit1 '_' name with
    | none => name
    | some (front, _) => front
  (configuration,
    if toolset = c!"host" ∧ c.platform = c!"arm64" then c!"x64" else c.platform)

/-- msvs.py:2905-2908 `_GetConfigurationCondition`. -/
def configurationCondition (name : Str) (c : WinConfig) (toolset : Str) : Str :=
  c!"'$(Configuration)|$(Platform)'=='" ++ (configurationAndPlatform name c toolset).1 ++ c!"|" ++
    (configurationAndPlatform name c toolset).2 ++ c!"'"

/-- msvs.py:2268-2310 `_MapFileToMsBuildSourceType`.  `rules` gives names to extensions. -/
def sourceType (rules : List (Str × Str)) (dependencies platforms : List Str) (toolset source : Str) :
    Str × Str :=
  let ext := lowerStr (winSplitext source).2
  match aget rules ext with
  | some element => (c!"rule", element)
  | none =>
    if ext ∈ [c!".cc", c!".cpp", c!".c", c!".cxx", c!".mm"] then (c!"compile", c!"ClCompile")
    else if ext ∈ [c!".h", c!".hxx"] then (c!"include", c!"ClInclude")
    else if ext = c!".rc" then (c!"resource", c!"ResourceCompile")
    else if ext ∈ [c!".s", c!".asm"] then
      (c!"masm", if c!"arm64" ∈ platforms ∧ toolset = c!"target" then c!"MARMASM" else c!"MASM")
    else if ext = c!".idl" then (c!"midl", c!"Midl")
    else if source ∈ dependencies then (c!"rule_dependency", c!"CustomBuild")
    else (c!"none", c!"None")

/-- An element below an item: name, condition and value. -/
structure Detail where
  name : Str
  condition : Option Str
  value : Str
deriving DecidableEq

/-- An item of a project. -/
structure Item where
  element : Str
  source : Str
  details : List Detail
deriving DecidableEq

/-- msvs.py:3589-3596: files the precompiled header is not for. -/
def otherKind (w : WinPaths) (pchSource : Str) : List Str :=
  if (winSplitext (fixPath w pchSource)).2 = c!".c" then [c!".cc", c!".cpp", c!".cxx"] else [c!".c"]

/-- msvs.py:3578-3617: the precompiled header of one source in one configuration. The first
component is `extensions_excluded_from_precompile`. -/
def precompileStep (w : WinPaths) (toolset source : Str) (acc : List Str × List Detail)
    (c : Str × WinConfig) : List Str × List Detail :=
  let pch := if c.2.pchSource ≠ [] then fixPath w c.2.pchSource else []
  let exts := if c.2.pchSource ≠ [] ∧ acc.1 = [] then otherKind w c.2.pchSource else acc.1
  if pch = source then
    (exts, acc.2 ++ [⟨c!"PrecompiledHeader", some (configurationCondition c.1 c.2 toolset), c!"Create"⟩])
  else
    (exts, acc.2 ++ exts.flatMap fun e =>
      if endsWith source e then [⟨c!"PrecompiledHeader", none, []⟩, ⟨c!"ForcedIncludeFiles", none, []⟩]
      else [])

/-- `re.sub(r"^(\.\.\\)+", "", s)` -/
def dropParents : Str → Str
  | '.' :: '.' :: '\\' :: rest => dropParents rest
  | s => s

/-- `re.sub(r"^\$\([^)]+\)\\", "", s)` for a text that starts with `$(`. -/
def dropVariable (s : Str) : Str :=
  match split1 ')' (s.drop 2) with
  | some (name, '\\' :: rest) => if name = [] then s else rest
  | _ => s

/-- msvs.py:3627-3632: the object of a source. -/
def objectName (source : Str) : Str :=
  let name := (winSplitext source).1 ++ c!".obj"
  if startsWith name c!"..\\" then dropParents name
  else if startsWith name c!"$(" then dropVariable name
  else name

/-- What `_AddSources2` knows: the target, its exclusions, the rules, the sources an action
is attached to, and the platforms (msvs.py:1095-1108). -/
structure SourceEnv where
  paths : WinPaths
  configurations : List (Str × WinConfig)
  toolset : Str
  platforms : List Str
  rules : List (Str × Str)
  dependencies : List Str
  exclusions : List (Str × List (Str × WinConfig))
  handled : List Str

/-- msvs.py:3564-3636: one source, `none` for the call of `_GetConfigurationCondition` with an
argument missing (msvs.py:3573), which is a `TypeError`. -/
def addWinSource (e : SourceEnv) (exts : List Str) (source : Str) :
    Option (List Str × List (Str × Item)) :=
  if source ∈ e.handled then some (exts, [])
  else
    let configs := (aget e.exclusions source).getD []
    let excluded : Option (List Detail) :=
      if configs.length = e.configurations.length then some [⟨c!"ExcludedFromBuild", none, c!"true"⟩]
      else if configs = [] then some []
      else none
    excluded.map fun first =>
      let acc := e.configurations.foldl (precompileStep e.paths e.toolset source) (exts, first)
      let type := sourceType e.rules e.dependencies e.platforms e.toolset source
      let object := if type.1 = c!"compile" ∧ e.paths.isabs source = false then
          [⟨c!"ObjectFileName", none, c!"$(IntDir)\\" ++ objectName source⟩]
        else []
      (acc.1, [(type.1, ⟨type.2, source, acc.2 ++ object⟩)])

/-- msvs.py:3543-3636 `_AddSources2`: the items with their groups, in the order in which they
are added. -/
def addWinSources (e : SourceEnv) (exts : List Str) : List WinTree → Option (List (Str × Item))
  | [] => some []
  | .file s :: rest =>
    match addWinSource e exts s with
    | none => none
    | some (exts', items) => (addWinSources e exts' rest).map (items ++ ·)
  | .folder _ contents :: rest =>
    match addWinSources e [] contents with
    | none => none
    | some items => (addWinSources e exts rest).map (items ++ ·)
termination_by ts => sizeOf ts

/-- msvs.py:3513-3522 -/
def sourceGroups : List Str :=
  [c!"none", c!"masm", c!"midl", c!"include", c!"compile", c!"resource", c!"rule", c!"rule_dependency"]

/-- msvs.py:3503-3540 `_GetMSBuildSources`: the items of the groups (the actions are not part
of this). -/
def projectItems (e : SourceEnv) (tree : List WinTree) : Option (List (List Item)) :=
  (addWinSources e [] tree).map fun items =>
    (sourceGroups.map fun g => (items.filter (·.1 = g)).map (·.2)).filter (· ≠ [])

/-- An entry of the filters file: type, file, folder. -/
structure FilterEntry where
  element : Str
  source : Str
  folder : Option Str
deriving DecidableEq

/-- msvs.py:2213-2265 `_AppendFiltersForMSBuild`: the folders declared and the entries of the
files, in order.  (The identifier of each folder is not modelled.) -/
def filterEntries (type : Str → Str) (parent : Str) : List WinTree → List Str × List FilterEntry
  | [] => ([], [])
  | .file s :: rest =>
    let r := filterEntries type parent rest
    (r.1, ⟨type s, s, if parent = [] then none else some parent⟩ :: r.2)
  | .folder n contents :: rest =>
    let name := if parent = [] then n else parent ++ c!"\\" ++ n
    let inner := filterEntries type name contents
    let r := filterEntries type parent rest
    (name :: (inner.1 ++ r.1), inner.2 ++ r.2)
termination_by ts => sizeOf ts

/-- What the generator needs besides the target: the flags `standalone` and
`msvs_list_excluded_files`, the name of the build file, what the rules gave, and the files
actions are attached to. -/
structure ProjectInput where
  paths : WinPaths
  target : WinTarget
  listExcluded : Bool
  rules : List (Str × Str)
  dependencies : List Str
  attached : List Str

/-- What the project says about its sources: the items, the declared folders and the entries of
the filters file. -/
structure ProjectSources where
  groups : List (List Item)
  folders : List Str
  entries : List FilterEntry
deriving DecidableEq

/-- msvs.py:1095-1108 `_GetUniquePlatforms` -/
def uniquePlatforms (configs : List (Str × WinConfig)) : List Str :=
  winUpdate [] (configs.map (·.2.platform))

/-- msvs.py:3715-3740 and 3806: the part of `_GenerateMSBuildProject` about sources, from the
sets of sources and of excluded sources.  The keys of `actions_to_add` are `attached`; the
files handled by actions are their fixed paths (msvs.py:3952-3985; without cross compilation). -/
def projectSources (p : ProjectInput) (sources excluded : List Str) : Option ProjectSources :=
  match adjustSources p.paths p.target p.listExcluded sources excluded with
  | none => none
  | some adjusted =>
    let attached := if p.target.external then [] else p.attached
    let excluded :=
      if p.target.external then adjusted.excluded
      else keepAttached p.paths adjusted.excluded attached
    let platforms := uniquePlatforms p.target.configurations
    let env : SourceEnv := {
      paths := p.paths
      configurations := p.target.configurations
      toolset := p.target.toolset
      platforms := platforms
      rules := p.rules
      dependencies := p.dependencies
      exclusions := excludedFromBuild p.paths p.target.configurations excluded adjusted.excludedIdl
      handled := attached.map (fixPath p.paths) }
    let filters := filterEntries
      (fun s => (sourceType p.rules p.dependencies platforms p.target.toolset s).2) [] adjusted.tree
    (projectItems env adjusted.tree).map fun groups => ⟨groups, filters.1, filters.2⟩

end Gyp
