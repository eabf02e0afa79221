import Verif.Model.Assoc
import Verif.Model.Sort
import Verif.Model.Splitext
import Verif.Model.Targets
import Verif.Model.Load
import Verif.Model.MsvsSources
/-
The Visual Studio solution and the project references: `gyp/pylib/gyp/generator/msvs.py`
(`_CreateProjectObjects`, `_GatherSolutionFolders`, the loop of `GenerateOutput`,
`_GetMSBuildProjectConfigurations`, `_GetMSBuildProjectReferences`) and
`gyp/pylib/gyp/MSVSNew.py` (`MSVSFolder`, `MSVSProject`, `MSVSSolution`).

Simplifications: paths are POSIX paths; the MD5 sum of `MakeGuid` is a parameter; the targets are
those after `ShardTargets` and `InsertLargePdbShims`; a project object is identified by the
qualified name of its target, so that the list of created projects plays the part of the heap.
-/
namespace Gyp

/-- A configuration: what the solution needs.  `target` is `msvs_target_platform`, `uldi` and
`noUldi` are `msvs_use_library_dependency_inputs` and `msvs_2010_disable_uldi_when_referenced`. -/
structure SlnConfig extends WinConfig where
  target : Option Str := none
  uldi : Bool := false
  noUldi : Bool := false
deriving DecidableEq

/-- A target: `spec` is the part the dependency code uses, `existing` and `guid` are
`msvs_existing_vcproj` and `msvs_guid` of its default configuration (empty when missing),
`external` is `msvs_external_builder`. -/
structure SlnTarget where
  name : Str
  toolset : Str
  spec : TSpec
  configurations : List (Str × SlnConfig)
  existing : Str := []
  guid : Str := []
  external : Bool := false
deriving DecidableEq

/-- The surroundings: `options.suffix`, `options.generator_output` (empty when not given), the
Visual Studio version (`ext` is `ProjectExtension()`, `flat` is `FlatSolution()`),
`generator_supports_multiple_toolsets` (msvs.py:39) and `MakeGuid(name, seed)`. -/
structure SlnEnv where
  cwd : List Str
  suffix : Str := []
  output : Str := []
  ext : Str := c!".vcxproj"
  flat : Bool := false
  version : Str := c!"12.00"
  description : Str := c!"Visual Studio 2015"
  multi : Bool := false
  makeGuid : Str → Str → Str

/-- What can go wrong. -/
inductive SlnErr where
  | keyError (name : Str)
  | badGuid (guid : Str)
  | typeError
deriving DecidableEq

/-! ### Configurations -/

/-- msvs.py:311-315 `_ConfigBaseName`. -/
def configBaseName (name platform : Str) : Str :=
  if endsWith name ('_' :: platform) then name.take (name.length - (platform.length + 1)) else name

/-- msvs.py:318-320 `_ConfigFullName`. -/
def configFullName (name : Str) (c : SlnConfig) : Str :=
  configBaseName name c.platform ++ c!"|" ++ c.platform

/-- msvs.py:1893-1905 `_GetPlatformOverridesOfProject`. -/
def platformOverrides (env : SlnEnv) (t : SlnTarget) : List (Str × Str) :=
  t.configurations.foldl (fun d c =>
    let fixed := configBaseName c.1 c.2.platform ++ c!"|" ++ c.2.target.getD c.2.platform
    let fixed := if t.toolset = c!"host" ∧ env.multi then c.1 ++ c!"|x64" else fixed
    aset d (configFullName c.1 c.2) fixed) []

/-- msvs.py:2110-2119 the set of configurations, in some order. -/
def solutionConfigs (targets : List (Str × SlnTarget)) : List Str :=
  targets.foldl (fun s t => t.2.configurations.foldl (fun s c =>
    let name := configFullName c.1 c.2
    let s := listAdd s name
    if name = c!"Release|arm64" then listAdd s c!"Release|x64" else s) s) []

/-- msvs.py:2137-2139 those a solution shows. -/
def shownConfigs (env : SlnEnv) (configs : List Str) : List Str :=
  if env.multi then configs.filter (endsWith · c!"arm64") else configs

/-- msvs.py:2911-2925 `_GetMSBuildProjectConfigurations`: the designations a project file lists
(`sorted` compares the names, which are distinct). -/
def projectConfigurations (t : SlnTarget) : List Str :=
  (pySorted (fun a b => strLe a.1 b.1) t.configurations).map fun c =>
    (configurationAndPlatform c.1 c.2.toWinConfig t.toolset).1 ++ c!"|" ++
      (configurationAndPlatform c.1 c.2.toWinConfig t.toolset).2

/-! ### Projects -/

/-- `MSVSNew.MSVSProject`; the dependencies are the qualified names of their targets. -/
structure SlnProject where
  path : Str
  name : Str
  guid : Str
  overrides : List (Str × Str)
  dependencies : List Str
deriving DecidableEq

/-- The characters of `VALID_MSVS_GUID_CHARS` (msvs.py:37). -/
def guidChar (c : Char) : Bool :=
  ('A'.toNat ≤ c.toNat && c.toNat ≤ 'F'.toNat) || ('0'.toNat ≤ c.toNat && c.toNat ≤ '9'.toNat) ||
    c = '-'

/-- msvs.py:979 `VALID_MSVS_GUID_CHARS.match(guid)`; `$` also matches before a final newline. -/
def validGuid (guid : Str) : Bool :=
  let body := if endsWith guid ['\n'] then guid.dropLast else guid
  body ≠ [] && body.all guidChar

/-- msvs.py:964-987 `_GetGuidOfProject`. -/
def guidOfProject (env : SlnEnv) (path : Str) (t : SlnTarget) : Except SlnErr Str :=
  if t.guid ≠ [] then
    if validGuid t.guid then .ok (c!"{" ++ t.guid ++ c!"}") else .error (.badGuid t.guid)
  else .ok (env.makeGuid c!"msvs_new" path)

/-- msvs.py:1928-1930 the name shown. -/
def shownName (t : SlnTarget) : Str := if t.toolset = c!"host" then t.name ++ c!"_host" else t.name

/-- msvs.py:1872-1890 `_GetPathOfProject`, the path. -/
def pathOfProject (env : SlnEnv) (q : Str) (t : SlnTarget) : Str :=
  let file := if t.existing ≠ [] then t.existing else shownName t ++ env.suffix ++ env.ext
  let path := pathJoin (dirname ((BuildFile q).getD [])) file
  if env.output ≠ [] then pathJoin env.output path else path

/-- msvs.py:1922-1949 the project object of a target, still without dependencies: its path and
GUID. -/
def projectFirst (env : SlnEnv) (t : Str × SlnTarget) : Except SlnErr (Str × SlnTarget × Str × Str) :=
  match guidOfProject env (pathOfProject env t.1 t.2) t.2 with
  | .error e => .error e
  | .ok guid => .ok (t.1, t.2, pathOfProject env t.1 t.2, guid)

/-- msvs.py:1954 `projects[d]` for the dependencies. -/
def knownProjects (known : List Str) (deps : List Str) : Except SlnErr (List Str) :=
  deps.mapM fun d => if d ∈ known then .ok d else .error (.keyError d)

/-- msvs.py:1950-1956 setting the dependencies; none with an external builder. -/
def projectSecond (env : SlnEnv) (known : List Str) (p : Str × SlnTarget × Str × Str) :
    Except SlnErr (Str × SlnProject) :=
  match (if p.2.1.external then .ok [] else knownProjects known p.2.1.spec.deps) with
  | .error e => .error e
  | .ok deps => .ok (p.1, { path := p.2.2.1, name := shownName p.2.1, guid := p.2.2.2,
                            overrides := platformOverrides env p.2.1, dependencies := deps })

/-- msvs.py:1908-1957 `_CreateProjectObjects`. -/
def createProjects (env : SlnEnv) (targets : List (Str × SlnTarget)) :
    Except SlnErr (List (Str × SlnProject)) :=
  match targets.mapM (projectFirst env) with
  | .error e => .error e
  | .ok ps => ps.mapM (projectSecond env (targets.map (·.1)))

/-! ### The tree of folders -/

/-- The tree of dicts of `_GatherSolutionFolders`. -/
inductive SNode where
  | proj (q : Str)
  | dir (entries : List (Str × SNode))

/-- msvs.py:1803-1812 the folders `_GetPathDict` goes through: `os.path.split` takes off the last
name; what is left when it is empty or ends in a slash (the root directory) stands for the root of
the tree. -/
def pathNames (path : Str) : List Str :=
  if endsWith path ['/'] then [] else (splitOn '/' path).filter (· ≠ [])

/-- msvs.py:1803-1812 and 1860-1861: the entry for a project is put below the folders.  Going into
a project as if it were a folder raises `TypeError`. -/
def putProject : List Str → Str → Str → List (Str × SNode) → Except SlnErr (List (Str × SNode))
  | [], name, q, d => .ok (aset d name (.proj q))
  | f :: fs, name, q, d =>
    match aget d f with
    | none => do
      let sub ← putProject fs name q []
      .ok (aset d f (.dir sub))
    | some (.dir sub) => do
      let sub ← putProject fs name q sub
      .ok (aset d f (.dir sub))
    | some (.proj _) => .error .typeError

/-- msvs.py:1854-1861 where a project goes: the folders and the name. -/
def projectPlace (q : Str) : List Str × Str :=
  let target := (ParseQualifiedTarget q).2.1
  let target := if endsWith q c!"#host" then target ++ c!"_host" else target
  (pathNames (dirname ((ParseQualifiedTarget q).1.getD [])), target ++ c!".vcproj")

/-- msvs.py:1852-1861 the tree of dicts. -/
def projectTree (projects : List Str) : Except SlnErr (List (Str × SNode)) :=
  projects.foldlM (fun d q => putProject (projectPlace q).1 (projectPlace q).2 q d) []

/-- msvs.py:1865-1866 the top folders with a single entry are left out. -/
def stripTop : List (Str × SNode) → List (Str × SNode)
  | [(_, .dir sub)] => stripTop sub
  | [(n, .proj q)] => [(n, .proj q)]
  | [] => []
  | a :: b :: l => a :: b :: l

mutual
/-- msvs.py:1837-1848 `_CollapseSingles`. -/
def collapse (parent : Str) : SNode → SNode
  | .proj q => .proj q
  | .dir d =>
    match d with
    | [] => .dir []
    | (n, c) :: [] => if n = parent ++ c!".vcproj" then c else .dir [(n, collapse n c)]
    | (n, c) :: e :: l => .dir ((n, collapse n c) :: collapseAll (e :: l))
/-- msvs.py:1846-1847 the loop over the entries. -/
def collapseAll : List (Str × SNode) → List (Str × SNode)
  | [] => []
  | (n, c) :: l => (n, collapse n c) :: collapseAll l
end

/-- Entries of a solution: projects and `MSVSNew.MSVSFolder` objects. -/
inductive SEntry where
  | project (q : Str)
  | folder (path name : Str) (entries : List SEntry)

/-- `entry.path`. -/
def entryPath (heap : List (Str × SlnProject)) : SEntry → Str
  | .project q => ((aget heap q).map (·.path)).getD []
  | .folder path _ _ => path

/-- MSVSNew.py:100 the entries of a folder are sorted by path. -/
def sortEntries (heap : List (Str × SlnProject)) (l : List SEntry) : List SEntry :=
  pySorted (fun a b => strLe (entryPath heap a) (entryPath heap b)) l

/-- msvs.py:1815-1834 `_DictsToFolders`. -/
def toFolders (heap : List (Str × SlnProject)) (flat : Bool) :
    Str → List (Str × SNode) → List SEntry
  | _, [] => []
  | base, (_, .proj q) :: l => .project q :: toFolders heap flat base l
  | base, (f, .dir sub) :: l =>
    let children := toFolders heap flat (pathJoin base f) sub
    (if flat then children
     else [.folder (pathJoin base f) (c!"(" ++ f ++ c!")") (sortEntries heap children)]) ++
      toFolders heap flat base l

/-- msvs.py:1851-1869 `_GatherSolutionFolders`. -/
def gatherFolders (env : SlnEnv) (heap : List (Str × SlnProject)) (projects : List Str) :
    Except SlnErr (List SEntry) := do
  let root ← projectTree projects
  match collapse [] (.dir (stripTop root)) with
  | .dir d => .ok (toFolders heap env.flat [] d)
  | .proj _ => .error .typeError

/-! ### Writing -/

mutual
/-- The number of entries, for termination only. -/
def entrySize : SEntry → Nat
  | .project _ => 1
  | .folder _ _ l => 1 + entriesSize l
/-- The number of entries of a list. -/
def entriesSize : List SEntry → Nat
  | [] => 0
  | e :: l => entrySize e + entriesSize l
end

theorem entriesSize_append (a b : List SEntry) :
    entriesSize (a ++ b) = entriesSize a + entriesSize b := by
  induction a with
  | nil => simp [entriesSize]
  | cons e a ih => simp only [List.cons_append, entriesSize, ih]; omega

/-- Whether an entry is the project of a target. -/
def isProject (q : Str) : SEntry → Bool
  | .project q' => q' = q
  | .folder .. => false

/-- MSVSNew.py:236-249 all entries, breadth first.  Folders are distinct objects. -/
def collectEntries : List SEntry → List SEntry → List SEntry
  | [], acc => acc
  | .project q :: l, acc =>
    if acc.any (isProject q) then collectEntries l acc else collectEntries l (acc ++ [.project q])
  | .folder p n es :: l, acc => collectEntries (l ++ es) (acc ++ [.folder p n es])
termination_by l => entriesSize l
decreasing_by
  · simp [entriesSize, entrySize]
  · simp [entriesSize, entrySize]
  · simp only [entriesSize, entrySize, entriesSize_append]; omega

/-- `entry.get_guid()`. -/
def entryGuid (env : SlnEnv) (heap : List (Str × SlnProject)) : SEntry → Str
  | .project q => ((aget heap q).map (·.guid)).getD []
  | .folder path _ _ => env.makeGuid c!"msvs_folder" path

/-- `entry.name`. -/
def entryName (heap : List (Str × SlnProject)) : SEntry → Str
  | .project q => ((aget heap q).map (·.name)).getD []
  | .folder _ name _ => name

/-- MSVSNew.py:23-26 `ENTRY_TYPE_GUIDS`. -/
def entryType : SEntry → Str
  | .project _ => c!"{8BC9CEB8-8B4A-11D0-8D11-00A0C91BC942}"
  | .folder .. => c!"{2150E333-8FDC-42A3-9474-1A3956D46DE8}"

/-- The projects an entry depends on: none for a folder. -/
def entryDeps (heap : List (Str × SlnProject)) : SEntry → List Str
  | .project q => ((aget heap q).map (·.dependencies)).getD []
  | .folder .. => []

/-- MSVSNew.py:262-266 the path shown. -/
def shownPath (env : SlnEnv) (sln path : Str) : Str :=
  let p := replaceChar '/' ['\\'] (RelativePath env.cwd path (dirname sln))
  if p = [] then c!"." else p

/-- MSVSNew.py:261-296 the lines for one entry (no items are ever given, and
`websiteProperties` is false, msvs.py:2158). -/
def entryLines (env : SlnEnv) (heap : List (Str × SlnProject)) (sln : Str) (e : SEntry) : List Str :=
  [c!"Project(\"" ++ entryType e ++ c!"\") = \"" ++ entryName heap e ++ c!"\", \"" ++
    shownPath env sln (entryPath heap e) ++ c!"\", \"" ++ entryGuid env heap e ++ c!"\""] ++
  (if entryDeps heap e = [] then []
   else [c!"\tProjectSection(ProjectDependencies) = postProject"] ++
    (entryDeps heap e).map (fun d =>
      c!"\t\t" ++ entryGuid env heap (.project d) ++ c!" = " ++ entryGuid env heap (.project d)) ++
    [c!"\tEndProjectSection"]) ++
  [c!"EndProject"]

/-- MSVSNew.py:308-316 the overrides by guid. -/
def guidOverrides (env : SlnEnv) (heap : List (Str × SlnProject)) (entries : List SEntry) :
    List (Str × List (Str × Str)) :=
  entries.foldl (fun d e => match e with
    | .project q => aset d (entryGuid env heap e) (((aget heap q).map (·.overrides)).getD [])
    | .folder .. => d) []

/-- MSVSNew.py:308-316 the guids of the projects, sorted. -/
def configGuids (env : SlnEnv) (heap : List (Str × SlnProject)) (entries : List SEntry) : List Str :=
  pySorted strLe (entries.filterMap fun e => match e with
    | .project _ => some (entryGuid env heap e)
    | .folder .. => none)

/-- MSVSNew.py:318-341 the lines for one project and variant. -/
def configLines (over : List (Str × List (Str × Str))) (g v : Str) : List Str :=
  let nv := (aget ((aget over g).getD []) v).getD v
  [c!"\t\t" ++ g ++ c!"." ++ v ++ c!".ActiveCfg = " ++ nv,
   c!"\t\t" ++ g ++ c!"." ++ v ++ c!".Build.0 = " ++ nv]

/-- The entries inside a folder. -/
def folderEntries : SEntry → List SEntry
  | .project _ => []
  | .folder _ _ l => l

/-- MSVSNew.py:349-361 the folder mappings. -/
def nestedLines (env : SlnEnv) (heap : List (Str × SlnProject)) (entries : List SEntry) : List Str :=
  if entries.any (fun e => !(folderEntries e).isEmpty) then
    [c!"\tGlobalSection(NestedProjects) = preSolution"] ++
    entries.flatMap (fun e => (folderEntries e).map fun s =>
      c!"\t\t" ++ entryGuid env heap s ++ c!" = " ++ entryGuid env heap e) ++
    [c!"\tEndGlobalSection"]
  else []

/-- MSVSNew.py:251-365 the lines of the file, for entries in order. -/
def solutionLines (env : SlnEnv) (heap : List (Str × SlnProject)) (sln : Str) (variants : List Str)
    (entries : List SEntry) : List Str :=
  [c!"Microsoft Visual Studio Solution File, Format Version " ++ env.version,
   c!"# " ++ env.description] ++
  entries.flatMap (entryLines env heap sln) ++
  [c!"Global", c!"\tGlobalSection(SolutionConfigurationPlatforms) = preSolution"] ++
  variants.map (fun v => c!"\t\t" ++ v ++ c!" = " ++ v) ++
  [c!"\tEndGlobalSection", c!"\tGlobalSection(ProjectConfigurationPlatforms) = postSolution"] ++
  (configGuids env heap entries).flatMap (fun g =>
    variants.flatMap (configLines (guidOverrides env heap entries) g)) ++
  [c!"\tEndGlobalSection", c!"\tGlobalSection(SolutionProperties) = preSolution",
   c!"\t\tHideSolutionNode = FALSE", c!"\tEndGlobalSection"] ++
  nestedLines env heap entries ++
  [c!"EndGlobal"]

/-- The text: every line ends in a carriage return and a newline. -/
def linesText (lines : List Str) : Str := lines.flatMap (· ++ c!"\r\n")

/-- msvs.py:2142-2145 the path of the solution of a build file. -/
def solutionPath (env : SlnEnv) (buildFile : Str) : Str :=
  let sln := (splitext buildFile).1 ++ env.suffix ++ c!".sln"
  if env.output ≠ [] then pathJoin env.output sln else sln

/-- MSVSNew.py:211-217 the variants written: a default when there are none. -/
def writtenVariants (variants : List Str) : List Str :=
  if variants ≠ [] then variants else [c!"Debug|Win32", c!"Release|Win32"]

/-- msvs.py:2134-2160 the solution of a build file: `text` is a possible content of the file.  The
set of configurations and the set of entries come in any order; the entries are then sorted by
their paths. -/
def IsSolution (env : SlnEnv) (targets : List (Str × SlnTarget)) (buildFile text : Str) : Prop :=
  ∃ heap projects roots configs entries,
    createProjects env targets = .ok heap ∧
    AllTargets (targets.map (·.1)) (targets.map fun t => (t.1, t.2.spec)) buildFile projects ∧
    gatherFolders env heap projects = .ok roots ∧
    configs.Perm (solutionConfigs targets) ∧
    entries.Perm (collectEntries roots []) ∧
    entries.Pairwise (fun a b => strLe (entryPath heap a) (entryPath heap b) = true) ∧
    text = linesText (solutionLines env heap (solutionPath env buildFile)
      (writtenVariants (shownConfigs env configs)) entries)

/-! ### References between projects -/

/-- A `ProjectReference` item: `uldi` is `UseLibraryDependencyInputs`, when given. -/
structure ProjectRef where
  include_ : Str
  project : Str
  uldi : Option Bool
deriving DecidableEq

/-- msvs.py:3669-3676 the first configuration that says something decides. -/
def refUldi : List (Str × SlnConfig) → Option Bool
  | [] => none
  | c :: l => if c.2.uldi then some true else if c.2.noUldi then some false else refUldi l

/-- msvs.py:3646-3652 whether a reference is left out. -/
def skipReference (t : SlnTarget) (name : Str) (d : SlnTarget) : Bool :=
  !(startsWith name c!"run_") &&
    (t.toolset = c!"target" && d.toolset = c!"host" && d.spec.type = c!"static_library")

/-- msvs.py:3639-3679 `_GetMSBuildProjectReferences`; missing objects cannot occur. -/
def projectReferences (env : SlnEnv) (targets : List (Str × SlnTarget))
    (heap : List (Str × SlnProject)) (q : Str) : List ProjectRef :=
  match aget heap q, aget targets q with
  | some p, some t => p.dependencies.filterMap fun d =>
    match aget heap d, aget targets d with
    | some dp, some dt =>
      if skipReference t dp.name dt then none
      else some ⟨RelativePath env.cwd dp.path (dirname p.path), dp.guid, refUldi dt.configurations⟩
    | _, _ => none
  | _, _ => []

end Gyp
