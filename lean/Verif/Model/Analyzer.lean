import Mathlib.Logic.Function.Basic
import Verif.Model.Targets
import Verif.Model.OrderedSet
import Verif.Model.Sort
/-
The change analyzer: `gyp/pylib/gyp/generator/analyzer.py`.

Simplifications, here once and for all:
* the platform is POSIX, so `_ToGypPath` (analyzer.py:123-127) is the identity;
* the debugging output (`print`) is not modelled;
* a `Target` object is identified with its fully qualified name, and the dictionary
  `name_to_target` is a table of records together with the list of its keys in insertion
  order (each name has one object, analyzer.py:319-327);
* Python sets are lists without repetition; where the code iterates over a set the order
  is given by an arbitrary function `ord` (its only assumed property, in the theorems, is
  that it permutes);
* loops and recursions carry a step or depth bound and report `outOfSteps` when it is
  used up (the code would go on or overflow the stack).
-/
namespace Gyp

/-- What `target_dicts[name]` says, as far as the analyzer reads it.  A missing list is an
empty one; of actions and rules only the `inputs` are read.  `type` is present in every
loaded target (input.py:2683-2714). -/
structure TInfo where
  type : Str
  sources : List Str
  actions : List (List Str)
  rules : List (List Str)
  dependencies : List Str
deriving DecidableEq

/-- The exceptions the analyzer can run into. -/
inductive AErr where
  /-- a name without an entry in `target_dicts` or `data`, or without a build file -/
  | keyError (name : Str)
  /-- the step or depth bound is used up -/
  | outOfSteps
  /-- analyzer.py:748-751 -/
  | noFiles
deriving DecidableEq

/-- analyzer.py:87-93 the `MATCH_STATUS_*` values. -/
inductive MStatus where
  | tbd
  | doesntMatch
  | matches_
  | matchesByDependency
deriving DecidableEq

/-- analyzer.py:218-251 `class Target`. -/
structure ATarget where
  deps : List Str := []
  status : MStatus := .tbd
  backDeps : List Str := []
  visited : Bool := false
  requiresBuild : Bool := false
  added : Bool := false
  inRoots : Bool := false
  isExecutable : Bool := false
  isStaticLibrary : Bool := false
  linkedAncestor : Bool := false
deriving DecidableEq

/-- The places where the code iterates over a Python set. -/
inductive OrdSite where
  | deps (t : Str)
  | backDeps (t : Str)
  | testTargets
  | other
deriving DecidableEq

/-- The order in which Python enumerates the elements of a set. -/
abbrev SetOrder := OrdSite → List Str → List Str

/-- Everything the analyzer is given (analyzer.py:742-777): the target list and
dictionaries, for each build file its `included_files`, the top-level directory, the
changed files, the names of the configuration file, the build files of the command line
and its includes. -/
structure AInput where
  targetList : List Str
  dicts : Str → Option TInfo
  data : Str → Option (List Str)
  toplevel : Str
  files : List Str
  buildFiles : List Str
  additional : List Str
  tests : List Str
  includes : List Str

/-- analyzer.py:135-137: the loop that strips leading `../`. -/
def stripParents : Nat → Str → Nat × Str
  | 0, p => (0, p)
  | fuel + 1, p =>
    if startsWith p c!"../" then
      let r := stripParents fuel (p.drop 3)
      (r.1 + 1, r.2)
    else (0, p)

/-- analyzer.py:130-148 `_ResolveParent`.  (The length of the path bounds the loop.) -/
def resolveParent (path : Str) (comps : List Str) : Str :=
  let r := stripParents path.length path
  if r.1 > comps.length then []
  else if r.1 = comps.length then r.2
  else joinWith c!"/" (comps.take (comps.length - r.1)) ++ c!"/" ++ r.2

/-- analyzer.py:159-170, one turn of the loop of `_AddSources`: the path recorded for a
source, if any. -/
def addSource (basePath : Str) (comps : List Str) (source : Str) : Option Str :=
  match source with
  | [] => none
  | c :: cs =>
    if startsWith source c!"!!!" ∨ startsWith source c!"$" then none
    else
      let s := c :: replaceStr c!"//" c!"/" cs
      if startsWith s c!"../" then
        let r := resolveParent s comps
        if r = [] then none else some r
      else some (basePath ++ s)

/-- analyzer.py:180-186 `_ToLocalPath`. -/
def toLocalPath (toplevel path : Str) : Str :=
  if path = toplevel then []
  else if startsWith path (toplevel ++ c!"/") then path.drop (toplevel.length + 1)
  else path

/-- analyzer.py:189-215 `_ExtractSources` (with 175-177 `_ExtractSourcesFromAction`). -/
def extractSources (target : Str) (d : TInfo) (toplevel : Str) : List Str :=
  let base := dirname (toLocalPath toplevel target)
  let comps := splitOn '/' base
  let basePath := if base = [] then base else base ++ c!"/"
  d.sources.filterMap (addSource basePath comps) ++
    d.actions.flatMap (fun inputs => inputs.filterMap (addSource basePath comps)) ++
    d.rules.flatMap (fun inputs => inputs.filterMap (addSource basePath comps))

/-- analyzer.py:289-316 `_WasBuildFileModified`. -/
def wasBuildFileModified (inp : AInput) (buildFile : Str) : Except AErr Bool :=
  if toLocalPath inp.toplevel buildFile ∈ inp.files then .ok true
  else match inp.data buildFile with
    | none => .error (.keyError buildFile)
    | some included =>
      .ok ((included.drop 1).any fun f =>
        decide (toLocalPath inp.toplevel (UnrelativePath f buildFile) ∈ inp.files))

/-- analyzer.py:330-337 `_DoesTargetTypeRequireBuild`. -/
def typeRequiresBuild (d : TInfo) : Bool :=
  d.type ≠ c!"none" || d.actions ≠ [] || d.rules ≠ []

/-- analyzer.py:385-409: whether the target contains a changed file.  The dictionary
`build_file_in_files` only remembers results of `_WasBuildFileModified` and is dropped. -/
def touched (inp : AInput) (name : Str) (d : TInfo) : Except AErr Bool :=
  match (ParseQualifiedTarget name).1 with
  | none => .error (.keyError name)
  | some bf =>
    match wasBuildFileModified inp bf with
    | .error e => .error e
    | .ok true => .ok true
    | .ok false =>
      .ok ((extractSources name d inp.toplevel).any fun s => decide (normpath s ∈ inp.files))

/-- analyzer.py:391: the target is in one of the build files given on the command line. -/
def inBuildFiles (inp : AInput) (name : Str) : Bool :=
  match (ParseQualifiedTarget name).1 with
  | none => false
  | some bf => decide (bf ∈ inp.buildFiles)

/-- The variables of `_GenerateTargets` (analyzer.py:349-366) other than the stack. -/
structure GState where
  names : List Str := []
  tab : Str → ATarget := fun _ => {}
  matching : List Str := []
  roots : List Str := []
  fileTargets : List Str := []

/-- Change the record of one target. -/
def modTab (tab : Str → ATarget) (t : Str) (f : ATarget → ATarget) : Str → ATarget :=
  Function.update tab t (f (tab t))

/-- analyzer.py:411-422, one dependency. -/
def linkDep (t : Str) (s : GState) (dep : Str) : GState :=
  { s with
    names := listAdd s.names dep
    roots := if dep ∈ s.names then s.roots.filter (· ≠ dep) else s.roots
    tab := modTab
      (modTab s.tab t fun r => { r with deps := listAdd r.deps dep })
      dep fun r => { r with backDeps := listAdd r.backDeps t } }

/-- analyzer.py:376-383: the fields set when a target is visited. -/
def visitRecord (d : TInfo) (hit : Bool) (r : ATarget) : ATarget :=
  { r with
    visited := true
    requiresBuild := typeRequiresBuild d
    isExecutable := d.type = c!"executable"
    isStaticLibrary := d.type = c!"static_library"
    linkedAncestor := d.type = c!"executable" || d.type = c!"shared_library"
    status := if hit then .matches_ else r.status }

/-- analyzer.py:376-422: visiting a target. -/
def visitTarget (inp : AInput) (t : Str) (d : TInfo) (hit : Bool) (s : GState) : GState :=
  let s1 : GState :=
    { s with
      tab := modTab s.tab t (visitRecord d hit)
      matching := if hit then s.matching ++ [t] else s.matching
      fileTargets := if inBuildFiles inp t then listAdd s.fileTargets t else s.fileTargets }
  d.dependencies.foldl (linkDep t) s1

/-- analyzer.py:369-375: `_GetOrCreateTargetByName` and the new root. -/
def createTarget (t : Str) (s : GState) : GState :=
  if t ∈ s.names then s
  else { s with names := s.names ++ [t], roots := listAdd s.roots t }

/-- analyzer.py:368-422, the loop of `_GenerateTargets`.  The head of the stack is the
element popped next, the last one of the Python list. -/
def genLoop (inp : AInput) : Nat → List Str → GState → Except AErr GState
  | _, [], s => .ok s
  | 0, _ :: _, _ => .error .outOfSteps
  | fuel + 1, t :: stack, s =>
    if t ∈ s.names ∧ (s.tab t).visited = true then genLoop inp fuel stack s
    else
      match inp.dicts t with
      | none => .error (.keyError t)
      | some d =>
        match touched inp t d with
        | .error e => .error e
        | .ok hit =>
          genLoop inp fuel (d.dependencies.reverse ++ stack)
            (visitTarget inp t d hit (createTarget t s))

/-- analyzer.py:340-424 `_GenerateTargets`; the third component of its result is
`rootTargets`. -/
def generateTargets (inp : AInput) (fuel : Nat) : Except AErr GState :=
  genLoop inp fuel inp.targetList.reverse {}

/-- analyzer.py:424 `roots & build_file_targets`. -/
def rootTargets (s : GState) : List Str := s.roots.filter (· ∈ s.fileTargets)

/-- The unqualified name of a target. -/
def baseName (t : Str) : Str := (ParseQualifiedTarget t).2.1

/-- analyzer.py:436-443, the loop of `_GetUnqualifiedToTargetMapping`. -/
def mapLoop : List Str → List Str → List (Str × Str) → List (Str × Str) × List Str
  | [], toFind, acc => (acc, toFind)
  | t :: ts, toFind, acc =>
    if baseName t ∈ toFind then
      let rest := toFind.filter (· ≠ baseName t)
      let acc' := acc ++ [(baseName t, t)]
      if rest = [] then (acc', []) else mapLoop ts rest acc'
    else mapLoop ts toFind acc

/-- analyzer.py:427-443 `_GetUnqualifiedToTargetMapping`. -/
def unqualifiedMapping (names toFind : List Str) : List (Str × Str) × List Str :=
  if toFind = [] then ([], []) else mapLoop names toFind []

/-- `mapping[name]`. -/
def mapLookup (m : List (Str × Str)) (n : Str) : Option Str :=
  (m.find? fun p => p.1 = n).map Prod.snd

/-- analyzer.py:608-611 `_LookupTargets`. -/
def lookupTargets (names : List Str) (m : List (Str × Str)) : List Str :=
  names.filterMap (mapLookup m)

/-- analyzer.py:458-462, the loop over the dependencies. -/
def anyDepends (f : Str → (Str → ATarget) → Except AErr (Bool × (Str → ATarget))) :
    List Str → (Str → ATarget) → Except AErr (Bool × (Str → ATarget))
  | [], tab => .ok (false, tab)
  | d :: ds, tab =>
    match f d tab with
    | .error e => .error e
    | .ok (true, tab') => .ok (true, tab')
    | .ok (false, tab') => anyDepends f ds tab'

/-- analyzer.py:446-464 `_DoesTargetDependOnMatchingTargets`. -/
def dependsOnMatching (ord : SetOrder) :
    Nat → Str → (Str → ATarget) → Except AErr (Bool × (Str → ATarget))
  | 0, _, _ => .error .outOfSteps
  | depth + 1, t, tab =>
    if (tab t).status = .doesntMatch then .ok (false, tab)
    else if (tab t).status = .matches_ ∨ (tab t).status = .matchesByDependency then
      .ok (true, tab)
    else
      match anyDepends (dependsOnMatching ord depth) (ord (.deps t) (tab t).deps) tab with
      | .error e => .error e
      | .ok (true, tab') =>
        .ok (true, modTab tab' t fun r => { r with status := .matchesByDependency })
      | .ok (false, tab') =>
        .ok (false, modTab tab' t fun r => { r with status := .doesntMatch })

/-- analyzer.py:467-477 `_GetTargetsDependingOnMatchingTargets`. -/
def targetsDepending (ord : SetOrder) (depth : Nat) :
    List Str → (Str → ATarget) → Except AErr (List Str × (Str → ATarget))
  | [], tab => .ok ([], tab)
  | t :: ts, tab =>
    match dependsOnMatching ord depth t tab with
    | .error e => .error e
    | .ok (b, tab') =>
      match targetsDepending ord depth ts tab' with
      | .error e => .error e
      | .ok (found, tab'') => .ok (if b then t :: found else found, tab'')

/-- The state of `_AddCompileTargets`. -/
structure CState where
  tab : Str → ATarget
  result : List Str := []

/-- analyzer.py:490-491. -/
def enterCompile (roots : List Str) (t : Str) (s : CState) : CState :=
  { s with tab := modTab s.tab t fun r => { r with visited := true, inRoots := t ∈ roots } }

/-- analyzer.py:495-497. -/
def absorb (t b : Str) (s : CState) : CState :=
  { s with
    tab := modTab s.tab t fun r =>
      { r with
        added := r.added || (s.tab b).added
        inRoots := r.inRoots || (s.tab b).inRoots
        linkedAncestor := r.linkedAncestor || (s.tab b).linkedAncestor } }

/-- analyzer.py:505-516. -/
def mustCompile (r : ATarget) (addIfNoAncestor : Bool) : Bool :=
  r.inRoots &&
    (r.isExecutable ||
      (!r.added && (addIfNoAncestor || r.requiresBuild)) ||
      (r.isStaticLibrary && addIfNoAncestor && !r.linkedAncestor))

/-- analyzer.py:505-534. -/
def leaveCompile (t : Str) (addIfNoAncestor : Bool) (s : CState) : CState :=
  if mustCompile (s.tab t) addIfNoAncestor then
    { tab := modTab s.tab t fun r => { r with added := true }
      result := listAdd s.result t }
  else s

/-- analyzer.py:493-497, the loop over the targets that depend on `t`. -/
def backLoop (f : Str → CState → Except AErr CState) (t : Str) :
    List Str → CState → Except AErr CState
  | [], s => .ok s
  | b :: bs, s =>
    match f b s with
    | .error e => .error e
    | .ok s' => backLoop f t bs (absorb t b s')

/-- analyzer.py:480-534 `_AddCompileTargets`. -/
def addCompileTargets (ord : SetOrder) (roots : List Str) :
    Nat → Bool → Str → CState → Except AErr CState
  | 0, _, _, _ => .error .outOfSteps
  | depth + 1, addIfNoAncestor, t, s =>
    if (s.tab t).visited = true then .ok s
    else
      match backLoop (addCompileTargets ord roots depth false) t
          (ord (.backDeps t) (s.tab t).backDeps) (enterCompile roots t s) with
      | .error e => .error e
      | .ok s' => .ok (leaveCompile t addIfNoAncestor s')

/-- analyzer.py:537-545 `_GetCompileTargets`. -/
def getCompileTargets (ord : SetOrder) (depth : Nat) (roots : List Str) :
    List Str → CState → Except AErr CState
  | [], s => .ok s
  | t :: ts, s =>
    match addCompileTargets ord roots depth true t s with
    | .error e => .error e
    | .ok s' => getCompileTargets ord depth roots ts s'

/-- Union of two lists seen as sets. -/
def setUnion (a b : List Str) : List Str := b.foldl listAdd (a.foldl listAdd [])

/-- analyzer.py:659-666 `_supplied_target_names`. -/
def suppliedNames (inp : AInput) : List Str := setUnion inp.additional inp.tests

/-- analyzer.py:662-666 `_supplied_target_names_no_all`. -/
def suppliedNoAll (inp : AInput) : List Str := (suppliedNames inp).filter (· ≠ c!"all")

/-- analyzer.py:672-716 `find_matching_test_target_names`: the names and the table with
the updated statuses. -/
def findTestTargets (inp : AInput) (ord : SetOrder) (depth : Nat) (s : GState) :
    Except AErr (List Str × (Str → ATarget)) :=
  let mapping := (unqualifiedMapping s.names (suppliedNoAll inp)).1
  let namesNoAll := (setUnion inp.tests []).filter (· ≠ c!"all")
  let noAll := lookupTargets (ord .other namesNoAll) mapping
  let containsAll : Bool := c!"all" ∈ inp.tests
  let testTargets :=
    if containsAll then ord .testTargets (setUnion noAll (rootTargets s)) else noAll
  match targetsDepending ord depth testTargets s.tab with
  | .error e => .error e
  | .ok (found, tab) =>
    let matchesAll := containsAll && found.any (· ∈ rootTargets s)
    let found' := if matchesAll then found.filter (· ∈ noAll) else found
    .ok (found'.map baseName ++ (if matchesAll then [c!"all"] else []), tab)

/-- analyzer.py:718-739 `find_matching_compile_target_names`. -/
def findCompileTargets (inp : AInput) (ord : SetOrder) (depth : Nat) (s : GState)
    (tab : Str → ATarget) : Except AErr (List Str) :=
  let mapping := (unqualifiedMapping s.names (suppliedNoAll inp)).1
  let supplied := lookupTargets (suppliedNoAll inp) mapping
  let supplied' :=
    if c!"all" ∈ suppliedNames inp then setUnion supplied (rootTargets s) else supplied
  let reset : Str → ATarget := fun t => { tab t with visited := false }
  match getCompileTargets ord depth supplied' s.matching { tab := reset } with
  | .error e => .error e
  | .ok c => .ok (c.result.map baseName)

/-- analyzer.py:592-600 `_WasGypIncludeFileModified`. -/
def includeModified (inp : AInput) : Bool :=
  inp.includes.any fun f => decide (normpath f ∈ inp.files)

/-- The `status` strings of the output (analyzer.py:82-84). -/
inductive AStatus where
  | allChanged
  | found
  | noDependency
deriving DecidableEq

/-- The dictionary written by `_WriteOutput`; an absent `invalid_targets` is `[]`. -/
structure AOutput where
  status : AStatus
  testTargets : List Str
  compileTargets : List Str
  invalidTargets : List Str
deriving DecidableEq

/-- analyzer.py:548-578: `_WriteOutput` sorts the lists. -/
def sortOutput (o : AOutput) : AOutput :=
  { o with
    testTargets := pySorted strLe o.testTargets
    compileTargets := pySorted strLe o.compileTargets
    invalidTargets := pySorted strLe o.invalidTargets }

/-- analyzer.py:742-801 `GenerateOutput`; an exception is reported in the output as an
`error` text (803-804), here as the `Except` value. -/
def analyze (inp : AInput) (ord : SetOrder) (fuel depth : Nat) : Except AErr AOutput :=
  if inp.files = [] then .error .noFiles
  else if includeModified inp then
    .ok (sortOutput
      { status := .allChanged
        testTargets := setUnion inp.tests []
        compileTargets := setUnion inp.additional inp.tests
        invalidTargets := [] })
  else
    match generateTargets inp fuel with
    | .error e => .error e
    | .ok s =>
      let invalid := (unqualifiedMapping s.names (suppliedNoAll inp)).2
      if s.matching = [] then
        .ok (sortOutput
          { status := .noDependency, testTargets := [], compileTargets := [],
            invalidTargets := invalid })
      else
        match findTestTargets inp ord depth s with
        | .error e => .error e
        | .ok (tests, tab) =>
          match findCompileTargets inp ord depth s tab with
          | .error e => .error e
          | .ok compile =>
            .ok (sortOutput
              { status := if compile ≠ [] ∨ tests ≠ [] then .found else .noDependency
                testTargets := tests
                compileTargets := setUnion compile tests
                invalidTargets := invalid })

end Gyp
