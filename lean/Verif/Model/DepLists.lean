import Verif.Model.Configurations
import Verif.Model.Toposort
/-
The dependency lists of the targets: `gyp/pylib/gyp/input.py` `BuildTargetsDict`,
`QualifyDependencies`, `RemoveSelfDependencies`, `ExpandWildcardDependencies`,
`RemoveLinkDependenciesFromNoneTargets`, `RemoveDuplicateDependencies`,
`VerifyNoCollidingTargets`.
-/
namespace Gyp

/-- `targets`: qualified names with the target dictionaries, in insertion order. -/
abbrev Table := List (Str × Dict)

/-- `targets[t]`. -/
def Table.get? (t : Table) (name : Str) : Option Dict :=
  match t with
  | [] => none
  | (n, d) :: t => if n = name then some d else Table.get? t name

inductive DepListErr where
  /-- input.py:1463 `GypError`: two targets of one qualified name -/
  | duplicate (target : Str)
  /-- a key or target that is not there: `KeyError` -/
  | missing (key : Str)
  /-- a value of an unexpected type -/
  | badType
  /-- input.py:1506 `GypError`: not in `dependencies` -/
  | notDirect (dependency section_ target : Str)
  /-- input.py:1548 `GypError`: wildcard on the own build file -/
  | ownWildcard (section_ target : Str)
  /-- input.py:2914 a name without `:` does not unpack -/
  | noColon (target : Str)
  /-- input.py:2924 `GypError` -/
  | collision (key : Str)
  | fuel
deriving DecidableEq

/-- input.py:33 `dependency_sections`. -/
def dependencySections : List Str := [c!"dependencies", c!"export_dependent_settings"]

/-- input.py:1479-1481 `all_dependency_sections`. -/
def allDependencySections : List Str :=
  dependencySections.flatMap fun dep => [[], c!"!", c!"/"].map fun op => dep ++ op

/-- A list of strings; dependency lists hold nothing else (an entry of another type raises
in `ParseQualifiedTarget`; that a list under `dependencies/`, whose entries are pairs,
raises too is one instance). -/
def strList : Val → Option (List Str)
  | .list l => l.mapM fun v => match v with
    | .str s => some s
    | _ => none
  | _ => none

/-- `target_dict.get(key, [])` for a dependency section: `none` if the key is absent. -/
def depList (td : Dict) (key : Str) : Except DepListErr (Option (List Str)) :=
  match td.get? key with
  | none => .ok none
  | some v => match strList v with
    | some l => .ok (some l)
    | none => .error .badType

/-- A list of strings as a value. -/
def strVals (l : List Str) : Val := .list (l.map .str)

/-! ### BuildTargetsDict -/

/-- input.py:1456-1465 the targets of one build file; a target comes as its name, its
toolset and its dictionary. -/
def addTargets (file : Str) : List (Str × Str × Dict) → Table → Except DepListErr Table
  | [], targets => .ok targets
  | (name, toolset, d) :: rest, targets =>
    let q := QualifiedTarget file name (some toolset)
    if (targets.get? q).isSome then .error (.duplicate q)
    else addTargets file rest (targets ++ [(q, d)])

/-- input.py:1442-1467 `BuildTargetsDict(data)`; `data` is the list of target build
files with their targets. -/
def BuildTargetsDict (data : List (Str × List (Str × Str × Dict))) : Except DepListErr Table :=
  data.foldlM (fun targets f => addTargets f.1 f.2 targets) []

/-! ### QualifyDependencies -/

/-- input.py:1489-1500 one dependency. -/
def qualifyOne (cwd : List Str) (multiple : Bool) (file toolset dep : Str) : Str :=
  let (f, t, ts) := ResolveTarget cwd file dep (some toolset)
  QualifiedTarget f t (if multiple then ts else some toolset)

/-- input.py:1503-1513 an entry of another section must be a direct dependency. -/
def checkDirect (target key : Str) (td : Dict) (q : Str) : Except DepListErr Str :=
  if key = c!"dependencies" then .ok q
  else match depList td c!"dependencies" with
    | .error e => .error e
    | .ok none => .error (.missing c!"dependencies")
    | .ok (some ds) => if q ∈ ds then .ok q else .error (.notDirect q key target)

/-- input.py:1486-1513 one section of a target, updated in place. -/
def qualifySection (cwd : List Str) (multiple : Bool) (target file toolset : Str) (td : Dict)
    (key : Str) : Except DepListErr Dict :=
  match depList td key with
  | .error e => .error e
  | .ok none => .ok td
  | .ok (some deps) =>
    match deps.mapM fun dep =>
      checkDirect target key td (qualifyOne cwd multiple file toolset dep) with
    | .error e => .error e
    | .ok deps => .ok (td.set key (strVals deps))

/-- input.py:1483-1513 one target.  `multiple` is the global `multiple_toolsets`. -/
def qualifyTarget (cwd : List Str) (multiple : Bool) (e : Str × Dict) :
    Except DepListErr (Str × Dict) :=
  match e.2.get? c!"toolset" with
  | some (.str toolset) =>
    match allDependencySections.foldlM
      (qualifySection cwd multiple e.1 ((BuildFile e.1).getD []) toolset) e.2 with
    | .error x => .error x
    | .ok td => .ok (e.1, td)
  | some _ => .error .badType
  | none => .error (.missing c!"toolset")

/-- input.py:1468-1514 `QualifyDependencies`. -/
def QualifyDependencies (cwd : List Str) (multiple : Bool) (targets : Table) :
    Except DepListErr Table := targets.mapM (qualifyTarget cwd multiple)

/-! ### RemoveSelfDependencies, RemoveLinkDependenciesFromNoneTargets -/

/-- input.py:1613-1616 `Filter(items, item)`. -/
def Filter {α : Type} [DecidableEq α] (items : List α) (item : α) : List α :=
  items.filter (· ≠ item)

/-- `d.get("variables", {}).get(name, 0)` as a truth value. -/
def variableTruthy (d : Dict) (name : Str) : Except DepListErr Bool :=
  match d.get? c!"variables" with
  | none => .ok false
  | some (.dict vs) => .ok (((Dict.get? vs name).map Val.truthy).getD false)
  | some _ => .error .badType

/-- input.py:1623-1634 one section: the loop over the dependencies, `deps` being the list
found at first and the state the current value of the dictionary. -/
def removeSelfLoop (name key : Str) (own : Dict) (deps : List Str) :
    List Str → Dict → Except DepListErr Dict
  | [], td => .ok td
  | t :: rest, td =>
    if t = name then
      match variableTruthy own c!"prune_self_dependency" with
      | .error e => .error e
      | .ok true => removeSelfLoop name key own deps rest (td.set key (strVals (Filter deps name)))
      | .ok false => removeSelfLoop name key own deps rest td
    else removeSelfLoop name key own deps rest td

/-- input.py:1622-1634 one section of a target.  `targets[t]` is the target's own
dictionary; its `variables` do not change during the loop. -/
def removeSelfSection (name : Str) (td : Dict) (key : Str) : Except DepListErr Dict :=
  match depList td key with
  | .error e => .error e
  | .ok none => .ok td
  | .ok (some deps) => removeSelfLoop name key td deps deps td

/-- A function on the dictionaries of a table. -/
def onTargets (f : Str → Dict → Except DepListErr Dict) (targets : Table) :
    Except DepListErr Table :=
  targets.mapM fun e => match f e.1 e.2 with
    | .error x => .error x
    | .ok d => .ok (e.1, d)

/-- input.py:1619-1634 `RemoveSelfDependencies`. -/
def RemoveSelfDependencies : Table → Except DepListErr Table :=
  onTargets fun name td => dependencySections.foldlM (removeSelfSection name) td

/-- input.py:1641-1649 one section: the loop over the dependencies found at first. -/
def removeLinkLoop (targets : Table) (key : Str) : List Str → Dict → Except DepListErr Dict
  | [], td => .ok td
  | t :: rest, td =>
    if (match td.get? c!"type" with | some (.str ty) => decide (ty = c!"none") | _ => false) then
      match targets.get? t with
      | none => .error (.missing t)
      | some d =>
        match variableTruthy d c!"link_dependency" with
        | .error e => .error e
        | .ok false => removeLinkLoop targets key rest td
        | .ok true =>
          match depList td key with
          | .error e => .error e
          | .ok none => .error (.missing key)
          | .ok (some deps) => removeLinkLoop targets key rest (td.set key (strVals (Filter deps t)))
    else removeLinkLoop targets key rest td

/-- input.py:1640-1649 one section of a target. -/
def removeLinkSection (targets : Table) (td : Dict) (key : Str) : Except DepListErr Dict :=
  match depList td key with
  | .error e => .error e
  | .ok none => .ok td
  | .ok (some deps) => removeLinkLoop targets key deps td

/-- input.py:1637-1649 `RemoveLinkDependenciesFromNoneTargets`.  The `variables` looked up
in other targets are not changed by the loop, so they are read from the original table. -/
def RemoveLinkDependenciesFromNoneTargets (targets : Table) : Except DepListErr Table :=
  onTargets (fun _ td => dependencySections.foldlM (removeLinkSection targets) td) targets

/-- input.py:1603-1610 `RemoveDuplicateDependencies`, one section. -/
def removeDuplicateSection (td : Dict) (key : Str) : Except DepListErr Dict :=
  match depList td key with
  | .error e => .error e
  | .ok none => .ok td
  | .ok (some deps) => .ok (if deps ≠ [] then td.set key (strVals (Unify deps)) else td)

/-- input.py:1603-1610 `RemoveDuplicateDependencies`. -/
def RemoveDuplicateDependencies : Table → Except DepListErr Table :=
  onTargets fun _ td => dependencySections.foldlM removeDuplicateSection td

/-! ### ExpandWildcardDependencies -/

/-- What the expansion looks at in a target of a build file: `target_name`, `toolset`
and whether `int(suppress_wildcard)` is nonzero (a value `int` rejects is not modelled). -/
structure WildTarget where
  name : Str
  toolset : Str
  suppress : Bool
deriving DecidableEq

/-- input.py:1566-1580 does a wildcard pick this target? -/
def wildcardPicks (target : Str) (toolset : Option Str) (t : WildTarget) : Bool :=
  if t.suppress then false
  else if ¬ (target = c!"*" ∨ target = t.name) then false
  else if ¬ (toolset = some c!"*" ∨ toolset = some t.toolset) then false
  else true

/-- input.py:1565-1589 the loop over the targets of the other build file.  `pos` is the
code's `index + 1`: the position at which the next target is inserted. -/
def insertPicked (file target : Str) (toolset : Option Str) :
    List WildTarget → List Str → Nat → List Str × Nat
  | [], deps, pos => (deps, pos)
  | t :: ts, deps, pos =>
    if wildcardPicks target toolset t then
      insertPicked file target toolset ts
        (deps.insertIdx pos (QualifiedTarget file t.name (some t.toolset))) (pos + 1)
    else insertPicked file target toolset ts deps pos

/-- input.py:1538-1594 the loop over the dependencies.  `data` gives the targets of a
build file. -/
def expandLoop (data : Str → Option (List WildTarget)) (key target : Str) (own : Option Str) :
    Nat → List Str → Nat → Except DepListErr (List Str)
  | 0, _, _ => .error .fuel
  | fuel + 1, deps, index =>
    match deps[index]? with
    | none => .ok deps
    | some dep =>
      let (file, t, toolset) := ParseQualifiedTarget dep
      if t ≠ c!"*" ∧ toolset ≠ some c!"*" then
        expandLoop data key target own fuel deps (index + 1)
      else if file = own then .error (.ownWildcard key target)
      else
        match file with
        | none => .error (.missing [])
        | some file =>
          match data file with
          | none => .error (.missing file)
          | some ts =>
            let (deps, pos) := insertPicked file t toolset ts (deps.eraseIdx index) index
            expandLoop data key target own fuel deps pos

/-- input.py:1532-1594 one section of a target. -/
def expandSection (data : Str → Option (List WildTarget)) (target : Str) (td : Dict) (key : Str) :
    Except DepListErr Dict :=
  match depList td key with
  | .error e => .error e
  | .ok none => .ok td
  | .ok (some deps) =>
    match expandLoop data key target (BuildFile target) (deps.length + 1) deps 0 with
    | .error e => .error e
    | .ok deps => .ok (td.set key (strVals deps))

/-- input.py:1517-1594 `ExpandWildcardDependencies(targets, data)`. -/
def ExpandWildcardDependencies (data : Str → Option (List WildTarget)) :
    Table → Except DepListErr Table :=
  onTargets fun name td => dependencySections.foldlM (expandSection data name) td

/-! ### VerifyNoCollidingTargets -/

/-- input.py:2912-2923 the key of a target: its directory and name. -/
def collisionKey (target : Str) : Option Str :=
  match rsplit1 ':' target with
  | none => none
  | some (path, name) =>
    let subdir := dirname path
    some ((if subdir = [] then c!"." else subdir) ++ ':' :: name)

/-- input.py:2911-2929 the loop; `used` holds the keys seen so far. -/
def collideLoop : List Str → List Str → Except DepListErr Unit
  | [], _ => .ok ()
  | t :: ts, used =>
    match collisionKey t with
    | none => .error (.noColon t)
    | some key => if key ∈ used then .error (.collision key) else collideLoop ts (key :: used)

/-- input.py:2903-2929 `VerifyNoCollidingTargets`. -/
def VerifyNoCollidingTargets (targets : List Str) : Except DepListErr Unit := collideLoop targets []

end Gyp
