import Verif.Model.DependencyGraph
import Verif.Model.Targets
import Mathlib.Logic.Relation
/-
Parts of the loader of gyp/pylib/gyp/input.py that walk over build files and targets.
-/
namespace Gyp

/-- input.py:139-169 `GetIncludedBuildFiles(build_file_path, aux_data, included)`.
`aux` maps a build file to its `"included"` list (an absent list reads as empty) and is
`none` for a file without entry, which raises `KeyError`.  The first argument bounds the
recursion depth. -/
def GetIncludedBuildFiles (aux : Str → Option (List Str)) :
    Nat → List Str → Str → Except GraphErr (List Str)
  | 0, _, _ => .error .fuel
  | fuel + 1, included, path =>
    if path ∈ included then .ok included
    else match aux path with
      | none => .error (.keyError path)
      | some l => l.foldlM (GetIncludedBuildFiles aux fuel) (included ++ [path])

/-- Python `str.isspace` for one character. -/
def isPySpace (c : Char) : Bool :=
  let n := c.toNat
  (9 ≤ n && n ≤ 13) || (28 ≤ n && n ≤ 32) || n = 0x85 || n = 0xA0 || n = 0x1680 ||
  (0x2000 ≤ n && n ≤ 0x200A) || n = 0x2028 || n = 0x2029 || n = 0x202F || n = 0x205F || n = 0x3000

/-- Python `str.strip()`. -/
def pyStrip (s : Str) : Str := ((s.dropWhile isPySpace).reverse.dropWhile isPySpace).reverse

/-- Failures of `PruneUnwantedTargets`. -/
inductive PruneErr where
  /-- input.py:2876 `Could not find target %s` -/
  | notFound (target : Str)
  /-- a `KeyError` of `targets[...]` -/
  | keyError (name : Str)
  | fuel
deriving DecidableEq

/-- input.py:2872-2877 the requested targets, qualified. -/
def qualifyRoots (flat_list : List Str) : List Str → Except PruneErr (List Str)
  | [] => .ok []
  | target :: rest =>
    let q := FindQualifiedTargets (pyStrip target) flat_list
    if q = [] then .error (.notFound (pyStrip target))
    else do
      let qs ← qualifyRoots flat_list rest
      .ok (q ++ qs)

/-- `wanted_targets[name] = targets[name]`: the dictionary keeps the place of the first
insertion. -/
def wantAdd (targets : Targets) (wanted : Targets) (name : Str) : Except PruneErr Targets :=
  match targets.get? name with
  | none => .error (.keyError name)
  | some s => .ok (if name ∈ wanted.map Prod.fst then wanted else wanted ++ [(name, s)])

/-- input.py:2881-2883 one requested target and its deep dependencies. -/
def wantRoot (targets : Targets) (g : DepGraph) (fuel : Nat) (wanted : Targets) (target : Str) :
    Except PruneErr Targets := do
  let wanted ← wantAdd targets wanted target
  match DeepDependencies g fuel (some target) [] with
  | none => .error .fuel
  | some deep => deep.foldlM (wantAdd targets) wanted

/-- input.py:2879-2883 the wanted targets. -/
def collectWanted (targets : Targets) (g : DepGraph) (fuel : Nat) (roots : List Str) :
    Except PruneErr Targets :=
  roots.foldlM (wantRoot targets g fuel) []

/-- One target of a build file: its name and toolset. -/
structure FileTarget where
  target_name : Str
  toolset : Str
deriving DecidableEq

/-- input.py:2891-2898 the target list of one build file. -/
def pruneFile (wanted : Targets) (build_file : Str) (ts : List FileTarget) : List FileTarget :=
  ts.filter fun t =>
    QualifiedTarget build_file t.target_name (some t.toolset) ∈ wanted.map Prod.fst

/-- input.py:2869-2900 `PruneUnwantedTargets(targets, flat_list, dependency_nodes,
root_targets, data)`.  `data` holds the target list of each build file, `none` when the
file has no `targets` section. -/
def PruneUnwantedTargets (targets : Targets) (flat_list : List Str) (g : DepGraph) (fuel : Nat)
    (root_targets : List Str) (data : List (Str × Option (List FileTarget))) :
    Except PruneErr (Targets × List Str × List (Str × Option (List FileTarget))) := do
  let roots ← qualifyRoots flat_list root_targets
  let wanted ← collectWanted targets g fuel roots
  .ok (wanted, flat_list.filter (· ∈ wanted.map Prod.fst),
    data.map fun e => (e.1, e.2.map (pruneFile wanted e.1)))

/-! ### Build file graph -/

/-- Failures of `VerifyNoGYPFileCircularDependencies`. -/
inductive FileGraphErr where
  /-- input.py:2021 `Dependency '%s' not found` -/
  | notFound (file : Option Str)
  /-- input.py:2048 `CircularException` with the cycles of the message -/
  | circular (cycles : List (List Node))
  | fuel
deriving DecidableEq

/-- input.py:1996-2000 the build files, in order of first mention.  A build file is
`BuildFile(target)`, which is `None` for an unqualified name; the model uses the empty
name for it. -/
def buildFiles (targets : Targets) : List Str :=
  targets.foldl (fun files e => listAdd files ((BuildFile e.1).getD [])) []

/-- input.py:2016-2024 one dependency of a target of `build_file`. -/
def fileLinkStep (files : List Str) (build_file : Str) (g : DepGraph) (dependency : Str) :
    Except FileGraphErr DepGraph :=
  let f := (BuildFile dependency).getD []
  if f = build_file then .ok g
  else if f ∉ files then .error (.notFound (BuildFile dependency))
  else if some f ∈ g.dependencies (some build_file) then .ok g
  else .ok (g.addEdge (some build_file) (some f))

/-- input.py:2003-2024 all links between build files. -/
def fileLinks (targets : Targets) (files : List Str) : Except FileGraphErr DepGraph :=
  targets.foldlM (fun g e => e.2.deps.foldlM (fileLinkStep files ((BuildFile e.1).getD [])) g)
    ⟨fun _ => [], fun _ => []⟩

/-- input.py:2027-2031 files without dependencies hang off the root. -/
def fileRoots (files : List Str) (g : DepGraph) : DepGraph :=
  files.foldl (fun g f => if g.dependencies (some f) = [] then g.addEdge (some f) none else g) g

/-- input.py:1993-2050 `VerifyNoGYPFileCircularDependencies(targets)`. -/
def VerifyNoGYPFileCircularDependencies (targets : Targets) (fuel : Nat) :
    Except FileGraphErr Unit := do
  let files := buildFiles targets
  let g ← fileLinks targets files
  let g := fileRoots files g
  match FlattenToList g fuel with
  | none => .error .fuel
  | some flat =>
    if flat.length = files.length then .ok ()
    else
      let g' := if g.dependents none = [] then
          match files with
          | [] => g
          | f :: _ => g.addEdge (some f) none
        else g
      match FindCycles g' fuel none with
      | none => .error .fuel
      | some cycles => .error (.circular cycles)

/-! ### `DeepDependencyTargets` -/

/-- common.py:299-301 the state of the loop; both sets are kept as lists of distinct
elements. -/
structure DeepSt where
  dependencies : List Str
  pending : List Str
deriving DecidableEq

/-- `s.update(xs)` on a set. -/
def setUpdate (s xs : List Str) : List Str := xs.foldl listAdd s

/-- common.py:302-312 one iteration: `pending.pop()` takes an arbitrary element `r`.
A target that is not in `target_dicts` raises `KeyError` (no step). -/
inductive DeepStep (targets : Targets) : DeepSt → DeepSt → Prop where
  | skip (s : DeepSt) (r : Str) (hr : r ∈ s.pending) (hd : r ∈ s.dependencies) :
      DeepStep targets s { s with pending := s.pending.erase r }
  | visit (s : DeepSt) (r : Str) (spec : TSpec) (hr : r ∈ s.pending) (hd : r ∉ s.dependencies)
      (hs : targets.get? r = some spec) :
      DeepStep targets s
        { dependencies := listAdd s.dependencies r
          pending := setUpdate (setUpdate (s.pending.erase r) spec.deps) (spec.original.getD []) }

/-- common.py:297-313 `DeepDependencyTargets(target_dicts, roots)`: `result` (in any
order) is a possible return value. -/
def DeepDependencyTargets (targets : Targets) (roots result : List Str) : Prop :=
  ∃ s, Relation.ReflTransGen (DeepStep targets) ⟨[], setUpdate [] roots⟩ s ∧ s.pending = [] ∧
    ∃ order : List Str, order.Perm s.dependencies ∧ result = order.filter (· ∉ roots)

/-- common.py:322-327 `AllTargets(target_list, target_dicts, build_file)`: `result` is a
possible return value. -/
def AllTargets (target_list : List Str) (targets : Targets) (build_file : Str)
    (result : List Str) : Prop :=
  ∃ deptargets, DeepDependencyTargets targets (BuildFileTargets target_list build_file) deptargets ∧
    result = BuildFileTargets target_list build_file ++ deptargets

end Gyp
