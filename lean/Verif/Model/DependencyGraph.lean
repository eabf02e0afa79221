import Verif.Model.OrderedSet
import Verif.Model.Sort
import Mathlib.Logic.Function.Basic
/-
The dependency graph of gyp/pylib/gyp/input.py:1652-2169.
-/
namespace Gyp

/-- The parts of a target dictionary that the dependency code reads or writes. -/
structure TSpec where
  /-- `target_dict["type"]` -/
  type : Str
  /-- `target_dict["dependencies"]`, when present -/
  dependencies : Option (List Str) := none
  /-- `target_dict.get("export_dependent_settings", [])` -/
  exports : List Str := []
  /-- `target_dict.get("dependencies_traverse", True)` -/
  traverse : Bool := true
  /-- `target_dict.get("hard_dependency", False)` -/
  hard : Bool := false
  /-- `target_dict.get("allow_sharedlib_linksettings_propagation", True)` -/
  propagate : Bool := true
  /-- `target_dict["dependencies_original"]`, when present -/
  original : Option (List Str) := none
deriving DecidableEq

/-- `targets`: a Python dictionary in insertion order. -/
abbrev Targets := List (Str × TSpec)

/-- `targets[name]` / `targets.get(name)`. -/
def Targets.get? (ts : Targets) (name : Str) : Option TSpec :=
  (ts.find? fun e => e.1 = name).map Prod.snd

/-- `spec.get("dependencies")`, with an absent list read as empty (both are false in
the test of line 1955). -/
def TSpec.deps (s : TSpec) : List Str := s.dependencies.getD []

/-- input.py:1664-1667 nodes are identified by their `ref`; `none` is the root node. -/
abbrev Node := Option Str

/-- input.py:1652-1667 the edge lists of all nodes. -/
structure DepGraph where
  dependencies : Node → List Node
  dependents : Node → List Node

/-- Failures of the graph functions. -/
inductive GraphErr where
  /-- input.py:1962-1965 `Dependency '%s' not found while trying to load target %s` -/
  | notFound (dependency target : Str)
  /-- input.py:1986-1988 `CircularException`, with the cycles of the message -/
  | circular (cycles : List (List Node))
  /-- a `KeyError` of `targets[...]` -/
  | keyError (name : Str)
  /-- the loop or recursion bound given to the model was too small -/
  | fuel
deriving DecidableEq

/-- `sorted(nodes, key=ExtractNodeRef)`: Python orders strings; `None` is only ever
sorted alone. -/
def nodeLe : Node → Node → Bool
  | none, _ => true
  | some _, none => false
  | some a, some b => strLe a b

/-- input.py:1699-1719 the dependents that have no dependency outside `flat_list`, in
the order in which they are appended to `in_degree_zeros`. -/
def readyDependents (g : DepGraph) (node : Node) (flat : List Node) : List Node :=
  (pySorted nodeLe (g.dependents node)).filter fun nd =>
    (pySorted nodeLe (g.dependencies nd)).all fun d => d ∈ flat

/-- input.py:1689-1721 the loop of `FlattenToList`.  `in_degree_zeros` is kept
reversed, so that `pop()` takes the head.  The first argument bounds the number of
iterations; the theorems hold for every sufficiently large bound. -/
def flattenLoop (g : DepGraph) : Nat → List Node → List Node → Option (List Node)
  | _, [], flat => some flat
  | 0, _ :: _, _ => none
  | fuel + 1, node :: zeros, flat =>
    let flat' := listAdd flat node
    flattenLoop g fuel ((readyDependents g node flat').reverse ++ zeros) flat'

/-- input.py:1672-1721 `FlattenToList` of the root node. -/
def FlattenToList (g : DepGraph) (fuel : Nat) : Option (List Node) :=
  flattenLoop g fuel (pySorted nodeLe (g.dependents none)).reverse []

/-- Python `path.index(child)` for a child that is in the path. -/
def pathUpTo (child : Node) (path : List Node) : List Node :=
  path.take (path.idxOf child + 1)

/-- input.py:1730-1736 `Visit(node, path)` of `FindCycles`, with the state
`(visited, results)`.  The first argument bounds the recursion depth. -/
def cycleVisit (g : DepGraph) :
    Nat → List Node → List Node × List (List Node) → Option (List Node × List (List Node))
  | 0, _, _ => none
  | _, [], st => some st
  | fuel + 1, node :: rest, st =>
    (g.dependents node).foldlM (fun (st : List Node × List (List Node)) child =>
      if child ∈ node :: rest then
        some (st.1, st.2 ++ [child :: pathUpTo child (node :: rest)])
      else if child ∈ st.1 then some st
      else cycleVisit g fuel (child :: node :: rest) (child :: st.1, st.2)) st

/-- input.py:1723-1741 `FindCycles` from a start node. -/
def FindCycles (g : DepGraph) (fuel : Nat) (start : Node) : Option (List (List Node)) :=
  (cycleVisit g fuel [start] ([start], [])).map Prod.snd

/-- One edge: `node.dependencies.append(dep)` and `dep.dependents.append(node)`. -/
def DepGraph.addEdge (g : DepGraph) (node dep : Node) : DepGraph :=
  { dependencies := Function.update g.dependencies node (g.dependencies node ++ [dep])
    dependents := Function.update g.dependents dep (g.dependents dep ++ [node]) }

/-- input.py:1959-1967 one dependency of a target. -/
def linkStep (targets : Targets) (target : Str) (g : DepGraph) (dep : Str) :
    Except GraphErr DepGraph :=
  match targets.get? dep with
  | none => .error (.notFound dep target)
  | some _ => .ok (g.addEdge (some target) (some dep))

/-- input.py:1952-1967 the links of one target. -/
def linkTarget (targets : Targets) (g : DepGraph) (e : Str × TSpec) : Except GraphErr DepGraph :=
  if e.2.deps = [] then
    .ok { dependencies := Function.update g.dependencies (some e.1) [none]
          dependents := Function.update g.dependents none (g.dependents none ++ [some e.1]) }
  else
    e.2.deps.foldlM (linkStep targets e.1) g

/-- input.py:1944-1967 the graph of all targets. -/
def linkTargets (targets : Targets) : Except GraphErr DepGraph :=
  targets.foldlM (linkTarget targets) ⟨fun _ => [], fun _ => []⟩

/-- input.py:1973-1988 the error of a circular graph: if the root has no dependents the
first target is attached to it. -/
def circularError (targets : Targets) (g : DepGraph) (fuel : Nat) : GraphErr :=
  let g' := if g.dependents none = [] then
      match targets with
      | [] => g
      | (t, _) :: _ => g.addEdge (some t) none
    else g
  match FindCycles g' fuel none with
  | none => .fuel
  | some cycles => .circular cycles

/-- input.py:1941-1990 `BuildDependencyList(targets)`: the graph and the flat list. -/
def BuildDependencyList (targets : Targets) (fuel : Nat) :
    Except GraphErr (DepGraph × List Str) := do
  let g ← linkTargets targets
  match FlattenToList g fuel with
  | none => .error .fuel
  | some flat =>
    if flat.length ≠ targets.length then .error (circularError targets g fuel)
    else .ok (g, flat.filterMap id)

/-! ### Queries on one node -/

/-- input.py:1743-1753 `DirectDependencies()`.  (`dependency.ref` is false for the root
node; an empty name cannot be a qualified target name.) -/
def DirectDependencies (g : DepGraph) (n : Str) : List Str :=
  ((g.dependencies (some n)).filterMap id).foldl listAdd []

/-- input.py:1786-1792 inserting the exported dependencies after position `index`. -/
def insertImports (index : Nat) : Nat → List Str → List Str → List Str
  | _, [], deps => deps
  | add_index, imported :: rest, deps =>
    if imported ∈ deps then insertImports index add_index rest deps
    else insertImports index (add_index + 1) rest
      (deps.insertIdx (index + add_index) imported)

/-- input.py:1776-1795 the loop of `_AddImportedDependencies`. -/
def importLoop (targets : Targets) : Nat → Nat → List Str → Except GraphErr (List Str)
  | 0, _, _ => .error .fuel
  | fuel + 1, index, deps =>
    match deps[index]? with
    | none => .ok deps
    | some dependency =>
      match targets.get? dependency with
      | none => .error (.keyError dependency)
      | some d => importLoop targets fuel (index + 1) (insertImports index 1 d.exports deps)

/-- input.py:1797-1804 `DirectAndImportedDependencies(targets)`. -/
def DirectAndImportedDependencies (targets : Targets) (g : DepGraph) (fuel : Nat) (n : Str) :
    Except GraphErr (List Str) :=
  importLoop targets fuel 0 (DirectDependencies g n)

/-- input.py:1806-1821 `DeepDependencies(dependencies)`; the first argument bounds the
recursion depth. -/
def DeepDependencies (g : DepGraph) : Nat → Node → List Str → Option (List Str)
  | 0, _, _ => none
  | fuel + 1, n, dependencies =>
    (g.dependencies n).foldlM (fun deps dependency =>
      match dependency with
      | none => some deps
      | some r =>
        if r ∈ deps then some deps
        else (DeepDependencies g fuel (some r) deps).map fun deps' => listAdd deps' r) dependencies

/-- input.py:24-30 `linkable_types`: executables, shared libraries,
loadable modules, mac kernel extensions and windows drivers. -/
def linkableTypes : List Str :=
  [c!"executable", c!"shared_library", c!"loadable_module", c!"mac_kernel_extension",
   c!"windows_driver"]

/-- input.py:1883-1888 types that are never a link dependency. -/
def finalTypes : List Str :=
  [c!"executable", c!"loadable_module", c!"mac_kernel_extension", c!"windows_driver"]

/-- input.py:1823-1917 `_LinkDependenciesInternal`.  `target_name` and `type` are
present in the modelled dictionaries (lines 1853-1859 reject others); the first
argument bounds the recursion depth. -/
def linkDepsInternal (targets : Targets) (g : DepGraph) (include_shared : Bool) :
    Nat → Bool → List Str → Node → Except GraphErr (List Str)
  | _, _, deps, none => .ok deps
  | 0, _, _, some _ => .error .fuel
  | fuel + 1, initial, deps, some n =>
    match targets.get? n with
    | none => .error (.keyError n)
    | some t =>
      let is_linkable := decide (t.type ∈ linkableTypes)
      if initial && !is_linkable then .ok deps
      else if t.type = c!"none" ∧ !t.traverse then .ok (listAdd deps n)
      else if !initial ∧ t.type ∈ finalTypes then .ok deps
      else if !initial ∧ t.type = c!"shared_library" ∧ !include_shared then .ok deps
      else if n ∈ deps then .ok deps
      else if initial || !is_linkable then
        (g.dependencies (some n)).foldlM
          (linkDepsInternal targets g include_shared fuel false) (listAdd deps n)
      else .ok (listAdd deps n)

/-- input.py:1934-1938 `DependenciesToLinkAgainst(targets)`. -/
def DependenciesToLinkAgainst (targets : Targets) (g : DepGraph) (fuel : Nat) (n : Str) :
    Except GraphErr (List Str) :=
  linkDepsInternal targets g true fuel true [] (some n)

/-- input.py:1919-1932 `DependenciesForLinkSettings(targets)`. -/
def DependenciesForLinkSettings (targets : Targets) (g : DepGraph) (fuel : Nat) (n : Str) :
    Except GraphErr (List Str) :=
  match targets.get? n with
  | none => .error (.keyError n)
  | some t => linkDepsInternal targets g t.propagate fuel true [] (some n)

/-! ### Static libraries -/

/-- input.py:2124-2130 is the entry removed from a static library's list? -/
def dropsFromStatic (own : List Str) (name : Str) (d : TSpec) : Bool :=
  (d.type = c!"static_library" && !d.hard) ||
  (d.type ≠ c!"static_library" && name ∉ own)

/-- input.py:2117-2136 the `while` loop deleting entries in place. -/
def filterStatic (targets : Targets) (own : List Str) : List Str → Except GraphErr (List Str)
  | [] => .ok []
  | dep :: rest =>
    match targets.get? dep with
    | none => .error (.keyError dep)
    | some d => do
      let rest' ← filterStatic targets own rest
      .ok (if dropsFromStatic own dep d then rest' else dep :: rest')

/-- input.py:2094-2169 the new dictionary of one target. -/
def adjustTarget (targets : Targets) (g : DepGraph) (fuel : Nat) (flat_list : List Str)
    (sort_dependencies : Bool) (name : Str) (t : TSpec) : Except GraphErr TSpec :=
  if t.type = c!"static_library" then
    match t.dependencies with
    | none => .ok t
    | some own => do
      let deps ← DirectAndImportedDependencies targets g fuel name
      let deps ← filterStatic targets own deps
      .ok { t with
        original := some own
        dependencies := if deps = [] then none else some deps }
  else if t.type ∈ linkableTypes then do
    let link ← DependenciesToLinkAgainst targets g fuel name
    let deps := link.foldl (fun (ds : Option (List Str)) dependency =>
      if dependency = name then ds
      else some (listAdd (ds.getD []) dependency)) t.dependencies
    .ok { t with
      dependencies := deps.map fun ds =>
        if sort_dependencies then flat_list.reverse.filter (· ∈ ds) else ds }
  else .ok t

/-- `targets[name] = t` for a name that is present. -/
def Targets.set (ts : Targets) (name : Str) (t : TSpec) : Targets :=
  ts.map fun e => if e.1 = name then (name, t) else e

/-- input.py:2085-2169 `AdjustStaticLibraryDependencies(flat_list, targets,
dependency_nodes, sort_dependencies)`: the loop over the flat list updates the
dictionaries one after the other. -/
def AdjustStaticLibraryDependencies (flat_list : List Str) (targets : Targets) (g : DepGraph)
    (fuel : Nat) (sort_dependencies : Bool) : Except GraphErr Targets :=
  flat_list.foldlM (fun ts name =>
    match ts.get? name with
    | none => .error (.keyError name)
    | some t => do
      let t' ← adjustTarget ts g fuel flat_list sort_dependencies name t
      .ok (ts.set name t')) targets

end Gyp
