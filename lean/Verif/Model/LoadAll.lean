import Verif.Model.Load
import Verif.Model.DepLists
import Verif.Model.Settings
import Verif.Model.ListFilters
import Verif.Model.Configurations
import Verif.Model.Validate
import Verif.Model.Expand
/-
`gyp/pylib/gyp/input.py` `Load` from line 2984 on: what is done with the targets of all build files once
these are loaded, pass after pass.  (How files are loaded, 2950-2982, is in other models.)

Simplification: a target without `type`, or with dependency lists that are not lists of strings, is
refused when the dependency graph is built; the code refuses it in a later pass.
-/
namespace Gyp

/-- Failures of `Load`. -/
inductive LoadErr where
  /-- a `targets` section or a target that is not as it should be -/
  | malformed
  | lists (e : DepListErr)
  | files (e : FileGraphErr)
  | graph (e : GraphErr)
  | prune (e : PruneErr)
  | settings (e : SetErr)
  | expand (e : ExpErr)
  | config (e : ConfigErr)
  | filter (e : FilterErr)
  | invalid (e : ValErr)

/-- What `Load` gets besides the files: globals of the generator (input.py:2932-2947), variables and the
command line.  `late` and `latelate` are the expansions of the two late phases, for a build file; `fuel`
bounds every recursion. -/
structure LoadEnv where
  cwd : List Str
  pathSections : List Str
  nonConfig : List Str
  invalid : List Str
  multiple : Bool
  late : Str → ExpEnv
  latelate : Str → ExpEnv
  vars : Dict
  filters : FilterCtx
  circularCheck : Bool
  roots : List Str
  adjust : Bool
  sort : Bool
  extra : List Str
  fuel : Nat

/-- An error of one pass as an error of `Load`. -/
def failAs {ε α : Type} (f : ε → LoadErr) : Except ε α → Except LoadErr α
  | .error e => .error (f e)
  | .ok a => .ok a

/-- The targets of all build files: name, toolset and dictionary. -/
abbrev FileData := List (Str × List (Str × Str × Dict))

/-- input.py:1577 `int(target_dict.get("suppress_wildcard", False))` as a condition (for text, `0` and
nothing else is taken as false). -/
def suppressOf (d : Dict) : Bool :=
  match d.get? c!"suppress_wildcard" with
  | none => false
  | some (.int i) => i ≠ 0
  | some (.str s) => s ≠ c!"0"
  | some _ => true

/-- input.py:1565-1580 the targets of a build file as wildcards see them. -/
def wildData (data : FileData) (file : Str) : Option (List WildTarget) :=
  (aget data file).map fun ts => ts.map fun t => ⟨t.1, t.2.1, suppressOf t.2.2⟩

/-- input.py:3001-3010 list filters for the dependency sections of one target. -/
def filterDependencies (env : LoadEnv) (td : Dict) : Except LoadErr Dict :=
  let tmp : Dict := allDependencySections.filterMap fun k => (td.get? k).map fun v => (k, v)
  let td := allDependencySections.foldl Dict.del td
  match ProcessListFilters env.filters env.fuel (.dict tmp) with
  | .error e => .error (.filter e)
  | .ok (.dict tmp) => .ok (tmp.foldl (fun d e => Dict.set d e.1 e.2) td)
  | .ok _ => .error .malformed

/-- The same for all targets. -/
def filterAllDependencies (env : LoadEnv) : Table → Except LoadErr Table
  | [] => .ok []
  | (name, td) :: rest =>
    match filterDependencies env td with
    | .error e => .error e
    | .ok td' =>
      match filterAllDependencies env rest with
      | .error e => .error e
      | .ok rest' => .ok ((name, td') :: rest')

/-- input.py:2985-3013 the table of targets and their dependencies. -/
def dependencyPasses (env : LoadEnv) (data : FileData) : Except LoadErr Table := do
  let t ← failAs .lists (BuildTargetsDict data)
  let t ← failAs .lists (QualifyDependencies env.cwd env.multiple t)
  let t ← failAs .lists (RemoveSelfDependencies t)
  let t ← failAs .lists (ExpandWildcardDependencies (wildData data) t)
  let t ← failAs .lists (RemoveLinkDependenciesFromNoneTargets t)
  let t ← filterAllDependencies env t
  failAs .lists (RemoveDuplicateDependencies t)

/-- `targets` with only the wanted targets, in their order. -/
def keepWanted (wanted : Targets) (table : Table) : Table :=
  wanted.filterMap fun e => (aget table e.1).map fun d => (e.1, d)

/-- input.py:3015-3031 checks of files, the graph, the wanted targets, and the check of names. -/
def graphPasses (env : LoadEnv) (table : Table) : Except LoadErr (DepGraph × List Str × Table) :=
  match specsOf table with
  | none => .error .malformed
  | some targets =>
    match if env.circularCheck then failAs .files (VerifyNoGYPFileCircularDependencies targets env.fuel)
        else .ok () with
    | .error e => .error e
    | .ok () =>
      match BuildDependencyList targets env.fuel with
      | .error e => .error (.graph e)
      | .ok (g, flat) =>
        match (if env.roots = [] then .ok (flat, table)
          else match PruneUnwantedTargets targets flat g env.fuel env.roots [] with
            | .error e => .error (.prune e)
            | .ok (wanted, flat, _) => .ok (flat, keepWanted wanted table) :
            Except LoadErr (List Str × Table)) with
        | .error e => .error e
        | .ok (flat, table) =>
          match VerifyNoCollidingTargets flat with
          | .error e => .error (.lists e)
          | .ok () => .ok (g, flat, table)

/-- input.py:2106-2169 the entries that the adjustment of static libraries leaves in a target. -/
def writeAdjusted (d : Dict) (s : TSpec) : Dict :=
  let d := match s.original with
    | some own => d.set c!"dependencies_original" (strVals own)
    | none => d
  match s.dependencies with
  | some l => d.set c!"dependencies" (strVals l)
  | none => d.del c!"dependencies"

/-- input.py:3048-3058 the adjustment of static libraries. -/
def adjustPass (env : LoadEnv) (g : DepGraph) (flat : List Str) (table : Table) :
    Except LoadErr Table :=
  if ¬ env.adjust then .ok table
  else match specsOf table with
    | none => .error .malformed
    | some targets =>
      match AdjustStaticLibraryDependencies flat targets g env.fuel env.sort with
      | .error e => .error (.graph e)
      | .ok targets => .ok (table.map fun e =>
          (e.1, match targets.get? e.1 with
            | some s => writeAdjusted e.2 s
            | none => e.2))

/-- A pass over the targets of the flat list, each for itself. -/
def eachTarget (f : Str → Dict → Except LoadErr Dict) : List Str → Table → Except LoadErr Table
  | [], table => .ok table
  | t :: rest, table =>
    match aget table t with
    | none => .error (.graph (.keyError t))
    | some td =>
      match f t td with
      | .error e => .error e
      | .ok td' => eachTarget f rest (aset table t td')

/-- input.py:3060-3066 the late phase for one target. -/
def latePass (env : LoadEnv) (t : Str) (td : Dict) : Except LoadErr Dict :=
  failAs .expand (ProcessVariablesAndConditionsInDict (env.late ((BuildFile t).getD [])) env.fuel none
    env.vars td)

/-- input.py:3068-3071 configurations of one target. -/
def configPass (env : LoadEnv) (t : Str) (td : Dict) : Except LoadErr Dict :=
  failAs .config (SetUpConfigurations env.cwd env.pathSections env.nonConfig env.invalid t td)

/-- input.py:3073-3076 list filters of one target. -/
def filterPass (env : LoadEnv) (_ : Str) (td : Dict) : Except LoadErr Dict :=
  match ProcessListFilters env.filters env.fuel (.dict td) with
  | .error e => .error (.filter e)
  | .ok (.dict d) => .ok d
  | .ok _ => .error .malformed

/-- input.py:3078-3084 the last phase for one target. -/
def latelatePass (env : LoadEnv) (t : Str) (td : Dict) : Except LoadErr Dict :=
  failAs .expand (ProcessVariablesAndConditionsInDict (env.latelate ((BuildFile t).getD [])) env.fuel none
    env.vars td)

/-- input.py:3086-3098 the checks of one target. -/
def checkPass (env : LoadEnv) (_ : Str) (td : Dict) : Except LoadErr Dict :=
  failAs .invalid (validateTarget env.extra td)

/-- input.py:2985-3106 `Load` once the files are loaded: the flat list and the targets.  (The
dictionaries in `data` are those of the targets, so that 3101 turns the numbers of the targets into
text.) -/
def loadTargets (env : LoadEnv) (data : FileData) : Except LoadErr (List Str × Table) := do
  let table ← dependencyPasses env data
  let (g, flat, table) ← graphPasses env table
  let table ← failAs .settings (publishSettings env.cwd env.pathSections g env.fuel flat table)
  let table ← adjustPass env g flat table
  let table ← eachTarget (latePass env) flat table
  let table ← eachTarget (configPass env) flat table
  let table ← eachTarget (filterPass env) flat table
  let table ← eachTarget (latelatePass env) flat table
  let table ← eachTarget (checkPass env) flat table
  return (flat, table.map fun e => (e.1, TurnIntIntoStrInDict e.2))

end Gyp
