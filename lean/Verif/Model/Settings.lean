import Verif.Model.Merge
import Verif.Model.Assoc
import Verif.Model.DepLists
import Verif.Model.DependencyGraph
import Verif.Model.Configurations
import Verif.Model.Targets
/-
Passing settings on to dependents: `gyp/pylib/gyp/input.py` `DoDependentSettings` and the part
of `Load` around it.

Simplification: a target without a `type` (or with dependency lists that are not lists of
strings) is refused in every round; the code refuses it in the round of `link_settings`.
-/
namespace Gyp

/-- Failures while settings are passed on. -/
inductive SetErr where
  /-- input.py:2070-2073 unknown kind of settings -/
  | unknownKey (key : Str)
  /-- a `KeyError` of `targets[...]` -/
  | keyError (name : Str)
  /-- input.py:1853-1859 or a malformed target -/
  | malformed
  /-- the settings are not a dictionary -/
  | badSettings
  | graph (e : GraphErr)
  | merge (e : MergeErr)
deriving DecidableEq

/-- `target_dict.get(key, default)` used as a condition. -/
def flagOf (d : Dict) (key : Str) (default : Bool) : Bool :=
  match d.get? key with
  | none => default
  | some v => v.truthy

/-- The fields of a target dictionary that input.py:1652-1938 reads. -/
def specOf (d : Dict) : Option TSpec :=
  match d.get? c!"type", depList d c!"dependencies", depList d c!"export_dependent_settings" with
  | some (.str ty), .ok deps, .ok exports =>
    some { type := ty
           dependencies := deps
           exports := exports.getD []
           traverse := flagOf d c!"dependencies_traverse" true
           hard := flagOf d c!"hard_dependency" false
           propagate := flagOf d c!"allow_sharedlib_linksettings_propagation" true
           original := none }
  | _, _, _ => none

/-- The table of targets as the dependency code of input.py:1652-1938 sees it. -/
def specsOf : Table → Option Targets
  | [] => some []
  | (name, d) :: rest =>
    match specOf d, specsOf rest with
    | some s, some l => some ((name, s) :: l)
    | _, _ => none

/-- input.py:2061-2073 the targets whose settings are merged into a target. -/
def settingsFrom (key : Str) (targets : Targets) (g : DepGraph) (fuel : Nat) (target : Str) :
    Except SetErr (List Str) :=
  if key = c!"all_dependent_settings" then
    match DeepDependencies g fuel (some target) [] with
    | some l => .ok l
    | none => .error (.graph .fuel)
  else if key = c!"direct_dependent_settings" then
    match DirectAndImportedDependencies targets g fuel target with
    | .ok l => .ok l
    | .error e => .error (.graph e)
  else if key = c!"link_settings" then
    match DependenciesForLinkSettings targets g fuel target with
    | .ok l => .ok l
    | .error e => .error (.graph e)
  else .error (.unknownKey key)

/-- input.py:2075-2082 merge in the settings of one dependency. (Names of targets are qualified,
so that `BuildFile` finds a file.) -/
def mergeSettingsOf (cwd pathSections : List Str) (key target : Str) (table : Table)
    (dependency : Str) : Except SetErr Table :=
  match aget table dependency with
  | none => .error (.keyError dependency)
  | some dd =>
    match dd.get? key with
    | none => .ok table
    | some (.dict settings) =>
      match aget table target with
      | none => .error (.keyError target)
      | some td =>
        match MergeDicts ⟨cwd, pathSections, (BuildFile target).getD [],
            (BuildFile dependency).getD []⟩ td
            settings with
        | .ok td' => .ok (aset table target td')
        | .error e => .error (.merge e)
    | some _ => .error .badSettings

/-- input.py:2075-2082 the loop over the dependencies. -/
def mergeSettings (cwd pathSections : List Str) (key target : Str) :
    List Str → Table → Except SetErr Table
  | [], table => .ok table
  | d :: rest, table =>
    match mergeSettingsOf cwd pathSections key target table d with
    | .error e => .error e
    | .ok table' => mergeSettings cwd pathSections key target rest table'

/-- input.py:2053-2082 `DoDependentSettings(key, flat_list, targets, dependency_nodes)`. -/
def DoDependentSettings (cwd pathSections : List Str) (key : Str) (g : DepGraph) (fuel : Nat) :
    List Str → Table → Except SetErr Table
  | [], table => .ok table
  | target :: rest, table =>
    match aget table target with
    | none => .error (.keyError target)
    | some _ =>
      match specsOf table with
      | none => .error .malformed
      | some targets =>
        match settingsFrom key targets g fuel target with
        | .error e => .error e
        | .ok deps =>
          match mergeSettings cwd pathSections key target deps table with
          | .error e => .error e
          | .ok table' => DoDependentSettings cwd pathSections key g fuel rest table'

/-- input.py:3040-3043 take out the settings that have been passed on. -/
def dropSettings (key : Str) : List Str → Table → Table
  | [], table => table
  | target :: rest, table =>
    match aget table target with
    | none => dropSettings key rest table
    | some td => dropSettings key rest (aset table target (td.del key))

/-- input.py:3031-3043 the rounds, for the given kinds of settings. -/
def publishRounds (cwd pathSections : List Str) (g : DepGraph) (fuel : Nat)
    (flat_list : List Str) : List Str → Table → Except SetErr Table
  | [], table => .ok table
  | key :: rest, table =>
    match DoDependentSettings cwd pathSections key g fuel flat_list table with
    | .error e => .error e
    | .ok table' =>
      publishRounds cwd pathSections g fuel flat_list rest (dropSettings key flat_list table')

/-- input.py:3030-3043 all dependent settings, direct dependent settings, link settings. -/
def publishSettings (cwd pathSections : List Str) (g : DepGraph) (fuel : Nat)
    (flat_list : List Str) (table : Table) : Except SetErr Table :=
  publishRounds cwd pathSections g fuel flat_list
    [c!"all_dependent_settings", c!"direct_dependent_settings", c!"link_settings"] table

end Gyp
