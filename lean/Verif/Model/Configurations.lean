import Verif.Model.Merge
import Verif.Model.Targets
import Verif.Model.Sort
/-
Configurations of a target: `gyp/pylib/gyp/input.py` `MergeConfigWithInheritance`,
`SetUpConfigurations`.
-/
namespace Gyp

/-- Failures of the two functions. -/
inductive ConfigErr where
  | merge (e : MergeErr)
  /-- input.py:2406 `KeyError` for an unknown parent -/
  | unknown (configuration : Str)
  /-- a value of the wrong type: `AttributeError` or `TypeError` -/
  | badType
  /-- input.py:2446 `IndexError`: every configuration is abstract -/
  | noConcrete
  /-- input.py:2497 `GypError` -/
  | notAllowed (key configuration : Str)
  | depth
deriving DecidableEq

/-- Python truth of a value (`other` stands for `None`). -/
def Val.truthy : Val → Bool
  | .str s => s ≠ []
  | .int i => i ≠ 0
  | .list l => !l.isEmpty
  | .dict d => !d.isEmpty
  | .other => false

/-- `for parent in v` where the elements are used as configuration names: a list of
strings, the keys of a dictionary or the characters of a string. -/
def inheritList : Val → Option (List Str)
  | .list l => l.mapM fun v => match v with
    | .str s => some s
    | _ => none
  | .dict d => some (Dict.keys d)
  | .str s => some (s.map fun ch => [ch])
  | _ => none

/-- input.py:2406 `target_dict["configurations"][configuration]`, a dictionary. -/
def configDict (configs : Dict) (configuration : Str) : Except ConfigErr Dict :=
  match configs.get? configuration with
  | none => .error (.unknown configuration)
  | some (.dict d) => .ok d
  | some _ => .error .badType

/-- input.py:2409 the parents of a configuration. -/
def configParents (d : Dict) : Except ConfigErr (List Str) :=
  match d.get? c!"inherit_from" with
  | none => .ok []
  | some v => match inheritList v with
    | some ps => .ok ps
    | none => .error .badType

/-- input.py:2398-2423 `MergeConfigWithInheritance`; the result is the new value of
`new_configuration_dict`.  `depth` bounds the recursion. -/
def MergeConfigWithInheritance (c : MergeCtx) (configs : Dict) :
    Nat → Dict → Str → List Str → Except ConfigErr Dict
  | 0, _, _, _ => .error .depth
  | depth + 1, new, configuration, visited =>
    if configuration ∈ visited then .ok new
    else
      match configDict configs configuration with
      | .error e => .error e
      | .ok d =>
        match configParents d with
        | .error e => .error e
        | .ok parents =>
          match parents.foldlM (fun new parent =>
              MergeConfigWithInheritance c configs depth new parent (visited ++ [configuration]))
              new with
          | .error e => .error e
          | .ok new =>
            match MergeDicts c new d with
            | .error e => .error (.merge e)
            | .ok new => .ok (new.del c!"abstract")

/-- input.py:2431 `key_suffixes`. -/
def isKeySuffix (c : Char) : Bool := c = '=' ∨ c = '+' ∨ c = '?' ∨ c = '!' ∨ c = '/'

/-- input.py:2459-2460 `key_base`. -/
def keyBase (key : Str) : Str :=
  match key.getLast? with
  | some ch => if isKeySuffix ch then key.dropLast else key
  | none => key

/-- input.py:2452 `old_configuration_dict.get("abstract")`. -/
def isAbstract : Val → Except ConfigErr Bool
  | .dict d => .ok (((Dict.get? d c!"abstract").map Val.truthy).getD false)
  | _ => .error .badType

/-- input.py:2441-2445, 2476-2478 the configurations that are not abstract. -/
def concreteOf : Dict → Except ConfigErr Dict
  | [] => .ok []
  | e :: configs =>
    match isAbstract e.2, concreteOf configs with
    | .error err, _ => .error err
    | _, .error err => .error err
    | .ok true, .ok rest => .ok rest
    | .ok false, .ok rest => .ok (e :: rest)

/-- input.py:2441-2446 the default configuration. -/
def defaultConfiguration (configs : Dict) : Except ConfigErr Str := do
  let concrete ← concreteOf configs
  match pySorted strLe concrete.keys with
  | [] => .error .noConcrete
  | c :: _ => .ok c

/-- input.py:2440-2446 provide the default configuration if the target names none. -/
def withDefault (configs td : Dict) : Except ConfigErr Dict :=
  if (td.get? c!"default_configuration").isNone then
    match defaultConfiguration configs with
    | .error e => .error e
    | .ok d => .ok (td.set c!"default_configuration" (.str d))
  else .ok td

/-- input.py:2450-2469 one configuration. -/
def setUpOne (c : MergeCtx) (nonConfig : List Str) (target configs : Dict) (merged : Dict)
    (e : Str × Val) : Except ConfigErr Dict := do
  if ← isAbstract e.2 then return merged
  let base := target.filter fun kv => keyBase kv.1 ∉ nonConfig
  let new ← MergeConfigWithInheritance c configs (configs.length + 1) base e.1 []
  return merged.set e.1 (.dict new)

/-- input.py:2494-2500 the check of one configuration. -/
def checkConfig (invalid : List Str) (e : Str × Val) : Except ConfigErr Unit :=
  match e.2 with
  | .dict d => match (Dict.keys d).find? (· ∈ invalid) with
    | some k => .error (.notAllowed k e.1)
    | none => .ok ()
  | _ => .error .badType

/-- input.py:2493-2500 the check for keys that must not be in a configuration. -/
def checkConfigs (invalid : List Str) : Dict → Except ConfigErr Unit
  | [] => .ok ()
  | e :: configs => match checkConfig invalid e with
    | .error x => .error x
    | .ok () => checkConfigs invalid configs

/-- input.py:2426-2500 `SetUpConfigurations(target, target_dict)`: the value of
`target_dict` afterwards.  `nonConfig` is `non_configuration_keys` and `invalid` is
`invalid_configuration_keys`. -/
def SetUpConfigurations (cwd paths nonConfig invalid : List Str) (target : Str) (td : Dict) :
    Except ConfigErr Dict := do
  let bf := (BuildFile target).getD []
  let td := if (td.get? c!"configurations").isNone then
      td.set c!"configurations" (.dict [(c!"Default", .dict [])]) else td
  let configs ← match td.get? c!"configurations" with
    | some (.dict d) => .ok d
    | _ => .error .badType
  let td ← withDefault configs td
  let merged ← configs.foldlM (setUpOne ⟨cwd, paths, bf, bf⟩ nonConfig td configs) []
  let configs := merged.foldl (fun d e => Dict.set d e.1 e.2) configs
  let configs ← concreteOf configs
  let td := td.set c!"configurations" (.dict configs)
  let td := td.filter fun kv => keyBase kv.1 ∈ nonConfig
  checkConfigs invalid configs
  return td

/-- input.py:85-111 `base_non_configuration_keys`. -/
def baseNonConfigurationKeys : List Str :=
  [c!"actions", c!"configurations", c!"copies", c!"default_configuration", c!"dependencies",
   c!"dependencies_original", c!"libraries", c!"postbuilds", c!"product_dir",
   c!"product_extension", c!"product_name", c!"product_prefix", c!"rules", c!"run_as",
   c!"sources", c!"standalone_static_library", c!"suppress_wildcard", c!"target_name",
   c!"toolset", c!"toolsets", c!"type", c!"variables"]

/-- input.py:115-127 `invalid_configuration_keys`. -/
def invalidConfigurationKeys : List Str :=
  [c!"actions", c!"all_dependent_settings", c!"configurations", c!"dependencies",
   c!"direct_dependent_settings", c!"libraries", c!"link_settings", c!"sources",
   c!"standalone_static_library", c!"target_name", c!"type"]

end Gyp
