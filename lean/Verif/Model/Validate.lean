import Verif.Model.Configurations
import Verif.Model.Includes
import Verif.Model.Scan
import Verif.Model.Splitext
/-
The last steps of loading: `gyp/pylib/gyp/input.py` `ValidateTargetType`,
`ValidateRulesInTarget`, `ValidateRunAsInTarget`, `ValidateActionsInTarget`,
`TurnIntIntoStrInDict`, `TurnIntIntoStrInList`.

Simplifications: keys are strings (the parser of build files makes no others).  Parts of the
wrong type, which make the code end with another exception (`TypeError`, `KeyError`,
`AttributeError`), give the outcome `malformed`.
-/
namespace Gyp

/-- What the checks can fail with. -/
inductive ValErr where
  /-- input.py:2703 `... has an invalid target type ...` -/
  | badType
  /-- input.py:2711 `standalone_static_library flag is only valid for static_library type` -/
  | standalone
  /-- input.py:2738 `rule ... exists in duplicate` -/
  | duplicateRule (name : Str)
  /-- input.py:2746 `extension ... associated with multiple rules` -/
  | duplicateExtension (ext : Str)
  /-- input.py:2763 `rule_sources must not exist in input` -/
  | ruleSources (name : Str)
  /-- input.py:2790 `'run_as' ... should be a dictionary` -/
  | runAs
  /-- input.py:2796 `'run_as' ... must have an 'action' section` -/
  | runAsNoAction
  /-- input.py:2801 `'action' for 'run_as' ... must be a list` -/
  | runAsAction
  /-- input.py:2807 -/
  | runAsDirectory
  /-- input.py:2813 -/
  | runAsEnvironment
  /-- input.py:2826 `Anonymous action` -/
  | anonymousAction
  /-- input.py:2831 `Action ... has no inputs` -/
  | noInputs
  /-- input.py:2834 `Empty action as command` -/
  | emptyCommand
  | malformed
deriving DecidableEq

/-- input.py:2691-2699 -/
def validTargetTypes : List Str :=
  [c!"executable", c!"loadable_module", c!"static_library", c!"shared_library",
   c!"mac_kernel_extension", c!"none", c!"windows_driver"]

/-- `d.get(key)` as a condition; absent keys are false. -/
def getTrue (d : Dict) (key : Str) : Option Val :=
  match d.get? key with
  | some v => if v.truthy then some v else none
  | none => none

/-- input.py:2682-2714 `ValidateTargetType(target, target_dict)`. -/
def ValidateTargetType (td : Dict) : Except ValErr Unit :=
  match td.get? c!"type" with
  | some (.str t) =>
    if t ∉ validTargetTypes then .error .badType
    else if (getTrue td c!"standalone_static_library").isSome ∧ t ≠ c!"static_library" then
      .error .standalone
    else .ok ()
  | _ => .error .badType

/-- input.py:2743-2744, 2774-2775 an extension without its leading dot. -/
def dropDot (s : Str) : Str :=
  match s with
  | '.' :: rest => rest
  | _ => s

/-- input.py:2772-2777 the sources of one list with the extension of a rule. -/
def matchingSources (ext : Str) (sources : List Str) : List Str :=
  sources.filter fun s => dropDot (splitext s).2 = ext

/-- `target_dict.get(source_key, [])`: a list of strings. -/
def sourceList (td : Dict) (key : Str) : Except ValErr (List Str) :=
  match td.get? key with
  | none => .ok []
  | some (.list l) =>
    match strItems l with
    | some s => .ok s
    | none => .error .malformed
  | some _ => .error .malformed

/-- input.py:2768-2777 the sources of a rule, from all lists. -/
def ruleSources (td : Dict) (ext : Str) : List Str → Except ValErr (List Str)
  | [] => .ok []
  | key :: rest =>
    match sourceList td key with
    | .error e => .error e
    | .ok s =>
      match ruleSources td ext rest with
      | .error e => .error e
      | .ok more => .ok (matchingSources ext s ++ more)

/-- input.py:2734-2780 the body of the loop: the rule with its sources, its name and its
extension. -/
def validateRule (td : Dict) (keys names exts : List Str) (rule : Dict) :
    Except ValErr (Dict × Str × Str) :=
  match rule.get? c!"rule_name" with
  | some (.str name) =>
    if name ∈ names then .error (.duplicateRule name)
    else match rule.get? c!"extension" with
      | some (.str e) =>
        let ext := dropDot e
        if ext ∈ exts then .error (.duplicateExtension ext)
        else if c!"rule_sources" ∈ rule.keys then .error (.ruleSources name)
        else match ruleSources td ext keys with
          | .error e => .error e
          | .ok sources =>
            .ok (if sources = [] then rule
              else rule.set c!"rule_sources" (.list (sources.map .str)), name, ext)
      | _ => .error .malformed
  | _ => .error .malformed

/-- input.py:2734-2780 the loop over the rules. -/
def validateRules (td : Dict) (keys : List Str) :
    List Str → List Str → List Val → Except ValErr (List Val)
  | _, _, [] => .ok []
  | names, exts, .dict rule :: rest =>
    match validateRule td keys names exts rule with
    | .error e => .error e
    | .ok (rule', name, ext) =>
      match validateRules td keys (name :: names) (ext :: exts) rest with
      | .error e => .error e
      | .ok rest' => .ok (.dict rule' :: rest')
  | _, _, _ :: _ => .error .malformed

/-- input.py:2717-2780 `ValidateRulesInTarget(target, target_dict, extra_sources_for_rules)`. -/
def ValidateRulesInTarget (td : Dict) (extra : List Str) : Except ValErr Dict :=
  match td.get? c!"rules" with
  | none => .ok td
  | some (.list rules) =>
    match validateRules td (c!"sources" :: extra) [] [] rules with
    | .error e => .error e
    | .ok rules' => .ok (td.set c!"rules" (.list rules'))
  | some _ => .error .malformed

/-- input.py:2783-2816 `ValidateRunAsInTarget(target, target_dict, build_file)`. -/
def ValidateRunAsInTarget (td : Dict) : Except ValErr Unit :=
  match getTrue td c!"run_as" with
  | none => .ok ()
  | some (.dict r) =>
    match getTrue r c!"action" with
    | none => .error .runAsNoAction
    | some (.list _) =>
      match getTrue r c!"working_directory" with
      | some (.str _) | none =>
        match getTrue r c!"environment" with
        | some (.dict _) | none => .ok ()
        | _ => .error .runAsEnvironment
      | _ => .error .runAsDirectory
    | _ => .error .runAsAction
  | _ => .error .runAs

/-- `not action_command[0]` for a true `action_command`. -/
def emptyFirst : Val → Except ValErr Bool
  | .list (x :: _) => .ok !x.truthy
  | .str _ => .ok false
  | _ => .error .malformed

/-- input.py:2822-2834 one action. -/
def validateAction (a : Dict) : Except ValErr Unit :=
  match getTrue a c!"action_name" with
  | none => .error .anonymousAction
  | some _ =>
    match a.get? c!"inputs" with
    | none | some .other => .error .noInputs
    | some _ =>
      match getTrue a c!"action" with
      | none => .ok ()
      | some c =>
        match emptyFirst c with
        | .error e => .error e
        | .ok true => .error .emptyCommand
        | .ok false => .ok ()

/-- input.py:2822-2834 the loop over the actions. -/
def validateActions : List Val → Except ValErr Unit
  | [] => .ok ()
  | .dict a :: rest =>
    match validateAction a with
    | .error e => .error e
    | .ok () => validateActions rest
  | _ :: _ => .error .malformed

/-- input.py:2818-2834 `ValidateActionsInTarget(target, target_dict, build_file)`. -/
def ValidateActionsInTarget (td : Dict) : Except ValErr Unit :=
  match td.get? c!"actions" with
  | none => .ok ()
  | some (.list l) => validateActions l
  | some _ => .error .malformed

mutual

/-- input.py:2837-2853 `TurnIntIntoStrInDict(the_dict)`. -/
def TurnIntIntoStrInDict : Dict → Dict
  | [] => []
  | (k, v) :: rest => (k, turnInt v) :: TurnIntIntoStrInDict rest

/-- input.py:2843-2849, 2860-2865 one value. -/
def turnInt : Val → Val
  | .int i => .str (intStr i)
  | .dict d => .dict (TurnIntIntoStrInDict d)
  | .list l => .list (TurnIntIntoStrInList l)
  | .str s => .str s
  | .other => .other

/-- input.py:2856-2865 `TurnIntIntoStrInList(the_list)`. -/
def TurnIntIntoStrInList : List Val → List Val
  | [] => []
  | v :: rest => turnInt v :: TurnIntIntoStrInList rest

end

/-- input.py:3094-3098 the checks of one target, in this order. -/
def validateTarget (extra : List Str) (td : Dict) : Except ValErr Dict :=
  match ValidateTargetType td with
  | .error e => .error e
  | .ok () =>
    match ValidateRulesInTarget td extra with
    | .error e => .error e
    | .ok td' =>
      match ValidateRunAsInTarget td' with
      | .error e => .error e
      | .ok () =>
        match ValidateActionsInTarget td' with
        | .error e => .error e
        | .ok () => .ok td'

end Gyp
