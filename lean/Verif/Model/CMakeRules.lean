import Verif.Model.CMake
import Verif.Model.Splitext
import Verif.Model.Version
/-
The rules of a target in CMake files: `gyp/pylib/gyp/generator/cmake.py`, `WriteRules`.
-/
namespace Gyp

/-- One entry of `rules`: generator/cmake.py:346-440; a source comes with the order the set of
directories came out in for it. -/
structure CRule where
  name : Str
  inputs : List Str
  outputs : List Str
  action : List Str
  sources : List (List Str × Str)
  message : Option Str := none
  asSources : Bool := false

/-- generator/cmake.py:347 `rule_name`. -/
def cmRuleName (target : Str) (r : CRule) : Str := cmakeTargetName (target ++ c!"__" ++ r.name)

/-- generator/cmake.py:350 `inputs_name`. -/
def cmRuleInputs (target : Str) (r : CRule) : Str := cmRuleName target r ++ c!"__input"

/-- generator/cmake.py:360 `action_name`. -/
def cmRuleAction (target : Str) (r : CRule) (k : Nat) : Str := cmRuleName target r ++ c!"_" ++ natStr k

/-- generator/cmake.py:378 `output_name`. -/
def cmRuleOutVar (target : Str) (r : CRule) (k i : Nat) : Str :=
  cmRuleAction target r k ++ c!"_" ++ natStr i

/-- generator/cmake.py:377-388 the variables of the outputs for one source. -/
def cmRuleOutVars (target : Str) (r : CRule) (k : Nat) : List Str :=
  (List.range r.outputs.length).map (cmRuleOutVar target r k)

/-- generator/cmake.py:328-332 `NormjoinRulePathForceCMakeSource`. -/
def normjoinRule (base rel source : Str) : Str :=
  if (startsWith rel c!"${RULE_INPUT_PATH}" || startsWith rel c!"${RULE_INPUT_DIRNAME}") &&
      fullPathVars.any (startsWith source) then rel
  else normjoinSource base rel

/-- generator/cmake.py:362-369 the variables of a source. -/
def setRuleVars (source : Str) : Str :=
  setVariable c!"RULE_INPUT_PATH" source ++
  setVariable c!"RULE_INPUT_DIRNAME" (dirname source) ++
  setVariable c!"RULE_INPUT_NAME" (basename source) ++
  setVariable c!"RULE_INPUT_ROOT" (splitext (basename source)).1 ++
  setVariable c!"RULE_INPUT_EXT" (splitext (basename source)).2

/-- generator/cmake.py:426-430 -/
def unsetRuleVars : Str :=
  unsetVariable c!"RULE_INPUT_PATH" ++ unsetVariable c!"RULE_INPUT_DIRNAME" ++
  unsetVariable c!"RULE_INPUT_NAME" ++ unsetVariable c!"RULE_INPUT_ROOT" ++
  unsetVariable c!"RULE_INPUT_EXT"

/-- generator/cmake.py:377-383 the outputs are put in variables. -/
def setRuleOutputs (vars values : List Str) : Str :=
  (vars.zip values).flatMap fun p => setVariable p.1 p.2

/-- generator/cmake.py:392-395, 436-439 references, each on a line. -/
def refLines (vars : List Str) : Str := vars.flatMap fun n => c!"  " ++ writeVariable n ++ c!"\n"

/-- generator/cmake.py:418-422 the text after `COMMENT`. -/
def ruleComment (target : Str) (r : CRule) (k : Nat) : Str :=
  match r.message with
  | some m => m
  | none => cmRuleAction target r k

/-- generator/cmake.py:390-424 the `add_custom_command` for one source. -/
def cmRuleCommand (target path : Str) (r : CRule) (k : Nat) (dirs : List Str) (source : Str) : Str :=
  c!"add_custom_command(OUTPUT\n" ++ refLines (cmRuleOutVars target r k) ++
  makeDirs dirs ++
  c!"  COMMAND " ++ EncodePOSIXShellList r.action ++ c!"\n" ++
  c!"  DEPENDS " ++ writeVariable (cmRuleInputs target r) ++ c!" " ++ normjoinPath path source ++ c!"\n" ++
  c!"  WORKING_DIRECTORY " ++ listDirVar ++ c!"/" ++ path ++ c!"\n" ++
  c!"  COMMENT " ++ ruleComment target r k ++ c!"\n" ++
  c!"  VERBATIM\n" ++
  c!")\n"

/-- generator/cmake.py:359-430 all that is written for one source. -/
def cmRuleSource (target path : Str) (r : CRule) (k : Nat) (dirs : List Str) (source : Str) : Str :=
  setRuleVars source ++
  setRuleOutputs (cmRuleOutVars target r k) (r.outputs.map fun o => normjoinRule path o source) ++
  cmRuleCommand target path r k dirs source ++
  unsetRuleVars

/-- generator/cmake.py:359 the sources, counted. -/
def cmRuleSources (target path : Str) (r : CRule) : Nat → List (List Str × Str) → Str
  | _, [] => []
  | k, s :: rest => cmRuleSource target path r k s.1 s.2 ++ cmRuleSources target path r (k + 1) rest

/-- generator/cmake.py:389 `var_outputs`. -/
def cmRuleAllVars (target : Str) (r : CRule) : List Str :=
  (List.range r.sources.length).flatMap (cmRuleOutVars target r)

/-- generator/cmake.py:432-448 the `add_custom_target`. -/
def cmRuleTarget (target path : Str) (r : CRule) : Str :=
  c!"add_custom_target(" ++ cmRuleName target r ++ c!" DEPENDS\n" ++
  refLines (cmRuleAllVars target r) ++
  c!"SOURCES " ++ writeVariable (cmRuleInputs target r) ++ c!"\n" ++
  (r.sources.flatMap fun s => c!"  " ++ normjoinPath path s.2 ++ c!"\n") ++
  c!")\n"

/-- generator/cmake.py:346-450 one rule. -/
def cmRule (target path : Str) (r : CRule) : Str :=
  setVariableList (cmRuleInputs target r) (r.inputs.map (normjoinSource path)) ++
  cmRuleSources target path r 0 r.sources ++
  cmRuleTarget target path r

/-- generator/cmake.py:384-385 what a rule adds to the sources of its target. -/
def cmRuleExtra (target : Str) (r : CRule) : List (Str × Str) :=
  if r.asSources then
    (List.range r.sources.length).flatMap fun k =>
      ((cmRuleOutVars target r k).map writeVariable).zip r.outputs
  else []

/-- generator/cmake.py:335-450 `WriteRules`: the text. -/
def cmRules (target path : Str) (rules : List CRule) : Str := rules.flatMap (cmRule target path)

end Gyp
