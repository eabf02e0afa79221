import Verif.Spec.CMake
/-
What CMake should be told of the rules of a target.
-/
namespace Gyp.Spec

/-- The variables that are set while the command for a source is told. -/
def ruleVars : List Str :=
  [c!"RULE_INPUT_PATH", c!"RULE_INPUT_DIRNAME", c!"RULE_INPUT_NAME", c!"RULE_INPUT_ROOT", c!"RULE_INPUT_EXT"]

/-- What there is to a rule for one source, as CMake should see it: the source, its directory, its name,
the name without and the extension, the path that is watched, the outputs, the directories to be made
first, the words of the command and of the comment. -/
structure SourceRead where
  path : Str
  dir : Str
  name : Str
  root : Str
  ext : Str
  dep : Str
  outs : List Str
  dirs : List Str
  args : List Str
  comment : List Str

/-- The variables of CMake for a source. -/
def ruleEnv (env : CEnv) (x : SourceRead) : CEnv := fun n =>
  if n = c!"RULE_INPUT_PATH" then x.path
  else if n = c!"RULE_INPUT_DIRNAME" then x.dir
  else if n = c!"RULE_INPUT_NAME" then x.name
  else if n = c!"RULE_INPUT_ROOT" then x.root
  else if n = c!"RULE_INPUT_EXT" then x.ext
  else env n

/-- CMake is told of the command for a source: it makes the outputs from the inputs of the rule and from
the source, first making the directories, in the directory `wd`. -/
def RecordsSource (cm wd : Str) (ins : List Str) (x : SourceRead) (t : Told) : Prop :=
  t.command = c!"add_custom_command" ∧
    byOption t.args = ([],
      [(c!"OUTPUT", x.outs)] ++
      x.dirs.map (fun d => (c!"COMMAND", [cm, c!"-E", c!"make_directory", d])) ++
      [(c!"COMMAND", x.args), (c!"DEPENDS", ins ++ [x.dep]), (c!"WORKING_DIRECTORY", [wd]),
       (c!"COMMENT", x.comment), (c!"VERBATIM", [])])

/-- What there is to a rule: its inputs and what there is to it for each source. -/
structure RuleRead where
  ins : List Str
  sources : List SourceRead

/-- CMake is told of a rule: of a command for each source, in order, and of a target `name` that needs
all outputs. -/
def RecordsRule (cm wd name : Str) (x : RuleRead) (told : List Told) : Prop :=
  ∃ cmds t, told = cmds ++ [t] ∧ List.Forall₂ (RecordsSource cm wd x.ins) x.sources cmds ∧
    t.command = c!"add_custom_target" ∧
    byOption t.args = ([name],
      [(c!"DEPENDS", x.sources.flatMap (·.outs)), (c!"SOURCES", x.ins ++ x.sources.map (·.dep))])

end Gyp.Spec
