import Verif.Model.MsvsRules
/-
The rules of a target, as documents of gyp tell them.
-/
namespace Gyp.Spec

/-- A text that has no reference to the file of a rule, nor the beginning of one at its end. -/
def NoInputRef (s : Str) : Prop := ∀ a b, s = a ++ '$' :: b → ¬ c!"(Input" <+: b ∧ ¬ b <+: c!"(Input"

/-- The pieces of a path or of a word of a rule. -/
inductive RulePiece where
  | text (s : Str)
  | root
  | directory
  | extension
  | name
  | path

/-- How a piece is written (`RULE_INPUT_ROOT`, `RULE_INPUT_DIRNAME`, `RULE_INPUT_EXT`, `RULE_INPUT_NAME` and
`RULE_INPUT_PATH` of a build file for Visual Studio). -/
def RulePiece.written : RulePiece → Str
  | .text s => s
  | .root => c!"$(InputName)"
  | .directory => c!"$(InputDir)"
  | .extension => c!"$(InputExt)"
  | .name => c!"$(InputFileName)"
  | .path => c!"$(InputPath)"

/-- A file by its parts. -/
structure FileParts where
  directory : Str
  separator : Str
  root : Str
  extension : Str

/-- The name of a file. -/
def FileParts.name (p : FileParts) : Str := p.root ++ p.extension

/-- The path of a file. -/
def FileParts.path (p : FileParts) : Str := p.directory ++ p.separator ++ p.name

/-- What a piece stands for. -/
def RulePiece.meaning (p : FileParts) : RulePiece → Str
  | .text s => s
  | .root => p.root
  | .directory => p.directory
  | .extension => p.extension
  | .name => p.name
  | .path => p.path

/-- Parts that are what they are called: the directory does not end in a separator, names have none, and the
extension is the text from the last `.` on, or nothing. -/
def FileParts.Valid (p : FileParts) : Prop :=
  ((p.directory = [] ∧ p.separator = []) ∨
    (p.directory ≠ [] ∧ (p.separator = c!"/" ∨ p.separator = c!"\\") ∧
      ∀ c, p.directory.getLast? = some c → c ≠ '/' ∧ c ≠ '\\')) ∧
  (∀ c ∈ p.root ++ p.extension, c ≠ '/' ∧ c ≠ '\\') ∧
  ((p.extension = [] ∧ '.' ∉ p.root) ∨
    (∃ e, p.extension = '.' :: e ∧ '.' ∉ e ∧ ∃ c ∈ p.root, c ≠ '.'))

/-- No part of a file has a reference to the file of a rule. -/
def FileParts.Plain (p : FileParts) : Prop :=
  NoInputRef p.directory ∧ NoInputRef p.root ∧ NoInputRef p.extension ∧ NoInputRef p.name ∧ NoInputRef p.path

/-- `f` is an input of the rule for the file `file`: one of its `inputs` for that file. -/
def RuleInput (w : WinPaths) (r : WinRule) (file f : Str) : Prop :=
  ∃ i ∈ r.inputs, f = ruleExpandPath (fixPath w i) file

/-- `f` is an output of the rule for the file `file`. -/
def RuleOutput (w : WinPaths) (r : WinRule) (file f : Str) : Prop :=
  ∃ o ∈ r.outputs, f = ruleExpandPath (fixPath w o) file

/-- `m` is what a project says about the rule `r`. -/
structure RuleMade (w : WinPaths) (cygwinDir : Str) (r : WinRule) (m : MsRule) : Prop where
  shown : m.displayName = r.name
  extension : m.extension = r.extension ∧ (∃ e, r.extension = '.' :: e) ∨
    m.extension = '.' :: r.extension ∧ ¬ ∃ e, r.extension = '.' :: e
  described : ∀ text, r.message = some text → m.description = ConvertVCMacrosToMSBuild text
  undescribed : r.message = none → m.description = ConvertVCMacrosToMSBuild m.ruleName
  inputs : (∀ i ∈ r.inputs, ';' ∉ ConvertVCMacrosToMSBuild (fixPath w i)) → r.inputs ≠ [] →
    splitOn ';' m.additionalDependencies = r.inputs.map fun i => ConvertVCMacrosToMSBuild (fixPath w i)
  outputs : (∀ o ∈ r.outputs, ';' ∉ ConvertVCMacrosToMSBuild (fixPath w o)) → r.outputs ≠ [] →
    splitOn ';' m.outputs = r.outputs.map fun o => ConvertVCMacrosToMSBuild (fixPath w o)
  command : ∃ action line, r.action = some action ∧
    buildCommandLine w cygwinDir action r.cygwin true r.quote true = some line ∧ m.command = ConvertVCMacrosToMSBuild line

/-- A rule no command can be written for. -/
def NoCommand (r : WinRule) : Prop := r.external = false ∧
  ((r.action = none ∧ r.sources ≠ []) ∨ (r.action = some [] ∧ r.cygwin = false))

/-- A piece of a path in a makefile of rules. -/
inductive MakePiece where
  | text (s : Str)
  | outDir
  | intDir

/-- How a piece is written in a build file. -/
def MakePiece.written : MakePiece → Str
  | .text s => s
  | .outDir => c!"$(OutDir)"
  | .intDir => c!"$(IntDir)"

/-- How it is written in the makefile. -/
def MakePiece.cygwin : MakePiece → Str
  | .text s => s
  | .outDir => c!"$(OutDirCygwin)"
  | .intDir => c!"$(IntDirCygwin)"

/-- The recipe of a makefile. -/
def recipe (outputs inputs words : List Str) : Str :=
  joinWith c!" " outputs ++ c!": " ++ joinWith c!" " inputs ++ c!"\n\t" ++
    joinWith c!" " (words.map fun x => c!"\"" ++ x ++ c!"\"") ++ c!"\n\n"

end Gyp.Spec
