import Verif.Basic
import Verif.Spec.Make
/-
What GNU make knows of a variable, how the lines that set variables change it, and which command a
reference to a variable stands for.  Nothing here mentions the generator.
-/
namespace Gyp.Spec

/-- Where the value of a variable is from (`$(origin NAME)`). -/
inductive Origin where
  | default
  | environment
  | file
  | commandLine
  deriving DecidableEq

/-- The variables of a run of make. -/
abbrev ToolVars := Str → Option (Str × Origin)

/-- The variables when make starts: those of its command line, then those of its environment, then
the built-in ones. -/
def varsAtStart (builtin env cmd : Str → Option Str) : ToolVars := fun k =>
  match cmd k with
  | some v => some (v, .commandLine)
  | none =>
    match env k with
    | some v => some (v, .environment)
    | none => (builtin k).map fun v => (v, .default)

/-- A character of a plain variable name. -/
def varNameChar (c : Char) : Bool := c.isAlphanum || c = '.' || c = '_' || c = '-'

/-- A plain variable name. -/
def IsName (k : Str) : Prop := k ≠ [] ∧ ∀ c ∈ k, varNameChar c = true

instance (k : Str) : Decidable (IsName k) := by unfold IsName; infer_instance

/-- The lines that are about variables. -/
inductive VarLine where
  | nothing
  /-- `NAME ?= VALUE` -/
  | unlessDefined (k v : Str)
  /-- `NAME = VALUE` -/
  | assign (k v : Str)
  /-- `ifneq (,$(filter $(origin NAME), undefined default))` -/
  | ifNotGiven (k : Str)
  | endif
  deriving DecidableEq

/-- The name in `ifneq (,$(filter $(origin NAME), undefined default))`. -/
def originCondition (t : Str) : Option Str :=
  let a := c!"ifneq (,$(filter $(origin "
  let b := c!"), undefined default))"
  if a <+: t ∧ b <:+ t then some ((t.drop a.length).take (t.length - a.length - b.length)) else none

/-- How make reads a line: the blanks before it do not count, an assignment is recognised before
anything else.  `none`: a line this reader does not understand (a comment after something, a
continuation, anything that is not about variables). -/
def readVarLine (l : Str) : Option VarLine :=
  let t := l.dropWhile isBlank
  if t = [] ∨ t.head? = some '#' then some .nothing
  else if '#' ∈ t ∨ t.getLast? = some '\\' then none
  else
    match split1 '=' t with
    | some (n, v) =>
      let (conditional, n) := if n.getLast? = some '?' then (true, n.dropLast) else (false, n)
      let n := rstripBlanks n
      if IsName n then
        some (if conditional then .unlessDefined n (v.dropWhile isBlank)
              else .assign n (v.dropWhile isBlank))
      else none
    | none => if t = c!"endif" then some .endif else (originCondition t).map .ifNotGiven

/-- Was the variable given on the command line, in the environment or in the makefile? -/
def varGiven (st : ToolVars) (k : Str) : Bool :=
  match st k with
  | none => false
  | some (_, o) => o ≠ .default

def setToolVar (st : ToolVars) (k v : Str) : ToolVars := fun n =>
  if n = k then some (v, .file) else st n

/-- What the lines do; the flag says that the lines are skipped, up to the `endif`.  (Conditionals
inside each other are not treated.) -/
def runVarLines : ToolVars → Bool → List VarLine → ToolVars
  | st, _, [] => st
  | st, skip, .nothing :: r => runVarLines st skip r
  | st, _, .ifNotGiven k :: r => runVarLines st (varGiven st k) r
  | st, _, .endif :: r => runVarLines st false r
  | st, skip, .unlessDefined k v :: r =>
    if skip ∨ st k ≠ none then runVarLines st skip r else runVarLines (setToolVar st k v) skip r
  | st, skip, .assign k v :: r =>
    if skip ∨ (st k).map (·.2) = some .commandLine then runVarLines st skip r
    else runVarLines (setToolVar st k v) skip r

/-- The variables after a text is read. -/
def toolVarsAfter (st : ToolVars) (text : Str) : Option ToolVars :=
  ((splitOn '\n' text).mapM readVarLine).map (runVarLines st false)

/-- The value of a variable; that of a variable that is not defined is empty. -/
def toolValue (st : ToolVars) (k : Str) : Str := ((st k).map (·.1)).getD []

/-- The name if a text is nothing but a reference `$(NAME)`. -/
def reference (t : Str) : Option Str :=
  let m := (t.drop 2).dropLast
  if t = c!"$(" ++ m ++ c!")" ∧ IsName m then some m else none

/-- What a text stands for, after the references that are the whole text are followed. -/
inductive CommandFor (st : ToolVars) : Str → Str → Prop where
  | itself (t : Str) : reference t = none → CommandFor st t t
  | referred (t m r : Str) : reference t = some m → CommandFor st (toolValue st m) r →
      CommandFor st t r

/-- The first that there is, else the default. -/
def firstGiven : List (Option Str) → Str → Str
  | [], d => d
  | some t :: _, _ => t
  | none :: r, d => firstGiven r d

/-- A path or command that the makefile is to use: commands that begin with `$` as they are, the
absoluteCommand path for all others. -/
def absoluteCommand (v : Str) : Str := if v.head? = some '$' then v else c!"$(abspath " ++ v ++ c!")"

/-- What `make_global_settings` give for a name: the first entry for it, after the last wrapper for
it (`NAME_wrapper`), if there is one. -/
def settingOf (settings : List (Str × Str)) (k : Str) : Option Str :=
  (settings.find? fun x => x.1 = k).map fun x =>
    match settings.reverse.find? fun y => y.1 = k ++ c!"_wrapper" with
    | some w => c!"$(abspath " ++ w.2 ++ c!") " ++ absoluteCommand x.2
    | none => absoluteCommand x.2

/-- A text that can stand in a line of a makefile. -/
def FitsLine (v : Str) : Prop := '\n' ∉ v ∧ '#' ∉ v ∧ v.getLast? ≠ some '\\'

instance (v : Str) : Decidable (FitsLine v) := by unfold FitsLine; infer_instance

/-- An entry for a wrapper. -/
def WrapperKey (k : Str) : Prop := c!"_wrapper" <:+: k

instance (k : Str) : Decidable (WrapperKey k) := by unfold WrapperKey; infer_instance

/-- The names of the environment that gyp looks at. -/
def lookedAt : List Str :=
  [c!"CC", c!"CC_target", c!"CC_host", c!"CXX", c!"CXX_target", c!"CXX_host",
   c!"LINK", c!"LINK_target", c!"LINK_host", c!"AR", c!"AR_target", c!"AR_host",
   c!"PLI", c!"PLI_target", c!"PLI_host"]

/-- Ordinary inputs: the environment's values and the settings can stand in a makefile, the names of
the settings are names, and no setting is empty. -/
structure Ordinary (conf : Str → Option Str) (settings : List (Str × Str)) : Prop where
  conf : ∀ k ∈ lookedAt, ∀ v, conf k = some v → FitsLine v ∧ ∀ c, v.head? = some c → isBlank c = false
  key : ∀ x ∈ settings, IsName x.1
  value : ∀ x ∈ settings, FitsLine x.2
  some : ∀ x ∈ settings, ¬ WrapperKey x.1 → x.2 ≠ []

/-- The compilers of z/OS: the C compiler, and the C++ compiler that goes with it. -/
def zosCompilers (cc : Str) : Str × Str :=
  ([(c!"clang", c!"clang++"), (c!"ibm-clang64", c!"ibm-clang++64"),
    (c!"ibm-clang", c!"ibm-clang++")].find? fun x => x.1 = cc).getD (c!"njsc", c!"njsc++")

/-- make has no built-in variables of these names. -/
def NoBuiltin (builtin : Str → Option Str) : Prop :=
  ∀ k ∈ [c!"CC.target", c!"CXX.target", c!"LINK.target", c!"AR.target", c!"PLI.target",
         c!"CFLAGS.target", c!"CXXFLAGS.target", c!"LDFLAGS.target",
         c!"CC.host", c!"CXX.host", c!"LINK.host", c!"AR.host", c!"PLI.host",
         c!"CFLAGS.host", c!"CXXFLAGS.host", c!"LDFLAGS.host", c!"LINK"],
    builtin k = none

end Gyp.Spec
