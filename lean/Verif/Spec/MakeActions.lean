import Verif.Spec.MakeFlags
/-
Which commands the actions and rules of a target are to run.
-/
namespace Gyp.Spec

/-! ### Scripts -/

/-- Read a script of simple commands separated by `;`: the words of the commands read so far, and
what is being read. -/
def scriptRun (s : Lex) (cmds : List (List Str)) : Str → Option (Lex × List (List Str))
  | [] => some (s, cmds)
  | c :: rest =>
    if s.mode = .plain ∧ c = ';' then
      scriptRun ⟨.plain, none, []⟩ (cmds ++ [s.done ++ s.cur.toList]) rest
    else (lexStep false s c).bind fun s' => scriptRun s' cmds rest

/-- The arguments of the commands of a script, as a shell reads it. -/
def shellCommands (text : Str) : Option (List (List Str)) :=
  (scriptRun ⟨.plain, none, []⟩ [] text).bind fun (s, cmds) =>
    if s.mode = .plain then some (cmds ++ [s.done ++ s.cur.toList]) else none

example : shellCommands c!"cd x; mkdir -p 'a;b' c; ls \"d; e\"" =
    some [[c!"cd", c!"x"], [c!"mkdir", c!"-p", c!"a;b", c!"c"], [c!"ls", c!"d; e"]] := by decide
example : shellCommands c!"cd x | y" = none := by decide

/-! ### Variables that are expanded when they are used -/

/-- The name and the text of an assignment with `=`. -/
def laterAssignment (text : Str) : Option (Str × Str) :=
  (split1 '=' (makeLogicalLine text)).map fun (n, x) => (rstripBlanks n, x.dropWhile isBlank)

/-- The text that a statement gives a variable. -/
def laterOf (name : Str) : MkLine → Option Str
  | .setLater n x => if n = name then (laterAssignment (lineText (.setLater n x))).map (·.2) else none
  | _ => none

/-- The text of a variable, as last assigned. -/
def laterText (lines : List MkLine) (name : Str) : Option Str := (lines.filterMap (laterOf name)).getLast?

/-! ### Arguments -/

/-- Variables for the files that are compiled and linked. -/
def flagVars : List Str := [c!"GYP_CFLAGS", c!"GYP_CXXFLAGS", c!"GYP_LDFLAGS", c!"LIBS", c!"LD_INPUTS"]

/-- A variable that an action may refer to: an ordinary one whose value the shell takes as it is. -/
def ArgVar (env : Str → Str) (n : Str) : Prop :=
  (∀ c ∈ n, c ∉ ['$', '(', ')', '"', '\\', '`', '#', '\n', ' ']) ∧ n ∉ flagVars ∧ n ∉ [c!"@", c!"@F", c!"<", c!"^"] ∧
    ∀ c ∈ env n, c ∉ ['$', '"', '\\', '`']

/-- The functions that stand for parts of the name of the source of a rule. -/
def ruleFunctions : List Str := [c!"abspath ", c!"notdir ", c!"suffix "]

/-- An argument with the variables and functions in it replaced. -/
inductive ArgText (env : Str → Str) : Str → Str → Prop
  | nil : ArgText env [] []
  | char {c : Char} {s x : Str} : c ∉ ['$', '#', '\n'] → ArgText env s x → ArgText env (c :: s) (c :: x)
  | ref {n s x : Str} : ArgVar env n → ArgText env s x →
      ArgText env (c!"$(" ++ n ++ c!")" ++ s) (env n ++ x)
  | source {f s x : Str} : f ∈ ruleFunctions → (∀ c ∈ env (f ++ env c!"<"), c ∉ ['$', '"', '\\', '`']) →
      ArgText env s x → ArgText env (c!"$(" ++ f ++ c!"$<)" ++ s) (env (f ++ env c!"<") ++ x)

/-- The values of variables for the command of an action or rule: target and toolset are its own,
the directories absolute, because the command is run in the directory of the build file. -/
def commandEnv (m : MkSelf) (v0 v1 : MakeVars) (prereqs : List Str) (n : Str) : Str :=
  if n = c!"TARGET" then m.spec.targetName
  else if n = c!"TOOLSET" then m.spec.toolset
  else if n = c!"obj" then valueOf v0 c!"abs_obj"
  else if n = c!"builddir" then valueOf v0 c!"abs_builddir"
  else recipeEnv v1 [] [] prereqs n

/-- The directory that commands are run in. -/
def commandDir (m : MkSelf) (v1 : MakeVars) : Str :=
  let dir := if m.path = [] then c!"." else m.path
  if m.srcdirPrefix = [] then dir else valueOf v1 c!"srcdir" ++ c!"/" ++ dir

/-- The directories that outputs are in. -/
def MadeDirs (env : Str → Str) (outputs dirs : List Str) : Prop :=
  ∀ d, d ∈ dirs ↔ ∃ o ∈ outputs, dirname o ≠ [] ∧ ArgText env (dirname o) d

/-- What is before the commands: libraries that were built are found. -/
def librarySetup (var builddir : Str) : Str :=
  var ++ c!"=" ++ builddir ++ c!"/lib.host:" ++ builddir ++ c!"/lib.target:$" ++ var ++ c!"; export " ++ var ++ c!"; "

/-- The script runs the command in a directory, after making directories. -/
def ScriptFor (line var builddir dir : Str) (env : Str → Str) (outputs args : List Str) : Prop :=
  ∃ script dirs, line = librarySetup var builddir ++ script ∧ MadeDirs env outputs dirs ∧
    shellCommands script = some ([[c!"cd", dir]] ++
      (if dirs = [] then [] else [c!"mkdir" :: c!"-p" :: dirs]) ++ [args])

/-- What is assumed about the texts of an action: variables as above, no argument that makes the
line of the makefile go on, and plain directories. -/
structure CommandOk (m : MkSelf) (v1 : MakeVars) (env : Str → Str) (outputs action args : List Str) : Prop where
  args : List.Forall₂ (ArgText env) action args
  last : ∀ s, action.getLast? = some s → s.getLast? ≠ some '\\'
  dirs : ∀ o ∈ outputs, dirname o ≠ [] → ∃ d, ArgText env (dirname o) d ∧ PlainWord d
  dir : PlainWord (commandDir m v1)

/-- The variable for the libraries that are loaded. -/
def libraryVar (flavor : Str) : Str :=
  if flavor = c!"zos" ∨ flavor = c!"aix" then c!"LIBPATH" else c!"LD_LIBRARY_PATH"

/-- No action has the command variable of a source of a rule. -/
def NamesApart (m : MkSelf) : Prop :=
  ∀ a ∈ m.spec.actions, ∀ r ∈ m.spec.rules, ∀ k < r.sources.length,
    commandName m a.name ≠ commandName m r.name ++ c!"_" ++ natStr k

/-! ### Rules -/

/-- A template with the name of a source filled in. -/
inductive Formatted (root dir : Str) : Str → Str → Prop
  | nil : Formatted root dir [] []
  | char {c : Char} {s x : Str} : c ≠ '%' → Formatted root dir s x → Formatted root dir (c :: s) (c :: x)
  | percent {s x : Str} : Formatted root dir s x → Formatted root dir (c!"%%" ++ s) (c!"%" ++ x)
  | root {s x : Str} : Formatted root dir s x → Formatted root dir (c!"%(INPUT_ROOT)s" ++ s) (root ++ x)
  | dirname {s x : Str} : Formatted root dir s x → Formatted root dir (c!"%(INPUT_DIRNAME)s" ++ s) (dir ++ x)

/-- A text of a rule for a source: without the two placeholders it is as it is. -/
def FilledIn (source template text : Str) : Prop :=
  if c!"%(INPUT_ROOT)s" <:+: template ∨ c!"%(INPUT_DIRNAME)s" <:+: template then
    ∃ root ext, basename source = root ++ c!"." ++ ext ∧ '.' ∉ ext ∧ (∃ c ∈ root, c ≠ '.') ∧
      Formatted root (dirname source) template text
  else text = template

end Gyp.Spec
