import Verif.Spec.MakeNames
import Verif.Spec.Make
import Verif.Spec.Shell
import Verif.Model.Path
/-
Which command lines GNU make gets from the variables of a makefile (GNU make manual, "Basics of
Variable References", "Computed Variable Names", "Target-specific Variable Values", "Automatic
Variables"; not part of /repo).

The values of assignments are read from the text of the statement, through line continuations,
comments and references.  A variable that is not set is empty.  A variable set with `=` is
expanded where it is set, as in `Spec.addVar`.  A variable for a target is also seen by what the
target waits for, unless it has its own; the claims are about targets that have their own.
-/
namespace Gyp.Spec

/-- The value of a variable. -/
def valueOf (v : MakeVars) (name : Str) : Str := (aget v name).getD []

/-- While expanding: whether a dollar was read, and the texts being built, the name of the
innermost open reference first, the result last. -/
structure RefSt where
  dollar : Bool
  stack : List Str

/-- Read one character: `$$` is a dollar, `$(name)` a reference whose name may contain references,
`$c` a reference to a variable with a name of one character. -/
def refStep (env : Str → Str) (st : RefSt) (c : Char) : Option RefSt :=
  match st.stack with
  | [] => none
  | cur :: outer =>
    if st.dollar then
      if c = '$' then some ⟨false, (cur ++ ['$']) :: outer⟩
      else if c = '(' then some ⟨false, [] :: cur :: outer⟩
      else some ⟨false, (cur ++ env [c]) :: outer⟩
    else if c = '$' then some ⟨true, cur :: outer⟩
    else
      match outer with
      | [] => some ⟨false, [cur ++ [c]]⟩
      | o :: os =>
        if c = ')' then some ⟨false, (o ++ env cur) :: os⟩
        else if c = '(' then none
        else some ⟨false, (cur ++ [c]) :: o :: os⟩

def refRun (env : Str → Str) (st : RefSt) : Str → Option RefSt
  | [] => some st
  | c :: rest => (refStep env st c).bind fun st' => refRun env st' rest

/-- A text with its references replaced. -/
def deep (env : Str → Str) (s : Str) : Option Str :=
  (refRun env ⟨false, [[]]⟩ s).bind fun st =>
    match st.dollar, st.stack with
    | false, [x] => some x
    | _, _ => none

/-- The text with the variables replaced. -/
def real (v : MakeVars) (s : Str) : Str := (deep (valueOf v) s).getD []

/-- The text of a statement. -/
def lineText (l : MkLine) : Str := writeLines ((render l).getD [])

/-- The value that the text of an assignment with `:=` gives. -/
def textValue (v : MakeVars) (text : Str) : Str :=
  match split1 ':' (makeLogicalLine text) with
  | some (_, '=' :: x) => real v (x.dropWhile isBlank)
  | _ => []

/-- The variables after a statement. -/
def putVar (v : MakeVars) : MkLine → MakeVars
  | .set name x => (name, textValue v (lineText (.set name x))) :: v
  | .list name xs => (name, textValue v (lineText (.list name xs))) :: v
  | .setLater name x => (name, real v x) :: v
  | _ => v

/-- The variables after some statements. -/
def valuesAfter (v : MakeVars) (lines : List MkLine) : MakeVars := lines.foldl putVar v

/-- Variables for single targets that are set in the text of a rule: the only one is `TOOLSET`. -/
def ruleLocals (v : MakeVars) : MakeItem → List (Str × Str × Str)
  | .setVar ts text =>
    if text = c!" TOOLSET := $(TOOLSET)" then
      (ts.flatMap fun t => names (real v (replaceChar ' ' c!"\\ " t))).map fun y =>
        (y, c!"TOOLSET", valueOf v c!"TOOLSET")
    else []
  | .rule .. => []

/-- Variables for single targets: target, name and value. -/
def localValues (v : MakeVars) : List MkLine → List (Str × Str × Str)
  | [] => []
  | .setFor t n x :: rest =>
    (names (real v t)).map (fun y => (y, n, real v x)) ++ localValues v rest
  | .rule a :: rest => (itemsOf (.rule a)).flatMap (ruleLocals v) ++ localValues v rest
  | l :: rest => localValues (putVar v l) rest

/-- The value of a variable for a target: the last one given. -/
def localValue (ls : List (Str × Str × Str)) (target name : Str) : Option Str :=
  ((ls.filter fun e => e.1 = target ∧ e.2.1 = name).getLast?).map (·.2.2)

/-- `$(filter-out FORCE_DO_CMD, list)`. -/
def withoutForce (list : Str) : Str := joinWith [' '] ((names list).filter (· ≠ c!"FORCE_DO_CMD"))

/-- The extension of a name: from the last dot on, if it is in the last part. -/
def makeSuffix (s : Str) : Str :=
  match rsplit1 '.' (basename s) with
  | some (_, ext) => '.' :: ext
  | none => []

/-- The functions that commands use, with a single name as argument, except for the first one. -/
def functionValue (v : MakeVars) (call : Str) : Option Str :=
  if startsWith call c!"filter-out FORCE_DO_CMD, " then some (withoutForce (call.drop 25))
  else if startsWith call c!"notdir " then some (basename (call.drop 7))
  else if startsWith call c!"suffix " then some (makeSuffix (call.drop 7))
  else if startsWith call c!"abspath " then
    some (normpath (pathJoin (valueOf v c!"CURDIR") (call.drop 8)))
  else none

/-- What a reference in a recipe stands for: `$@`, its last part `$(@F)`, `$<` and `$^`,
functions, variables for the target, and other variables. -/
def recipeEnv (v : MakeVars) (ls : List (Str × Str × Str)) (target : Str) (prereqs : List Str)
    (name : Str) : Str :=
  if name = c!"@" then target
  else if name = c!"@F" then basename target
  else if name = c!"<" then prereqs.headD []
  else if name = c!"^" then joinWith [' '] prereqs
  else (functionValue v name).getD ((localValue ls target name).getD (valueOf v name))

/-- The command line for the text of a command. -/
def commandLine (v : MakeVars) (ls : List (Str × Str × Str)) (target : Str) (prereqs : List Str)
    (cmd : Str) : Option Str := deep (recipeEnv v ls target prereqs) cmd

/-- An entry of a list that make reads as it is written. -/
def ListItem (s : Str) : Prop :=
  '\n' ∉ s ∧ '#' ∉ s ∧ (∃ c, s.head? = some c ∧ isBlank c = false) ∧
    ∃ c, s.getLast? = some c ∧ c ≠ '\\' ∧ isBlank c = false

/-- A word that neither make nor the shell takes apart. -/
def PlainWord (s : Str) : Prop :=
  s ≠ [] ∧ ∀ c ∈ s, activePlain c = false ∧ c ∉ [' ', '\t', '\\', '\'', '"']

example : real [(c!"A_x", c!"1 2"), (c!"T", c!"x")] c!"-$(A_$(T)) $$T" = c!"-1 2 $T" := by decide
example : commandLine [(c!"F", c!"-g")] [(c!"o", c!"F", c!"-O"), (c!"p", c!"F", c!"-x")] c!"o"
    [c!"a", c!"FORCE_DO_CMD", c!"b"] c!"cc $(F) -o $@ $< $(filter-out FORCE_DO_CMD, $^)" =
    some c!"cc -O -o o a a b" := by decide

end Gyp.Spec
