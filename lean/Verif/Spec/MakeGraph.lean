import Verif.Model.MakeGen
import Verif.Spec.MakeRules
/-
What GNU make does with the statements of a makefile (GNU make manual, "How make Reads a
Makefile", "Types of Prerequisites", "Pattern Rules"; not part of /repo): assignments are made
from top to bottom, and the targets and prerequisites of a rule are expanded with the values
that the variables have at that place.

Rules are read from their text.  Assignments are read from the statement.  A variable that is
not assigned here (`$(obj)`, `$(builddir)`, `$(srcdir)` of the common header) stays as it is.
A variable set with `=` is expanded where it is used; no variable changes between the two in
these files, so it is expanded where it is set.
-/
namespace Gyp.Spec

/-- Names and values of variables, the newest first. -/
abbrev MakeVars := List (Str × Str)

/-- The value of a variable. -/
def refValue (vars : MakeVars) (name : Str) : Str :=
  match aget vars name with
  | some v => v
  | none => c!"$(" ++ name ++ c!")"

/-- A text with its references `$(name)` replaced; the first argument is the part of a name
that has been read. -/
def expandFrom (vars : MakeVars) : Option Str → Str → Str
  | none, [] => []
  | some name, [] => c!"$(" ++ name
  | none, '$' :: '(' :: rest => expandFrom vars (some []) rest
  | none, c :: rest => c :: expandFrom vars none rest
  | some name, c :: rest =>
    if c = ')' then refValue vars name ++ expandFrom vars none rest
    else expandFrom vars (some (name ++ [c])) rest

def expand (vars : MakeVars) (s : Str) : Str := expandFrom vars none s

/-- The variables after a statement. -/
def addVar (vars : MakeVars) : MkLine → MakeVars
  | .set name value => (name, expand vars value) :: vars
  | .setLater name value => (name, expand vars value) :: vars
  | .list name values => (name, expand vars (joinWith [' '] values)) :: vars
  | _ => vars

/-- The variables after some statements. -/
def varsAfter (vars : MakeVars) (lines : List MkLine) : MakeVars := lines.foldl addVar vars

/-- The names that a name in a rule stands for (its blanks are protected in the text). -/
def wordsOf (vars : MakeVars) (name : Str) : List Str :=
  names (expand vars (replaceChar ' ' c!"\\ " name))

/-- The names in the value of a variable. -/
def listValue (vars : MakeVars) (name : Str) : List Str := names (refValue vars name)

/-- The rules in the text of a statement. -/
def itemsOf : MkLine → List MakeItem
  | .rule a =>
    match WriteMakeRule a with
    | some lines => (readMakefile (writeLines lines)).getD []
    | none => []
  | _ => []

/-- A rule with its names expanded. -/
def expandItem (vars : MakeVars) : MakeItem → MakeItem
  | .rule ts ns os r => .rule (ts.flatMap (wordsOf vars)) (ns.flatMap (wordsOf vars))
      (os.flatMap (wordsOf vars)) r
  | .setVar ts a => .setVar (ts.flatMap (wordsOf vars)) a

/-- The rules of a makefile that is read with some variables set. -/
def rulesFrom (vars : MakeVars) : List MkLine → List MakeItem
  | [] => []
  | l :: rest => (itemsOf l).map (expandItem vars) ++ rulesFrom (addVar vars l) rest

/-- A pattern rule `before%.o: source%ext` and the name of its command. -/
structure PatternRule where
  target : Str
  source : Str
  ext : Str
  cmd : Str
deriving DecidableEq

/-- The pattern rules of a makefile. -/
def patternsFrom (vars : MakeVars) : List MkLine → List PatternRule
  | [] => []
  | .pattern t s e c :: rest =>
    ⟨expand vars t, expand vars s, e, c⟩ :: patternsFrom vars rest
  | l :: rest => patternsFrom (addVar vars l) rest

/-- Variables for single targets: target, name and value. -/
def localsFrom (vars : MakeVars) : List MkLine → List (Str × Str × Str)
  | [] => []
  | .setFor t n v :: rest =>
    (names (expand vars t)).map (fun x => (x, n, expand vars v)) ++ localsFrom vars rest
  | l :: rest => localsFrom (addVar vars l) rest

/-- A pattern rule makes `object` from `source` with the command. -/
def MadeByPattern (patterns : List PatternRule) (object source cmd : Str) : Prop :=
  ∃ p ∈ patterns, ∃ stem, object = p.target ++ stem ++ c!".o" ∧ source = p.source ++ stem ++ p.ext ∧
    cmd = p.cmd

/-- Before making `x`, make has `y` made. -/
def WaitsFor (rules : List MakeItem) (x y : Str) : Prop :=
  ∃ ts ns os r, .rule ts ns os r ∈ rules ∧ x ∈ ts ∧ (y ∈ ns ∨ y ∈ os)

/-- `x` is made again when `y` is newer. -/
def MadeFrom (rules : List MakeItem) (x y : Str) : Prop :=
  ∃ ts ns os r, .rule ts ns os r ∈ rules ∧ x ∈ ts ∧ y ∈ ns

/-- There is a rule that tells how to make `x`. -/
def HasRecipe (rules : List MakeItem) (x : Str) (recipe : List Str) : Prop :=
  ∃ ts ns os, .rule ts ns os recipe ∈ rules ∧ x ∈ ts

/-- The compilers of source files by extension. -/
inductive CompiledBy (flavor : Str) : Str → Str → Prop
  | c : CompiledBy flavor c!"c" c!"cc"
  | s : CompiledBy flavor c!"s" c!"cc"
  | S : CompiledBy flavor c!"S" c!"cc"
  | cc : CompiledBy flavor c!"cc" c!"cxx"
  | cpp : CompiledBy flavor c!"cpp" c!"cxx"
  | cxx : CompiledBy flavor c!"cxx" c!"cxx"
  | pli : flavor = c!"zos" → CompiledBy flavor c!"pli" c!"pli"

end Gyp.Spec
