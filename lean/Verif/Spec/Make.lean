import Verif.Basic
/-
How GNU make reads a simply expanded variable assignment (GNU make manual,
"Splitting Long Lines", "What Makefiles Contain", "Basics of Variable
References"; not part of /repo).

* A backslash-newline, with the blanks around it, becomes a single blank; `2n`
  backslashes before a newline do not continue the line.
* `#` starts a comment unless preceded by an odd number of backslashes; `2n` or
  `2n+1` backslashes before `#` stand for `n`.
* In the value, `$$` is a dollar and any other `$` is an expansion.
-/
namespace Gyp.Spec

inductive MMode
  | text | cont | comment | done
deriving DecidableEq

structure MakeSt where
  mode : MMode
  pend : Nat          -- backslashes read but not yet interpreted
  out : Str
deriving DecidableEq

def isBlank (c : Char) : Bool := c = ' ' || c = '\t'

/-- Remove trailing blanks. -/
def rstripBlanks (s : Str) : Str := (s.reverse.dropWhile isBlank).reverse

def makeText (s : MakeSt) (c : Char) : MakeSt :=
  if c = '\\' then { s with mode := .text, pend := s.pend + 1 }
  else if c = '#' then
    let out := s.out ++ List.replicate (s.pend / 2) '\\'
    if s.pend % 2 = 1 then ⟨.text, 0, out ++ ['#']⟩ else ⟨.comment, 0, out⟩
  else if c = '\n' then
    if s.pend % 2 = 1 then
      ⟨.cont, 0, rstripBlanks (s.out ++ List.replicate (s.pend / 2) '\\')⟩
    else ⟨.done, 0, s.out ++ List.replicate s.pend '\\'⟩
  else ⟨.text, 0, s.out ++ List.replicate s.pend '\\' ++ [c]⟩

def makeStep (s : MakeSt) (c : Char) : MakeSt :=
  match s.mode with
  | .text => makeText s c
  | .cont => if isBlank c then s else makeText { s with out := s.out ++ [' '] } c
  | .comment =>
    if c = '\\' then { s with pend := s.pend + 1 }
    else if c = '\n' ∧ s.pend % 2 = 0 then { s with mode := .done }
    else { s with pend := 0 }
  | .done => s

/-- The logical line: continuations joined, comment removed. -/
def makeLogicalLine (t : Str) : Str := (t.foldl makeStep ⟨.text, 0, []⟩).out

/-- Expansion of a text without variable references. -/
def makeExpand : Str → Option Str
  | [] => some []
  | '$' :: '$' :: t => (makeExpand t).map ('$' :: ·)
  | '$' :: _ => none
  | c :: t => (makeExpand t).map (c :: ·)

/-- Read `NAME := VALUE`: the name and the expanded value. -/
def makeAssignment (t : Str) : Option (Str × Str) :=
  match split1 ':' (makeLogicalLine t) with
  | some (name, '=' :: value) =>
    (makeExpand (value.dropWhile isBlank)).map fun v => (rstripBlanks name, v)
  | _ => none

example : makeAssignment c!"X := \\\n\ta$$b \\\n\tc\\#d # e\n\nY" = some (c!"X", c!"a$b c#d ") := by
  decide

end Gyp.Spec
