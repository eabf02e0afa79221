import Verif.Basic
/-
How a Windows program (C runtime of 2008 and later) splits its command line; not part
of /repo. As in `Spec/Argv.lean`, with the rule for two adjacent quotes: inside a
quotation `""` is a quote and the quotation goes on.
-/
namespace Gyp.Spec

/-- `closed`: the character before was a quote that closed a quotation;
`pend`: the number of backslashes just before. -/
structure RunSt where
  inQuote : Bool
  closed : Bool
  pend : Nat
  cur : Option Str
  done : List Str
deriving DecidableEq

/-- Add text to the current argument. -/
def RunSt.put (s : RunSt) (cs : Str) : RunSt :=
  ⟨s.inQuote, false, 0, some (s.cur.getD [] ++ cs), s.done⟩

/-- The current argument with its pending backslashes. -/
def RunSt.last (s : RunSt) : List Str :=
  (s.cur.map (· ++ List.replicate s.pend '\\')).toList

def runStep (s : RunSt) (c : Char) : RunSt :=
  if c = '\\' then ⟨s.inQuote, false, s.pend + 1, some (s.cur.getD []), s.done⟩
  else if c = '"' then
    if s.closed then { s.put ['"'] with inQuote := true }
    else if s.pend % 2 = 1 then s.put (List.replicate (s.pend / 2) '\\' ++ ['"'])
    else { s.put (List.replicate (s.pend / 2) '\\') with inQuote := !s.inQuote, closed := s.inQuote }
  else if (c = ' ' ∨ c = '\t') ∧ s.inQuote = false then ⟨false, false, 0, none, s.done ++ s.last⟩
  else s.put (List.replicate s.pend '\\' ++ [c])

/-- The arguments in a text. -/
def runWords (t : Str) : List Str :=
  let s := t.foldl runStep ⟨false, false, 0, none, []⟩
  s.done ++ s.last

example : runWords c!"a \"b \"\"c\" d\\\"e \\x" = [c!"a", c!"b \"c", c!"d\"e", c!"\\x"] := by
  decide

/-- Arguments that are passed on: not empty, and without backslashes if they have a
quote, blank, tab or line end. -/
def PassedOn (a : Str) : Prop :=
  a ≠ [] ∧ ('\\' ∉ a ∨ ('"' ∉ a ∧ ' ' ∉ a ∧ '\t' ∉ a ∧ '\n' ∉ a))

/-- A variable and its value that need no quoting but that for blanks in the value. -/
def PlainVariable (e : Str × Str) : Prop :=
  ('\\' ∉ e.1 ∧ '"' ∉ e.1 ∧ ' ' ∉ e.1 ∧ '\t' ∉ e.1) ∧ '\\' ∉ e.2 ∧ '"' ∉ e.2

end Gyp.Spec
