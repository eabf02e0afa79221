import Verif.Basic
/-
How a Windows program splits its command line (CommandLineToArgvW / the C
runtime rules for arguments after the program name; not part of /repo).

`2n` backslashes and a quote: `n` backslashes, the quote opens or closes;
`2n+1` backslashes and a quote: `n` backslashes and a literal quote; backslashes
not followed by a quote are literal.  (The rule for two adjacent quotes inside a
quotation is not needed: the code never writes them.)
-/
namespace Gyp.Spec

structure ArgvSt where
  inQuote : Bool
  pend : Nat
  cur : Option Str
  done : List Str
deriving DecidableEq

def ArgvSt.push (s : ArgvSt) (cs : Str) : ArgvSt :=
  { s with pend := 0, cur := some (s.cur.getD [] ++ cs) }

def argvStep (s : ArgvSt) (c : Char) : ArgvSt :=
  if c = '\\' then { s with pend := s.pend + 1, cur := some (s.cur.getD []) }
  else if c = '"' then
    let bs := List.replicate (s.pend / 2) '\\'
    if s.pend % 2 = 1 then s.push (bs ++ ['"'])
    else { s.push bs with inQuote := !s.inQuote }
  else if (c = ' ' ∨ c = '\t') ∧ s.inQuote = false then
    ⟨false, 0, none, s.done ++ (s.cur.map (· ++ List.replicate s.pend '\\')).toList⟩
  else s.push (List.replicate s.pend '\\' ++ [c])

/-- The arguments in a text. -/
def argvWords (t : Str) : List Str :=
  let s := t.foldl argvStep ⟨false, 0, none, []⟩
  s.done ++ (s.cur.map (· ++ List.replicate s.pend '\\')).toList

/-- A batch file turns `%%` into `%`; any other `%` is an expansion. -/
def batchPercent : Str → Option Str
  | [] => some []
  | '%' :: '%' :: t => (batchPercent t).map ('%' :: ·)
  | '%' :: _ => none
  | c :: t => (batchPercent t).map (c :: ·)

example : argvWords c!"a \"b c\\\\\" d\\\"e \\x" = [c!"a", c!"b c\\", c!"d\"e", c!"\\x"] := by
  decide

end Gyp.Spec
