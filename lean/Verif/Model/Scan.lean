import Verif.Basic
/-
Scanning of strings: `gyp/pylib/gyp/input.py` `FindEnclosingBracketGroup`,
`IsStrCanonicalInt`.
-/
namespace Gyp

/-- input.py:670 `LBRACKETS`. -/
def isLBracket (c : Char) : Bool := c = '{' ∨ c = '[' ∨ c = '('

/-- input.py:671 `BRACKETS`: the opening bracket of a closing one. -/
def openerOf (c : Char) : Option Char :=
  if c = '}' then some '{' else if c = ']' then some '[' else if c = ')' then some '(' else none

/-- input.py:677-689 the loop.  The stack has its top first; `start` is `none` for `-1`;
the result is `none` for `(-1, -1)`. -/
def bracketLoop : List Char → Option Nat → Nat → Str → Option (Nat × Nat)
  | _, _, _, [] => none
  | stack, start, index, c :: rest =>
    if isLBracket c then
      bracketLoop (c :: stack) (if start = none then some index else start) (index + 1) rest
    else match openerOf c with
      | none => bracketLoop stack start (index + 1) rest
      | some o =>
        match stack with
        | [] => none
        | top :: stack =>
          if top ≠ o then none
          else if stack = [] then start.map fun s => (s, index + 1)
          else bracketLoop stack start (index + 1) rest

/-- input.py:674-689 `FindEnclosingBracketGroup(input_str)`; `none` is `(-1, -1)`. -/
def FindEnclosingBracketGroup (s : Str) : Option (Nat × Nat) := bracketLoop [] none 0 s

/-- An ASCII digit. -/
def asciiDigit (c : Char) : Bool := '0' ≤ c && c ≤ '9'

/-- input.py:692-711 `IsStrCanonicalInt(string)` for a `str`; `digit` is Python's
`str.isdigit` on one character (the string form holds for a non-empty string of digits). -/
def IsStrCanonicalInt (digit : Char → Bool) (s : Str) : Bool :=
  if s = [] then false
  else if s = ['0'] then true
  else
    let s' := if s.head? = some '-' then s.tail else s
    match s' with
    | [] => false
    | c :: _ => if '1' ≤ c ∧ c ≤ '9' then s'.all digit else false

/-- `str(i)` of an integer. -/
def intStr (i : Int) : Str :=
  match i with
  | .ofNat n => Nat.toDigits 10 n
  | .negSucc n => '-' :: Nat.toDigits 10 (n + 1)

/-- The value of a string of ASCII digits. -/
def digitsVal (s : Str) : Nat := s.foldl (fun n c => 10 * n + (c.toNat - '0'.toNat)) 0

/-- `int(s)` for a string in the form `IsStrCanonicalInt` looks for, with ASCII digits. -/
def pyInt (s : Str) : Int :=
  if s.head? = some '-' then - (digitsVal s.tail : Int) else digitsVal s

end Gyp
