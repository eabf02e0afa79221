import Verif.Basic
/-
The bytes denoted by the inside of a C string literal (C11 6.4.4.4, 6.4.5; not
part of /repo).  Octal escapes take one to three digits.  Trigraphs and the
other alphabetic escapes are not read.
-/
namespace Gyp.Spec

inductive CMode
  | normal
  | esc
  | oct (k v : Nat)
deriving DecidableEq

def octDigit (c : Char) : Option Nat :=
  if '0' ≤ c ∧ c ≤ '7' then some (c.toNat - '0'.toNat) else none

/-- An ordinary character: a quote would end the literal, a newline is an error. -/
def cPlain (out : List Nat) (c : Char) : Option (CMode × List Nat) :=
  if c = '"' ∨ c = '\n' then none
  else if c = '\\' then some (.esc, out)
  else if c.toNat < 128 then some (.normal, out ++ [c.toNat])
  else none

def cStep (s : CMode × List Nat) (c : Char) : Option (CMode × List Nat) :=
  match s with
  | (.normal, out) => cPlain out c
  | (.esc, out) =>
    match octDigit c with
    | some d => some (.oct 1 d, out)
    | none => if c = '"' ∨ c = '\\' then some (.normal, out ++ [c.toNat]) else none
  | (.oct k v, out) =>
    match octDigit c with
    | some d =>
      if k < 3 then some (.oct (k + 1) (8 * v + d), out)
      else cPlain (out ++ [v]) c
    | none => cPlain (out ++ [v]) c

def cRun (s : CMode × List Nat) : Str → Option (CMode × List Nat)
  | [] => some s
  | c :: t => (cStep s c).bind fun s' => cRun s' t

/-- The bytes of the literal whose inside is `t`; `none` when `t` does not stay
inside one literal, or an escape is out of range. -/
def cLiteral (t : Str) : Option (List Nat) :=
  (cRun (.normal, []) t).bind fun
    | (.normal, out) => some out
    | (.esc, _) => none
    | (.oct _ v, out) => some (out ++ [v])

example : cLiteral c!"a\\0421\\7" = some [97, 34, 49, 7] := by decide
example : cLiteral c!"a\"b" = none := by decide

end Gyp.Spec
