import Verif.Model.Version
import Verif.Model.Load
/-
The version of the C library as it is read by packaging (gyp/pylib/packaging/_manylinux.py,
gyp/pylib/packaging/_musllinux.py). Simplified: texts are ASCII (`\d` is `[0-9]`) and lines end
with line feeds only.
-/
namespace Gyp

/-- The regular expression `([0-9]+)\.([0-9]+)` of _manylinux.py:151 and, behind `Version `,
_musllinux.py:25, matched at the start of a text. -/
def matchTwoNumbers (s : Str) : Option (Nat × Nat) :=
  let major := s.takeWhile asciiDigit
  let rest := s.dropWhile asciiDigit
  if major = [] ∨ rest.head? ≠ some '.' then none
  else
    let minor := rest.tail.takeWhile asciiDigit
    if minor = [] then none else some (digitsVal major, digitsVal minor)

/-- gyp/pylib/packaging/_manylinux.py:143-160 (_parse_glibc_version); the warning is left out. -/
def parseGlibc (s : Str) : Int × Int :=
  match matchTwoNumbers s with
  | none => (-1, -1)
  | some (a, b) => (a, b)

/-- gyp/pylib/packaging/_manylinux.py:163-167 (_get_glibc_version). -/
def getGlibc : Option Str → Int × Int
  | none => (-1, -1)
  | some s => parseGlibc s

/-- gyp/pylib/packaging/_musllinux.py:22, the lines that are not blank, stripped. -/
def muslLines (output : Str) : List Str := ((splitOn '\n' output).map pyStrip).filter (· ≠ [])

/-- gyp/pylib/packaging/_musllinux.py:25, `Version ` and two numbers. -/
def matchVersionLine (l : Str) : Option (Nat × Nat) :=
  if startsWith l c!"Version " then matchTwoNumbers (l.drop 8) else none

/-- gyp/pylib/packaging/_musllinux.py:21-29 (_parse_musl_version). -/
def parseMusl (output : Str) : Option (Nat × Nat) :=
  match muslLines output with
  | first :: second :: _ => if first.take 4 ≠ c!"musl" then none else matchVersionLine second
  | _ => none

end Gyp
