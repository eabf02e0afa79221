import Verif.Basic
/-
`lib/util.js`: reading values of the registry from what `reg.exe` prints.
-/
namespace Gyp

/-- What ends a line for patterns of JavaScript. -/
def lineEnd (c : Char) : Bool := c = '\n' || c = '\r' || c = '\u2028' || c = '\u2029'

/-- `\s` of JavaScript. -/
def reSpace (c : Char) : Bool :=
  lineEnd c || c = '\t' || c = '\x0b' || c = '\x0c' || c = ' ' || c = '\u00a0' || c = '\ufeff' || c = '\u1680' ||
    ('\u2000' ≤ c && c ≤ '\u200a') || c = '\u202f' || c = '\u205f' || c = '\u3000'

/-- `\w` of JavaScript. -/
def reWord (c : Char) : Bool :=
  ('a' ≤ c && c ≤ 'z') || ('A' ≤ c && c ≤ 'Z') || ('0' ≤ c && c ≤ '9') || c = '_'

/-- Characters that are the same but for their case.  Simplified: only for letters of ASCII, the only
ones compared. -/
def sameButCase (a b : Char) : Bool := a.toUpper = b.toUpper

/-- `p+` before what is left of a pattern, the longest first; `some` when one was taken already. -/
def plusThen {α : Type} (p : Char → Bool) (k : Str → Option α) : Bool → Str → Option α
  | started, [] => if started then k [] else none
  | started, c :: s =>
    match (if p c then plusThen p k true s else none) with
    | some r => some r
    | none => if started then k (c :: s) else none

/-- util.js:14 the text of a value with `\W` replaced by `.`, before what is left of a pattern. -/
def valueThen {α : Type} (k : Str → Option α) : Str → Str → Option α
  | [], s => k s
  | _ :: _, [] => none
  | v :: vs, c :: s =>
    if (if reWord v then sameButCase v c else !lineEnd c) then valueThen k vs s else none

/-- `(\S.*)$`: all of the line is taken. -/
def restOfLine : Str → Option Str
  | [] => none
  | c :: s => if reSpace c then none else some (c :: s.takeWhile fun d => !lineEnd d)

/-- util.js:15 the pattern at the beginning of a line. -/
def regLine (value : Str) : Str → Option Str :=
  plusThen reSpace (valueThen (plusThen reSpace (valueThen (plusThen reWord (plusThen reSpace restOfLine false) false)
    c!"REG_") false) value) false

/-- util.js:32 `outRe.exec(stdout)`: the first place at the beginning of a line where the pattern is
found; `atStart` says whether this is one. -/
def regExec (value : Str) : Bool → Str → Option Str
  | atStart, [] => if atStart then regLine value [] else none
  | atStart, c :: s =>
    match (if atStart then regLine value (c :: s) else none) with
    | some r => some r
    | none => regExec value (lineEnd c) s

/-- What running `reg.exe` gives: whether it failed, what it printed, and whether it printed errors. -/
structure RegRun where
  failed : Bool
  stdout : Str
  stderr : Str

/-- util.js:13-40 `regGetValue`; `none` is an exception.  `run` is `reg.exe query key /v value` with the
other options. -/
def regGetValue (run : Str → Str → RegRun) (key value : Str) : Option Str :=
  let r := run key value
  if r.failed = true ∨ r.stderr.any (fun c => !reSpace c) = true then none
  else regExec value true r.stdout

/-- util.js:42-50 `regSearchKeys`; `none` is `undefined`. -/
def regSearchKeys (run : Str → Str → RegRun) (value : Str) : List Str → Option Str
  | [] => none
  | key :: keys =>
    match regGetValue run key value with
    | some v => some v
    | none => regSearchKeys run value keys

end Gyp
