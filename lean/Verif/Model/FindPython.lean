import Verif.Model.Release
import Verif.Model.Shasums
/-
`lib/find-python.js`: the search for a Python interpreter.

Simplifications.
* Running a program is a parameter: what it prints, or an exception
  (`execFile` of lib/util.js rejects).  A program that runs but reports an error
  is one that printed something: `run` ignores the error (lines 265-269).
  The outcome does not change while the search runs.
* `semver` is a parameter (the version parser); the range is `>=3.6.0`.
* An environment variable that is not set is the empty string (the code only
  tests for truthiness).
* The messages are dropped, the programs run are recorded.
-/
namespace Gyp

/-- A program run by the search. -/
structure PyCall where
  exec : Str
  args : List Str
  shell : Bool
  deriving DecidableEq, Repr

/-- What the search depends on. -/
structure PyEnv where
  win : Bool
  /-- NODE_GYP_FORCE_PYTHON -/
  force : Str
  /-- `--python` or the npm configuration -/
  config : Str
  /-- the environment variable PYTHON -/
  python : Str
  pyLauncher : Str
  winDefaultLocations : List Str
  /-- what a program prints, `none` if it cannot be run -/
  run : PyCall → Option Str
  parse : Str → Option Semver

/-- find-python.js:44 -/
def argsExecutable : List Str :=
  [c!"-c", c!"import sys; sys.stdout.buffer.write(sys.executable.encode('utf-8'));"]
/-- find-python.js:45 -/
def argsVersion : List Str :=
  [c!"-c", c!"import sys; print(\"%s.%s.%s\" % sys.version_info[:3]);"]

/-- find-python.js:256-274 `run`: the trimmed output. -/
def pyRun (E : PyEnv) (exec : Str) (args : List Str) (shell : Bool) : Option Str × List PyCall :=
  ((E.run ⟨exec, args, shell⟩).map jsTrim, [⟨exec, args, shell⟩])

/-- find-python.js:46, 233-236 `new semver.Range('>=3.6.0').test(version)`; a text
that is no version is not in the range (`Range.test` catches the error). -/
def pyInRange (E : PyEnv) (version : Str) : Bool :=
  match E.parse version with
  | none => false
  | some v => v.pre = [] && v.geMain 3 6 0

/-- find-python.js:221-253 `checkExecPath` -/
def checkExecPath (E : PyEnv) (execPath : Str) : Option Str × List PyCall :=
  match pyRun E execPath argsVersion false with
  | (none, l) => (none, l)
  | (some version, l) => if pyInRange E version then (some execPath, l) else (none, l)

/-- `"${s}"` -/
def dquote (s : Str) : Str := c!"\"" ++ s ++ c!"\""

/-- find-python.js:170-194 `checkCommand` -/
def checkCommand (E : PyEnv) (command : Str) : Option Str × List PyCall :=
  let exec := if E.win then dquote command else command
  let args := if E.win then argsExecutable.map dquote else argsExecutable
  let shell := E.win
  match pyRun E exec args shell with
  | (none, l) => (none, l)
  | (some execPath, l) =>
    let (r, l') := checkExecPath E execPath
    (r, l ++ l')

/-- find-python.js:206-217 `checkPyLauncher` -/
def checkPyLauncher (E : PyEnv) : Option Str × List PyCall :=
  match pyRun E E.pyLauncher (c!"-3" :: argsExecutable) false with
  | (none, l) => (none, l)
  | (some execPath, l) =>
    let (r, l') := checkExecPath E execPath
    (r, l ++ l')

/-- One element of `toCheck`: whether `before` says SKIP, and `check`. -/
structure PyCheck where
  skip : Bool
  check : Option Str × List PyCall

/-- find-python.js:72-147 `toCheck` -/
def toCheck (E : PyEnv) : List PyCheck :=
  if E.force ≠ [] then [⟨false, checkCommand E E.force⟩]
  else
    [⟨E.config = [], checkCommand E E.config⟩, ⟨E.python = [], checkCommand E E.python⟩] ++
    (if E.win then [⟨false, checkPyLauncher E⟩] else []) ++
    [⟨false, checkCommand E c!"python3"⟩, ⟨false, checkCommand E c!"python"⟩] ++
    (if E.win then E.winDefaultLocations.map fun l => ⟨false, checkExecPath E l⟩ else [])

/-- find-python.js:149-164 the loop (no `before` returns FAIL); `none` is the
error of `fail`. -/
def runChecks : List PyCheck → Option Str × List PyCall
  | [] => (none, [])
  | c :: cs =>
    if c.skip then runChecks cs
    else
      match c.check with
      | (some p, l) => (some p, l)
      | (none, l) => let (r, l') := runChecks cs; (r, l ++ l')

/-- find-python.js:69-165 `findPython` -/
def findPython (E : PyEnv) : Option Str × List PyCall := runChecks (toCheck E)

end Gyp
