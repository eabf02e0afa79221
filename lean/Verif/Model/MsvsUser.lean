import Verif.Basic
import Verif.Model.Path
/-
The user file of a Visual Studio project: how to start the target in the debugger
(gyp/pylib/gyp/MSVSUserFile.py, gyp/pylib/gyp/generator/msvs.py).
-/
namespace Gyp

/-- gyp/pylib/gyp/MSVSUserFile.py:50, the regular expression `[ \t\n]`. -/
def hasBlank (arg : Str) : Bool := arg.any fun c => c = ' ' || c = '\t' || c = '\n'

/-- gyp/pylib/gyp/MSVSUserFile.py:39-53 (_QuoteWin32CommandLineArgs), one argument. -/
def quoteUserArg (arg : Str) : Str :=
  if '"' ∈ arg then c!"\"" ++ joinWith c!"\"\"" (splitOn '"' arg) ++ c!"\""
  else if hasBlank arg then c!"\"" ++ arg ++ c!"\""
  else arg

/-- gyp/pylib/gyp/MSVSUserFile.py:28-36 (_FindCommandInPath), the search: the first
existing file that may be run. `canRun` stands for `os.path.isfile` and `os.access`. -/
def searchPath (canRun : Str → Bool) (command : Str) : List Str → Str
  | [] => command
  | d :: ds => if canRun (pathJoin d command) then pathJoin d command else searchPath canRun command ds

/-- gyp/pylib/gyp/MSVSUserFile.py:17-36 (_FindCommandInPath). `dirs` is PATH, split. -/
def findCommand (canRun : Str → Bool) (dirs : List Str) (command : Str) : Str :=
  if '/' ∈ command ∨ '\\' ∈ command then command else searchPath canRun command dirs

/-- gyp/pylib/gyp/MSVSUserFile.py:95-99, `key="val"` separated by blanks. -/
def userEnvironment (env : List (Str × Str)) : Str :=
  joinWith c!" " (env.map fun e => e.1 ++ c!"=\"" ++ e.2 ++ c!"\"")

/-- The settings that depend on the project, gyp/pylib/gyp/MSVSUserFile.py:101-109
(the host name and the constant settings are left out). -/
structure UserDebug where
  command : Str
  workingDirectory : Str
  arguments : Str
  environment : Str
deriving DecidableEq

/-- gyp/pylib/gyp/MSVSUserFile.py:80-130 (Writer.AddDebugSettings). `none`: IndexError at
`command[0]` if the action is empty. -/
def debugSettings (canRun : Str → Bool) (dirs : List Str) (action : List Str)
    (env : List (Str × Str)) (wd : Str) : Option UserDebug :=
  match action.map quoteUserArg with
  | [] => none
  | c :: args => some ⟨findCommand canRun dirs c, wd, joinWith c!" " args, userEnvironment env⟩

/-- What a target says about running it: `run_as` and `test`. -/
structure RunAs where
  action : List Str
  environment : List (Str × Str)
  workingDirectory : Option Str

/-- gyp/pylib/gyp/generator/msvs.py:1733-1746 (_WriteMSVSUserFile), the choice: `none` if
no user file is written. -/
def userRun (runAs : Option RunAs) (test : Bool) : Option (List Str × List (Str × Str) × Str) :=
  match runAs with
  | some r => some (r.action, r.environment, r.workingDirectory.getD c!".")
  | none => if test then some ([c!"$(TargetPath)", c!"--gtest_print_time"], [], c!".") else none

end Gyp
