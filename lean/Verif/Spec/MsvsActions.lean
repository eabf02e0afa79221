import Verif.Model.MsvsActions
import Verif.Spec.Msvs
import Verif.Spec.Argv
import Verif.Spec.Path
/-
How a `CustomBuild` item of a Visual Studio project is read, how `cmd` runs the command in
it, and what Windows paths mean (not part of /repo).

`cmd` runs a batch file line by line.  `%errorlevel%` is the exit code of the last command,
unless a variable `ERRORLEVEL` is set: then it is the value of that variable.  When the file
ends, its exit code is the exit code of the last command.
-/
namespace Gyp.Spec

/-! ### Batch files -/

/-- A line without the carriage return at its end. -/
def dropReturn (line : Str) : Str := if line.getLast? = some '\r' then line.dropLast else line

/-- The lines of a batch file. -/
def batchLines (text : Str) : List Str := (splitOn '\n' text).map dropReturn

/-- The line that ends the run when the command before it failed. -/
def stopLine : Str := c!"if %errorlevel% neq 0 exit /b %errorlevel%"

/-- The state of a run: the outside world, the exit code of the last command, and the value of
the variable `ERRORLEVEL` if it is set. -/
structure Batch (W : Type) where
  world : W
  level : Nat := 0
  variable_ : Option Nat := none

/-- The line sets the variable `ERRORLEVEL` to 0. -/
def setsErrorlevel (line : Str) : Prop := c!"set ERRORLEVEL=0" <:+: line

open scoped Classical in
/-- A run of a batch file: the commands that were run, and the exit code.  `exec` tells what a
command does to the world, and its exit code. -/
noncomputable def runBatch {W : Type} (exec : Str → W → W × Nat) : Batch W → List Str → List Str × Nat
  | s, [] => ([], s.level)
  | s, line :: rest =>
    if line = stopLine then
      if s.variable_.getD s.level ≠ 0 then ([], s.variable_.getD s.level) else runBatch exec s rest
    else
      let r := exec line s.world
      let after := runBatch exec
        ⟨r.1, r.2, if setsErrorlevel line then some 0 else s.variable_⟩ rest
      (line :: after.1, after.2)

/-- `UntilFailure exec w cs ran code`: when the commands `cs` are run in order up to the first
that fails, `ran` are those that are run, and `code` is the exit code. -/
inductive UntilFailure {W : Type} (exec : Str → W → W × Nat) : W → List Str → List Str → Nat → Prop where
  | finished {w} : UntilFailure exec w [] [] 0
  | failed {w c cs} : (exec c w).2 ≠ 0 → UntilFailure exec w (c :: cs) [c] (exec c w).2
  | next {w c cs ran code} : (exec c w).2 = 0 → UntilFailure exec (exec c w).1 cs ran code →
      UntilFailure exec w (c :: cs) (c :: ran) code

/-- The exit code of the last of the commands when all are run. -/
def lastCode {W : Type} (exec : Str → W → W × Nat) : W → Nat → List Str → Nat
  | _, level, [] => level
  | w, _, c :: cs => lastCode exec (exec c w).1 (exec c w).2 cs

/-! ### Items -/

/-- The entries of a list in a project. -/
def listed (text : Str) : List Str := (splitOn ';' text).filter (· ≠ [])

/-- The steps attached to a file: those of which it is the first input, in order. -/
def attachedSteps (steps : List WinStep) (file : Str) : List WinStep :=
  steps.filter fun s => s.inputs.head? = some file

/-- When targets are built for two machines, programs for the building machine have names of
their own. -/
def hostText (hosts : Bool) (text : Str) : Str :=
  if hosts then replaceStr c!".exe" c!"_host.exe" text else text

open scoped Classical in
/-- The same for an input, if it is made by the build. -/
noncomputable def hostInput (hosts : Bool) (input : Str) : Str :=
  if c!"$(OutDir)" <:+: input then hostText hosts input else input

/-- `item` is the item for the steps attached to `key`. -/
structure ItemFor (w : WinPaths) (hosts : Bool) (steps : List WinStep) (key : Str)
    (item : CustomBuild) : Prop where
  /-- It is attached to that file. -/
  file : item.file = fixPath w (hostText hosts key)
  /-- The messages are joined. -/
  message : item.message = joinWith c!", and also " ((attachedSteps steps key).map (·.description))
  /-- Its commands are the commands of the steps in order, each followed by the line that ends
  the run after a failure. -/
  commands : (∀ s ∈ attachedSteps steps key, '\n' ∉ hostText hosts s.command) →
    ∃ lines, List.Forall₂ (fun s line => MacrosConverted (c!"call " ++ hostText hosts s.command) line)
        (attachedSteps steps key) lines ∧
      batchLines item.command = lines.flatMap fun line => [line, stopLine]
  /-- Its outputs are the outputs of the steps. -/
  outputs : (∀ s ∈ attachedSteps steps key, ∀ x ∈ s.outputs, fixPath w x ≠ [] ∧ ';' ∉ fixPath w x) →
    ∀ o, o ∈ listed item.outputs ↔ ∃ s ∈ attachedSteps steps key, ∃ x ∈ s.outputs, o = fixPath w x
  /-- Its other inputs are the inputs of the steps, except the file itself. -/
  inputs : (∀ s ∈ attachedSteps steps key, ∀ x ∈ s.inputs,
      fixPath w (hostInput hosts x) ≠ [] ∧ ';' ∉ fixPath w (hostInput hosts x)) →
    ∀ i, i ∈ listed (item.additionalInputs.getD []) ↔
      i ≠ item.file ∧ ∃ s ∈ attachedSteps steps key, ∃ x ∈ s.inputs, i = fixPath w (hostInput hosts x)

/-- The inputs of an action: the file that declares it if it has none. -/
def inputsOf (gypFile : Str) (a : WinActionSpec) : List Str :=
  if a.inputs = [] then [gypFile] else a.inputs

/-- `s` is the step of action `a`; `setup` tells whether it sets up the environment of cygwin. -/
structure StepFor (w : WinPaths) (cygwinDir gypFile : Str) (setup : Bool) (a : WinActionSpec)
    (s : WinStep) : Prop where
  inputs : s.inputs = inputsOf gypFile a
  outputs : s.outputs = a.outputs
  description : s.description = a.message.getD a.name
  command : buildCommandLine w cygwinDir a.action a.cygwin false a.quote setup = some s.command

/-! ### Paths -/

/-- `place l p` is what the path `p` denotes when used in directory `l`.  The functions of
`ntpath` agree with it, paths that are absolute or begin with a macro denote the same everywhere,
and a path with no text denotes the directory itself. -/
structure PathMeaning (w : WinPaths) (place : Loc → Str → Loc) : Prop where
  here : ∀ l, place l [] = l
  /-- Normalising does not change the meaning (unless it removes a macro). -/
  norm : ∀ l p, p ≠ [] → p.count '$' = (w.norm p).count '$' → place l (w.norm p) = place l p
  join : ∀ l a b, b ≠ [] → w.isabs b = false → b.head? ≠ some '$' → isWindowsAbsPath b = false →
    place l (w.join a b) = place (place l a) b
  joinNonempty : ∀ a b, b ≠ [] → w.join a b ≠ []
  absolute : ∀ l l' p, w.isabs p = true → place l p = place l' p
  drive : ∀ l l' p, isWindowsAbsPath p = true → place l p = place l' p
  macro_ : ∀ l l' p, p.head? = some '$' → place l p = place l' p
  slash : ∀ l p, place l (replaceChar '/' ['\\'] p) = place l p
  backslash : ∀ l p, place l (replaceChar '\\' ['/'] p) = place l p
  /-- A separator at the end means nothing, unless it is the root of a drive. -/
  ending : ∀ l p c, p.getLast? = some c → c ≠ '/' → c ≠ '\\' → c ≠ ':' →
    place l (p ++ ['\\']) = place l p ∧ place l (p ++ ['/']) = place l p

/-- A path that can be given to a program between quotes. -/
def QuotedPath (p : Str) : Prop :=
  '"' ∉ p ∧ '%' ∉ p ∧ '&' ∉ p ∧ '\n' ∉ p ∧ p ≠ [] ∧
    p.getLast? ≠ some '\\' ∧ p.getLast? ≠ some '/' ∧ p.getLast? ≠ some ':'

/-- An argument that is taken for a switch rather than a path. -/
def Switch (i : Str) : Prop := i = [] ∨ i.head? = some '/' ∨ i.head? = some '-' ∨ '=' ∈ i

/-- The program named by an action. -/
def programOf (program : Str) : Str :=
  if program = c!"cat" then c!"type" else program.map fun c => if c = '/' then '\\' else c

/-- `x` is the argument `i` for a program that runs in the directory of the project. -/
def ArgumentFor (w : WinPaths) (place : Loc → Str → Loc) (project : Loc) (i x : Str) : Prop :=
  (Switch i → x = i) ∧ (¬ Switch i → place project x = place (place project w.base) i)

end Gyp.Spec
