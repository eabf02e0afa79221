import Verif.Model.Build
import Verif.Spec.Json
import Verif.Spec.Install
/-
How the tools that compile read their command line.
-/
namespace Gyp.Spec

/-- What `make` is asked to do. -/
structure MakeCall where
  /-- directories to change to, in order -/
  dirs : List Str := []
  /-- assignments -/
  vars : List (Str × Str) := []
  /-- numbers of jobs -/
  jobs : List Nat := []
  /-- goals -/
  goals : List Str := []

/-- A word of the command line of `make` that is no option (GNU make manual, 9.7): an assignment
or a goal. -/
def makeWord (w : Str) (m : MakeCall) : Option MakeCall :=
  if w.head? = some '-' then none
  else match split1 '=' w with
    | some (k, v) => some { m with vars := (k, v) :: m.vars }
    | none => some { m with goals := w :: m.goals }

/-- The command line of GNU `make`, as far as it consists of `-C dir`, `--jobs N`, assignments and goals. -/
def readMake : List Str → Option MakeCall
  | [] => some {}
  | [w] => makeWord w {}
  | w :: d :: r =>
    if w = c!"-C" then (readMake r).map fun m => { m with dirs := d :: m.dirs }
    else if w = c!"--jobs" then
      if d ≠ [] ∧ ∀ c ∈ d, '0' ≤ c ∧ c ≤ '9' then (readMake r).map fun m => { m with jobs := decValue d :: m.jobs }
      else none
    else (readMake (d :: r)).bind (makeWord w)

/-- What MSBuild is asked to do. -/
structure MsCall where
  projects : List Str := []
  targets : List Str := []
  props : List (Str × Str) := []
  jobs : List Nat := []

/-- The property assignments of one `/p:` switch. -/
def msProps (s : Str) : Option (List (Str × Str)) := (splitOn ';' s).mapM (split1 '=')

/-- The command line of MSBuild, as far as it consists of `/t:`, `/p:`, `/m:`, `/nologo`, `/clp:` and names of projects. -/
def readMs : List Str → Option MsCall
  | [] => some {}
  | w :: r => (readMs r).bind fun m =>
    if w.take 3 = c!"/t:" then some { m with targets := splitOn ';' (w.drop 3) ++ m.targets }
    else if w.take 3 = c!"/p:" then (msProps (w.drop 3)).map fun ps => { m with props := ps ++ m.props }
    else if w.take 3 = c!"/m:" then some { m with jobs := decValue (w.drop 3) :: m.jobs }
    else if w = c!"/nologo" ∨ w.take 5 = c!"/clp:" then some m
    else if w.head? = some '/' then none
    else some { m with projects := w :: m.projects }

/-- `parse` reads at least the JSON of the specification. -/
def ParsesJson (parse : Str → Option JVal) : Prop := ∀ t v, readText .json t = some v → parse t = some v

/-- The text of `--jobs`, or of the environment variable `JOBS` if that is missing. -/
def JobsText (W : BuildWorld) (s : Str) : Prop :=
  (∃ v, aget W.opts c!"jobs" = some v ∧ v.truthy = true ∧ s = jsText v) ∨
    ((∀ v, aget W.opts c!"jobs" = some v → v.truthy = false) ∧ s = W.jobsVar)

/-- The number of jobs asked for: a positive number, or `max` (in any case) for as many as there are
processors. -/
def Jobs (W : BuildWorld) (n : Nat) : Prop :=
  ∃ s, JobsText W s ∧
    ((0 < n ∧ StartsWithNumber s n) ∨
     ((∀ m, 0 < m → ¬ StartsWithNumber s m) ∧ s.map Char.toLower = c!"max" ∧ n = W.cpus))

/-- The jobs on the command line are those asked for. -/
def JobsAre (W : BuildWorld) (l : List Nat) : Prop :=
  (∃ n, Jobs W n ∧ l = [n]) ∨ ((∀ n, ¬ Jobs W n) ∧ l = [])

/-- The build type: of `--debug`, or of the settings read (`conf`), or `Release`. -/
def BuildTypeIs (W : BuildWorld) (conf : Option JVal) (t : Str) : Prop :=
  (∃ d, aget W.opts c!"debug" = some d ∧ t = if d.truthy then c!"Debug" else c!"Release") ∨
  (aget W.opts c!"debug" = none ∧
    ((∃ v, conf = some v ∧ v.truthy = true ∧ t = jsText v) ∨
     ((∀ v, conf = some v → v.truthy = false) ∧ t = c!"Release")))

/-- The `make` to use: of `--make`, or of the environment variable `MAKE`, or that of the platform. -/
def MakeIs (W : BuildWorld) (cmd : Str) : Prop :=
  (∃ v, aget W.opts c!"make" = some v ∧ v.truthy = true ∧ cmd = jsText v) ∨
  ((∀ v, aget W.opts c!"make" = some v → v.truthy = false) ∧
    ((W.makeVar ≠ [] ∧ cmd = W.makeVar) ∨
     (W.makeVar = [] ∧
       (((W.platform ∈ [c!"aix", c!"os400"] ∨ ∃ a b, W.platform = a ++ c!"bsd" ++ b) ∧ cmd = c!"gmake") ∨
        (W.platform ∉ [c!"aix", c!"os400"] ∧ (¬ ∃ a b, W.platform = a ++ c!"bsd" ++ b) ∧ cmd = c!"make")))))

/-- An ordinary name of a goal of `make`. -/
def PlainGoal (s : Str) : Prop := s.head? ≠ some '-' ∧ '=' ∉ s

end Gyp.Spec
