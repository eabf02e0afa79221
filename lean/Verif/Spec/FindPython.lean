import Verif.Model.FindPython
import Verif.Spec.Shasums
/-
What the search for Python promises.
-/
namespace Gyp.Spec

/-- A place where a Python is looked for. -/
inductive Candidate where
  /-- a command, which is asked for the path of its interpreter -/
  | command (c : Str)
  /-- the Windows launcher, which is asked for a Python 3 -/
  | launcher
  /-- the path of an interpreter -/
  | path (p : Str)
  deriving DecidableEq, Repr

/-- The documented order.  NODE_GYP_FORCE_PYTHON excludes everything else; else
the configured Python, the one of the environment variable PYTHON, on Windows the
launcher, `python3`, `python`, and on Windows the usual places. -/
def order (E : PyEnv) : List Candidate :=
  if E.force ≠ [] then [.command E.force]
  else
    ([E.config, E.python].filter (· ≠ [])).map .command ++
    (if E.win then [.launcher] else []) ++
    [.command c!"python3", .command c!"python"] ++
    (if E.win then E.winDefaultLocations.map .path else [])

/-- `t` is `s` without the white space around it. -/
def Stripped (s t : Str) : Prop :=
  ∃ a b, s = a ++ t ++ b ∧ Blank a ∧ Blank b ∧
    (∀ c, t.head? = some c → ¬ Space c) ∧ (∀ c, t.getLast? = some c → ¬ Space c)

/-- How a command is run: through the shell, quoted, on Windows. -/
def asksPath (E : PyEnv) : Candidate → Option PyCall
  | .command c =>
    if E.win then some ⟨c!"\"" ++ c ++ c!"\"", argsExecutable.map fun a => c!"\"" ++ a ++ c!"\"", true⟩
    else some ⟨c, argsExecutable, false⟩
  | .launcher => some ⟨E.pyLauncher, c!"-3" :: argsExecutable, false⟩
  | .path _ => none

/-- The candidate stands for the interpreter `p`. -/
def Names (E : PyEnv) (c : Candidate) (p : Str) : Prop :=
  (∃ call out, asksPath E c = some call ∧ E.run call = some out ∧ Stripped out p) ∨ c = .path p

/-- The interpreter `p` runs and says that it is a release of Python 3.6 or later. -/
def Acceptable (E : PyEnv) (p : Str) : Prop :=
  ∃ out t v, E.run ⟨p, argsVersion, false⟩ = some out ∧ Stripped out t ∧ E.parse t = some v ∧
    v.pre = [] ∧ (3 < v.major ∨ (v.major = 3 ∧ 6 ≤ v.minor))

/-- The candidate leads to the usable interpreter `p`. -/
def Leads (E : PyEnv) (c : Candidate) (p : Str) : Prop := Names E c p ∧ Acceptable E p

/-- The programs that looking at a candidate runs. -/
def probes (E : PyEnv) (c : Candidate) (calls : List PyCall) : Prop :=
  match asksPath E c with
  | some call =>
    (E.run call = none ∧ calls = [call]) ∨
    ∃ p, Names E c p ∧ calls = [call, ⟨p, argsVersion, false⟩]
  | none => ∃ p, c = .path p ∧ calls = [⟨p, argsVersion, false⟩]

end Gyp.Spec
