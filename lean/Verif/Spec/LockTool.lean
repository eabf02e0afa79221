import Verif.Model.LockTool
/-
What is expected of commands under locks.
-/
namespace Gyp.Spec

/-- No process has started. -/
def NotStarted (w : List LockProc) : Prop := ∀ p ∈ w, p.stage = .before

/-- Two commands with one lock file do not run at the same time. -/
def OneAtATime (w : List LockProc) : Prop :=
  ∀ (i j : Nat) (p q : LockProc), w[i]? = some p → w[j]? = some q → p.stage = .running → q.stage = .running →
    p.lock = q.lock → i = j

/-- Processes that ended did so with the status of their command. -/
def OwnStatus (w : List LockProc) : Prop := ∀ p ∈ w, ∀ n, p.stage = .exited n → n = p.code

end Gyp.Spec
