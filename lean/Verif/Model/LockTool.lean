import Verif.Basic
/-
Commands that are run under a lock (gyp/pylib/gyp/flock_tool.py, gyp/pylib/gyp/mac_tool.py).

Simplified: a process is a lock file, the status its command will end with (a number; ends by
signals are left out) and how far it got. Taking a lock is one step, as the system does it: it is
given if no other process has it, and freed when the process ends.
-/
namespace Gyp

/-- How far a process got in flock_tool.py:36-51 or mac_tool.py:253-258. -/
inductive LockStage
  | before
  | running
  | exited (status : Nat)
deriving DecidableEq

structure LockProc where
  lock : Str
  code : Nat
  stage : LockStage
deriving DecidableEq

/-- What differs between the two tools: does taking the lock wait, and with which status the
tool ends after the command ended. -/
structure LockTool where
  waits : Bool
  status : Nat → Nat

/-- gyp/pylib/gyp/mac_tool.py:25-29, 36-42, 253-258 (main, Dispatch, ExecFlock): `fcntl.flock(fd, LOCK_EX)` waits, and
the status is given to `sys.exit`. -/
def macLockTool : LockTool := ⟨true, id⟩

/-- gyp/pylib/gyp/flock_tool.py:16-18, 24-30, 36-51 (main, Dispatch, ExecFlock): `F_SETLK` does not
wait; Dispatch and main drop the status, so `sys.exit(None)` ends with 0. -/
def flockLockTool : LockTool := ⟨false, fun _ => 0⟩

/-- The system (not in /repo), called at flock_tool.py:50 and mac_tool.py:257: is the lock free? -/
def lockFree (w : List LockProc) (lock : Str) : Bool :=
  w.all fun p => !(p.stage = .running && p.lock = lock)

/-- Where a process goes next: flock_tool.py:36-51, mac_tool.py:253-258 (ExecFlock). An exception of `fcntl`
ends Python with status 1. -/
def nextStage (tool : LockTool) (w : List LockProc) (p : LockProc) : LockStage :=
  match p.stage with
  | .before =>
    if lockFree w p.lock then .running
    else if tool.waits then .before else .exited 1
  | .running => .exited (tool.status p.code)
  | .exited n => .exited n

/-- One step of process `i` of those that run flock_tool.py:36-51 or mac_tool.py:253-258. -/
def lockStep (tool : LockTool) (w : List LockProc) (i : Nat) : List LockProc :=
  match w[i]? with
  | none => w
  | some p => w.set i ⟨p.lock, p.code, nextStage tool w p⟩

/-- Steps in the order the system chooses. -/
def lockRun (tool : LockTool) (w : List LockProc) (order : List Nat) : List LockProc :=
  order.foldl (lockStep tool) w

end Gyp
