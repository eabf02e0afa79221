import Verif.Basic
/-
Loading build files: `gyp/pylib/gyp/input.py` `ParallelState`, `LoadTargetBuildFilesParallel`
and the traversal of `LoadTargetBuildFile`.

What a worker does with one file is a function `load : F → Option (List F)`: the build
files its targets depend on, or `none` for any error (input.py:500-552 turns exceptions
into `None`).  A worker process that is killed is not modelled.
-/
namespace Gyp

/-- Where the main thread is. -/
inductive ParPc where
  /-- input.py:620 about to test the loop condition, holding the lock -/
  | loop
  /-- input.py:624 in `condition.wait()`, lock released; whether it was notified -/
  | waiting (notified : Bool)
  /-- input.py:652-655 lock released, in `pool.close()`, `pool.join()` -/
  | joining
  /-- input.py:658 joined; `sys.exit(1)` if there was an error -/
  | finished
  /-- input.py:654 `None.close()`: there was nothing to load -/
  | crashed
deriving DecidableEq

/-- input.py:559-583 the fields of `ParallelState`, with the jobs given to the pool. -/
structure ParState (F : Type) where
  pc : ParPc
  /-- `dependencies` -/
  deps : List F
  /-- `scheduled`, a set -/
  scheduled : List F
  pending : Nat
  error : Bool
  /-- `data["target_build_files"]`, in order of arrival -/
  loaded : List F
  /-- calls of `apply_async` so far -/
  submitted : List F
  /-- jobs whose callback has not run -/
  outstanding : List F

variable {F : Type} [DecidableEq F]

/-- input.py:610-617 -/
def ParState.init (roots : List F) : ParState F :=
  ⟨.loop, roots, roots, 0, false, [], [], []⟩

/-- input.py:595-598 new dependencies. -/
def scheduleNew : List F → List F → List F → List F × List F
  | [], deps, scheduled => (deps, scheduled)
  | d :: ds, deps, scheduled =>
    if d ∈ scheduled then scheduleNew ds deps scheduled
    else scheduleNew ds (deps ++ [d]) (scheduled ++ [d])

/-- `condition.notify()`. -/
def ParPc.notify : ParPc → ParPc
  | .waiting _ => .waiting true
  | pc => pc

/-- input.py:585-601 `LoadTargetBuildFileCallback` for the job of `f`: `notify` wakes the
main thread if it waits. -/
def callback (load : F → Option (List F)) (f : F) (s : ParState F) : ParState F :=
  let s := { s with outstanding := s.outstanding.erase f, pc := s.pc.notify }
  match load f with
  | none => { s with error := true }
  | some ds =>
    { s with
      loaded := s.loaded ++ [f]
      deps := (scheduleNew ds s.deps s.scheduled).1
      scheduled := (scheduleNew ds s.deps s.scheduled).2
      pending := s.pending - 1 }

/-- input.py:620-649 one turn of the main loop. -/
def mainLoop (s : ParState F) : ParState F :=
  if s.deps = [] ∧ s.pending = 0 ∨ s.error = true then
    { s with pc := if s.submitted = [] then .crashed else .joining }
  else
    match s.deps.getLast? with
    | none => { s with pc := .waiting false }
    | some f =>
      { s with
        deps := s.deps.dropLast
        pending := s.pending + 1
        submitted := s.submitted ++ [f]
        outstanding := s.outstanding ++ [f] }

/-- One step of the main thread or of the thread that runs the callbacks.  Callbacks need
the lock, which the main thread holds except while it waits or joins. -/
inductive ParStep (load : F → Option (List F)) : ParState F → ParState F → Prop
  | main (s : ParState F) : s.pc = .loop → ParStep load s (mainLoop s)
  | wake (s : ParState F) : s.pc = .waiting true → ParStep load s { s with pc := .loop }
  | callback (s : ParState F) (f : F) : f ∈ s.outstanding →
    (∃ n, s.pc = .waiting n) ∨ s.pc = .joining → ParStep load s (callback load f s)
  | join (s : ParState F) : s.pc = .joining → s.outstanding = [] →
    ParStep load s { s with pc := .finished }

/-- An execution of `n` steps. -/
inductive ParSteps (load : F → Option (List F)) : Nat → ParState F → ParState F → Prop
  | refl (s : ParState F) : ParSteps load 0 s s
  | step {n : Nat} {s t u : ParState F} : ParSteps load n s t → ParStep load t u →
    ParSteps load (n + 1) s u

/-- The ways in which a traversal can fail. -/
inductive SeqErr where
  | load | fuel
deriving DecidableEq

mutual
/-- input.py:362-497 the traversal of `LoadTargetBuildFile` with `load_dependencies`;
`seen` is `data["target_build_files"]`.  `fuel` bounds the nesting of calls. -/
def seqLoad (load : F → Option (List F)) : Nat → List F → F → Except SeqErr (List F)
  | 0, _, _ => .error .fuel
  | fuel + 1, seen, f =>
    if f ∈ seen then .ok seen
    else
      match load f with
      | none => .error .load
      | some ds => seqLoadAll load fuel (seen ++ [f]) ds
/-- input.py:480-494 the loop over the dependencies, and 2981-2990 the one over the given
files. -/
def seqLoadAll (load : F → Option (List F)) : Nat → List F → List F → Except SeqErr (List F)
  | _, seen, [] => .ok seen
  | fuel, seen, f :: fs =>
    match seqLoad load fuel seen f with
    | .error e => .error e
    | .ok seen => seqLoadAll load fuel seen fs
end

end Gyp
