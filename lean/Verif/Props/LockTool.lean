import Verif.Spec.LockTool
/-
C130: commands under a lock.
-/
namespace Gyp
open Spec

theorem lockStep_get {tool : LockTool} {w : List LockProc} {i j : Nat} {q : LockProc}
    (h : (lockStep tool w i)[j]? = some q) :
    ∃ p, w[j]? = some p ∧ q.lock = p.lock ∧ q.code = p.code ∧
      ((i = j ∧ q.stage = nextStage tool w p) ∨ (i ≠ j ∧ q = p)) := by
  unfold lockStep at h
  cases hw : w[i]? with
  | none =>
    rw [hw] at h
    refine ⟨q, h, rfl, rfl, .inr ⟨?_, rfl⟩⟩
    rintro rfl
    have h' : w[i]? = some q := h
    rw [hw] at h'; cases h'
  | some p =>
    rw [hw] at h
    have h' : (w.set i ⟨p.lock, p.code, nextStage tool w p⟩)[j]? = some q := h
    rw [List.getElem?_set] at h'
    by_cases e : i = j
    · subst e
      have hl : i < w.length := (List.getElem?_eq_some_iff.mp hw).1
      rw [if_pos rfl, if_pos hl] at h'
      cases h'
      exact ⟨p, hw, rfl, rfl, .inl ⟨rfl, rfl⟩⟩
    · rw [if_neg e] at h'
      exact ⟨q, h', rfl, rfl, .inr ⟨e, rfl⟩⟩

theorem lockFree_none {w : List LockProc} {l : Str} (h : lockFree w l = true) {q : LockProc}
    (hq : q ∈ w) (hr : q.stage = .running) : q.lock ≠ l := by
  unfold lockFree at h
  have := List.all_eq_true.mp h q hq
  simpa [hr] using this

theorem lockFree_of {w : List LockProc} {l : Str}
    (h : ∀ q ∈ w, q.stage = .running → q.lock ≠ l) : lockFree w l = true := by
  unfold lockFree
  refine List.all_eq_true.mpr fun q hq => ?_
  by_cases hr : q.stage = .running
  · simp [hr, h q hq hr]
  · simp [hr]

/-- A step that leads to running. -/
theorem nextStage_running {tool : LockTool} {w : List LockProc} {p : LockProc}
    (h : nextStage tool w p = .running) : lockFree w p.lock = true := by
  unfold nextStage at h
  cases hs : p.stage with
  | before =>
    rw [hs] at h
    by_cases hf : lockFree w p.lock = true
    · exact hf
    · simp only [hf] at h
      cases hw : tool.waits <;> simp [hw] at h
  | running => rw [hs] at h; cases h
  | exited n => rw [hs] at h; cases h

theorem oneAtATime_step {tool : LockTool} {w : List LockProc} (h : OneAtATime w) (k : Nat) :
    OneAtATime (lockStep tool w k) := by
  intro i j p q hp hq rp rq e
  obtain ⟨p', hp', lp, -, cp⟩ := lockStep_get hp
  obtain ⟨q', hq', lq, -, cq⟩ := lockStep_get hq
  rcases cp with ⟨ki, sp⟩ | ⟨ki, sp⟩ <;> rcases cq with ⟨kj, sq⟩ | ⟨kj, sq⟩
  · exact ki.symm.trans kj
  · subst sq
    have := lockFree_none (nextStage_running (sp.symm.trans rp)) (List.mem_of_getElem? hq') rq
    exact absurd (e.symm.trans lp) this
  · subst sp
    have := lockFree_none (nextStage_running (sq.symm.trans rq)) (List.mem_of_getElem? hp') rp
    exact absurd (e.trans lq) this
  · subst sp; subst sq
    exact h i j p q hp' hq' rp rq e

theorem lockRun_inv {tool : LockTool} (P : List LockProc → Prop)
    (hs : ∀ w k, P w → P (lockStep tool w k)) : ∀ (order : List Nat) (w : List LockProc), P w →
    P (lockRun tool w order)
  | [], _, h => h
  | k :: ks, w, h => lockRun_inv P hs ks (lockStep tool w k) (hs w k h)

/-- With both tools, and however the system orders the steps of any number of processes, two
commands with the same lock file never run at the same time. -/
theorem C130_exclusive (tool : LockTool) {w : List LockProc} (h : NotStarted w) (order : List Nat) :
    OneAtATime (lockRun tool w order) := by
  refine lockRun_inv OneAtATime (fun w k h => oneAtATime_step h k) order w ?_
  intro i j p q hp _ rp
  rw [h p (List.mem_of_getElem? hp)] at rp
  cases rp

example : lockRun flockLockTool [⟨c!"l", 0, .before⟩, ⟨c!"m", 0, .before⟩] [0, 1] =
    [⟨c!"l", 0, .running⟩, ⟨c!"m", 0, .running⟩] := by decide

/-- On macOS every process that ended has the status of its command. -/
theorem C130_mac_status {w : List LockProc} (h : NotStarted w) (order : List Nat) :
    OwnStatus (lockRun macLockTool w order) := by
  refine lockRun_inv OwnStatus (fun w k h => ?_) order w ?_
  · intro q hq n hn
    obtain ⟨j, hj⟩ := List.mem_iff_getElem?.mp hq
    obtain ⟨p, hp, -, cp, c⟩ := lockStep_get hj
    have hp' := List.mem_of_getElem? hp
    rcases c with ⟨-, s⟩ | ⟨-, s⟩
    · rw [hn] at s
      rw [cp]
      unfold nextStage at s
      cases hs : p.stage with
      | before =>
        rw [hs] at s
        cases hf : lockFree w p.lock <;> simp [hf, macLockTool] at s
      | running => rw [hs] at s; simpa [macLockTool] using s
      | exited m =>
        rw [hs] at s
        have : n = m := by simpa using s
        rw [this]; exact h p hp' m hs
    · subst s; exact h q hp' n hn
  · intro p hp n hn
    rw [h p hp] at hn; cases hn

/-- What is left to do. -/
def lockWeight : LockStage → Nat
  | .before => 2
  | .running => 1
  | .exited _ => 0

theorem sum_set_lt : ∀ {w : List LockProc} {i : Nat} {p q : LockProc}, w[i]? = some p →
    lockWeight q.stage < lockWeight p.stage →
    ((w.set i q).map fun x => lockWeight x.stage).sum < (w.map fun x => lockWeight x.stage).sum
  | [], i, p, q, h, _ => by simp at h
  | x :: xs, 0, p, q, h, hl => by
    have : x = p := by simpa using h
    subst this
    simp only [List.set_cons_zero, List.map_cons, List.sum_cons]; omega
  | x :: xs, i + 1, p, q, h, hl => by
    have := sum_set_lt (w := xs) (i := i) (p := p) (q := q) (by simpa using h) hl
    simp only [List.set_cons_succ, List.map_cons, List.sum_cons]; omega

theorem lockStep_less {tool : LockTool} {w : List LockProc} {i : Nat} {p : LockProc}
    (hi : w[i]? = some p) (hl : lockWeight (nextStage tool w p) < lockWeight p.stage) :
    ((lockStep tool w i).map fun x => lockWeight x.stage).sum < (w.map fun x => lockWeight x.stage).sum := by
  have e : lockStep tool w i = w.set i ⟨p.lock, p.code, nextStage tool w p⟩ := by
    unfold lockStep; rw [hi]
  rw [e]
  exact sum_set_lt hi hl

theorem weight_le_sum : ∀ {w : List LockProc} {p : LockProc}, p ∈ w →
    lockWeight p.stage ≤ (w.map fun x => lockWeight x.stage).sum
  | x :: xs, p, h => by
    rw [List.map_cons, List.sum_cons]
    rcases List.mem_cons.mp h with e | e
    · subst e; omega
    · have := weight_le_sum e; omega

theorem lock_ends (tool : LockTool) : ∀ (n : Nat) (w : List LockProc),
    (w.map fun x => lockWeight x.stage).sum ≤ n →
    ∃ more, ∀ p ∈ lockRun tool w more, ∃ s, p.stage = .exited s := by
  intro n
  induction n with
  | zero =>
    intro w hw
    refine ⟨[], fun p hp => ?_⟩
    have : lockWeight p.stage ≤ 0 :=
      Nat.le_trans (weight_le_sum hp) hw
    cases hs : p.stage with
    | before => rw [hs] at this; simp [lockWeight] at this
    | running => rw [hs] at this; simp [lockWeight] at this
    | exited s => exact ⟨s, rfl⟩
  | succ n ih =>
    intro w hw
    by_cases hr : ∃ p ∈ w, p.stage = .running
    · obtain ⟨p, hp, hs⟩ := hr
      obtain ⟨i, hi⟩ := List.mem_iff_getElem?.mp hp
      have := lockStep_less (tool := tool) hi (by simp [nextStage, hs, lockWeight])
      obtain ⟨more, hm⟩ := ih (lockStep tool w i) (by omega)
      exact ⟨i :: more, hm⟩
    · by_cases hb : ∃ p ∈ w, p.stage = .before
      · obtain ⟨p, hp, hs⟩ := hb
        obtain ⟨i, hi⟩ := List.mem_iff_getElem?.mp hp
        have hf : lockFree w p.lock = true := lockFree_of fun q hq h => absurd ⟨q, hq, h⟩ hr
        have := lockStep_less (tool := tool) hi (by simp [nextStage, hs, hf, lockWeight])
        obtain ⟨more, hm⟩ := ih (lockStep tool w i) (by omega)
        exact ⟨i :: more, hm⟩
      · refine ⟨[], fun p hp => ?_⟩
        cases hs : p.stage with
        | before => exact absurd ⟨p, hp, hs⟩ hb
        | running => exact absurd ⟨p, hp, hs⟩ hr
        | exited s => exact ⟨s, rfl⟩

/-- There is no deadlock: whatever happened so far, all processes can still come to their end. -/
theorem C130_no_deadlock (tool : LockTool) (w : List LockProc) (order : List Nat) :
    ∃ more, ∀ p ∈ lockRun tool w (order ++ more), ∃ s, p.stage = .exited s := by
  obtain ⟨more, h⟩ := lock_ends tool _ (lockRun tool w order) (Nat.le_refl _)
  exact ⟨more, by unfold lockRun at h ⊢; rw [List.foldl_append]; exact h⟩

example : lockRun macLockTool [⟨c!"l", 3, .before⟩, ⟨c!"l", 0, .before⟩] [0, 1, 0, 1, 1] =
    [⟨c!"l", 3, .exited 3⟩, ⟨c!"l", 0, .exited 0⟩] := by decide

/-- Where there is no `flock`, processes end with the status of their command if all commands
succeed and no two of them have the same lock file.
Partial: see `C130_status_lost` and `C130_refused`. -/
theorem C130_status_partial {w : List LockProc} (h : NotStarted w) (hc : ∀ p ∈ w, p.code = 0)
    (hl : ∀ (i j : Nat) (p q : LockProc), w[i]? = some p → w[j]? = some q → p.lock = q.lock → i = j) (order : List Nat) :
    OwnStatus (lockRun flockLockTool w order) := by
  have inv := lockRun_inv (tool := flockLockTool) (fun w =>
    (∀ p ∈ w, p.code = 0) ∧
    (∀ (i j : Nat) (p q : LockProc), w[i]? = some p → w[j]? = some q → p.lock = q.lock → i = j) ∧ OwnStatus w) ?_ order w
    ⟨hc, hl, fun p hp n hn => by rw [h p hp] at hn; cases hn⟩
  · exact inv.2.2
  · rintro w k ⟨c0, l0, o0⟩
    refine ⟨fun q hq => ?_, fun i j p q hp hq e => ?_, fun q hq n hn => ?_⟩
    · obtain ⟨j, hj⟩ := List.mem_iff_getElem?.mp hq
      obtain ⟨p, hp, -, cp, -⟩ := lockStep_get hj
      rw [cp]; exact c0 p (List.mem_of_getElem? hp)
    · obtain ⟨p', hp', lp, -⟩ := lockStep_get hp
      obtain ⟨q', hq', lq, -⟩ := lockStep_get hq
      exact l0 i j p' q' hp' hq' (lp.symm.trans (e.trans lq))
    · obtain ⟨j, hj⟩ := List.mem_iff_getElem?.mp hq
      obtain ⟨p, hp, -, cp, c⟩ := lockStep_get hj
      have hp' := List.mem_of_getElem? hp
      rcases c with ⟨-, s⟩ | ⟨-, s⟩
      · rw [hn] at s
        unfold nextStage at s
        cases hs : p.stage with
        | before =>
          have hf : lockFree w p.lock = true := lockFree_of fun q' hq' hr e => by
            obtain ⟨j', hj'⟩ := List.mem_iff_getElem?.mp hq'
            have := l0 j' j q' p hj' hp e
            subst this
            rw [hj'] at hp; cases hp
            rw [hs] at hr; cases hr
          rw [hs] at s; simp [hf] at s
        | running =>
          rw [hs] at s
          have : n = 0 := by simpa [flockLockTool] using s
          rw [this, cp, c0 p hp']
        | exited m =>
          rw [hs] at s
          have : n = m := by simpa using s
          rw [this, cp]; exact o0 p hp' m hs
      · subst s; exact o0 q hp' n hn

example : NotStarted [⟨c!"l", 0, .before⟩, ⟨c!"m", 0, .before⟩] := by unfold NotStarted; decide

/-- Where there is no `flock`, a command that fails, with any status, is reported as successful. -/
theorem C130_status_lost (lock : Str) (code : Nat) :
    lockRun flockLockTool [⟨lock, code, .before⟩] [0, 0] = [⟨lock, code, .exited 0⟩] := by
  simp [lockRun, lockStep, nextStage, lockFree, flockLockTool]

/-- Where there is no `flock`, a command that comes while another has the lock fails instead of
waiting, and is never run. -/
theorem C130_refused (lock : Str) (a b : Nat) :
    lockRun flockLockTool [⟨lock, a, .before⟩, ⟨lock, b, .before⟩] [0, 1, 0] =
      [⟨lock, a, .exited 0⟩, ⟨lock, b, .exited 1⟩] := by
  simp [lockRun, lockStep, nextStage, lockFree, flockLockTool]

end Gyp
