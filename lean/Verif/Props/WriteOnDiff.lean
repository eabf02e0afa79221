import Verif.Model.WriteOnDiff
/-
C08: write-if-changed never corrupts the target at any crash point.
-/
namespace Gyp

/-- What is known at each program point.  `new` is the complete new content. -/
def WInv (win : Bool) (ino : Nat) (new : Bytes) (old : Option File) (s : WState) : Prop :=
  match s.pc with
  | .start => s.target = old ∧ s.tmp = none
  | .opened => s.target = old ∧ s.tmp = some ⟨ino, []⟩ ∧ s.buffer = []
  | .fdopenFailed => s.target = old
  | .writing rest => s.target = old ∧
      ∃ d, s.tmp = some ⟨ino, d⟩ ∧ d ++ s.buffer ++ rest.flatten = new
  | .comparing => s.target = old ∧ s.tmp = some ⟨ino, new⟩
  | .same => s.target = old ∧ old.map File.data = some new
  | .chmod => s.target = old ∧ s.tmp = some ⟨ino, new⟩ ∧ old.map File.data ≠ some new
  | .replacing => s.target = old ∧ s.tmp = some ⟨ino, new⟩ ∧ old.map File.data ≠ some new
  | .renaming => (s.target = old ∨ (win = true ∧ s.target = none)) ∧ s.tmp = some ⟨ino, new⟩ ∧
      old.map File.data ≠ some new
  | .cleanup => s.target = old ∨
      (win = true ∧ s.target = none ∧ old.map File.data ≠ some new)
  | .raised => s.target = old ∨
      (win = true ∧ s.target = none ∧ old.map File.data ≠ some new)
  | .returned => s.tmp = none ∧
      ((s.target = old ∧ old.map File.data = some new) ∨
       (s.target = some ⟨ino, new⟩ ∧ old.map File.data ≠ some new))

theorem winv_step {win : Bool} {ino : Nat} {chunks : List Bytes} {old : Option File}
    {s s' : WState} (h : WInv win ino chunks.flatten old s)
    (hs : WStep win ino chunks s s') : WInv win ino chunks.flatten old s' := by
  cases hs <;> simp only [WInv] at h ⊢
  case mkstemp => exact ⟨h.1, trivial, trivial⟩
  case mkstempFails => exact Or.inl h.1
  case fdopen => exact ⟨h.1, [], h.2.1, by simp [h.2.2]⟩
  case fdopenFails => exact h.1
  case fdopenUnlink => exact Or.inl h
  case fdopenUnlinkFails => exact Or.inl h
  case write =>
    obtain ⟨h1, d, h2, h3⟩ := h
    exact ⟨h1, d, h2, by rw [← h3]; simp⟩
  case writeFails => exact Or.inl h.1
  case flush =>
    obtain ⟨h1, d, h2, h3⟩ := h
    obtain ⟨rfl, rfl⟩ := File.mk.inj (Option.some.inj h2)
    exact ⟨h1, _, rfl, by rw [← h3]; simp⟩
  case close =>
    obtain ⟨h1, d, h2, h3⟩ := h
    obtain ⟨rfl, rfl⟩ := File.mk.inj (Option.some.inj h2)
    exact ⟨h1, by rw [← h3]; simp⟩
  case closeFails => exact Or.inl h.1
  case cmpSame =>
    obtain ⟨h1, h2⟩ := h
    obtain ⟨rfl, rfl⟩ := File.mk.inj (Option.some.inj h2)
    exact ⟨h1, by rw [← h1]; rfl⟩
  case cmpDifferent hne =>
    obtain ⟨h1, h2⟩ := h
    obtain ⟨rfl, rfl⟩ := File.mk.inj (Option.some.inj h2)
    refine ⟨h1, rfl, ?_⟩
    rw [← h1]
    simpa using hne
  case cmpMissing =>
    refine ⟨h.1, h.2, ?_⟩
    rw [← h.1]; simp
  case cmpFails => exact Or.inl h.1
  case unlink => exact ⟨trivial, Or.inl h⟩
  case unlinkFails => exact Or.inl h.1
  case chmod => exact h
  case chmodFails => exact Or.inl h.1
  case noRemove => exact ⟨Or.inl h.1, h.2⟩
  case remove hw => exact ⟨Or.inr ⟨hw, trivial⟩, h.2⟩
  case removeFails => exact Or.inl h.1
  case rename => exact ⟨trivial, Or.inr h.2⟩
  case renameFails =>
    rcases h.1 with e | ⟨e1, e2⟩
    · exact Or.inl e
    · exact Or.inr ⟨e1, e2, h.2.2⟩
  case cleanup => exact h
  case cleanupFails => exact h

theorem winv_reach {win : Bool} {ino : Nat} {chunks : List Bytes} {old : Option File}
    {s : WState} (h : WReach win ino chunks old s) : WInv win ino chunks.flatten old s := by
  induction h with
  | refl => exact ⟨rfl, rfl⟩
  | tail _ hs ih => exact winv_step ih hs

/-- C08 on POSIX: whatever was written, whichever calls fail and wherever the process
dies, the target is the old file, untouched, or a file with the complete new content. -/
theorem C08_old_or_new {ino : Nat} {chunks : List Bytes} {old : Option File} {s : WState}
    (h : WReach false ino chunks old s) :
    s.target = old ∨ s.target = some ⟨ino, chunks.flatten⟩ := by
  have hi := winv_reach h
  obtain ⟨t, m, b, pc⟩ := s
  cases pc <;> simp only [WInv] at hi
  case start => exact Or.inl hi.1
  case opened => exact Or.inl hi.1
  case fdopenFailed => exact Or.inl hi
  case writing => exact Or.inl hi.1
  case comparing => exact Or.inl hi.1
  case same => exact Or.inl hi.1
  case chmod => exact Or.inl hi.1
  case replacing => exact Or.inl hi.1
  case «renaming» =>
    rcases hi.1 with e | ⟨e, -⟩
    · exact Or.inl e
    · cases e
  case cleanup =>
    rcases hi with e | ⟨e, -⟩
    · exact Or.inl e
    · cases e
  case raised =>
    rcases hi with e | ⟨e, -⟩
    · exact Or.inl e
    · cases e
  case returned =>
    rcases hi.2 with e | e
    · exact Or.inl e.1
    · exact Or.inr e.1

/-- C08: a file that already has the new content is never replaced or removed, on any
platform, at any point. -/
theorem C08_equal_untouched {win : Bool} {ino i : Nat} {chunks : List Bytes} {s : WState}
    (h : WReach win ino chunks (some ⟨i, chunks.flatten⟩) s) :
    s.target = some ⟨i, chunks.flatten⟩ := by
  have hi := winv_reach h
  obtain ⟨t, m, b, pc⟩ := s
  cases pc <;> simp only [WInv] at hi
  case start => exact hi.1
  case opened => exact hi.1
  case fdopenFailed => exact hi
  case writing => exact hi.1
  case comparing => exact hi.1
  case same => exact hi.1
  case chmod => exact absurd rfl hi.2.2
  case replacing => exact absurd rfl hi.2.2
  case «renaming» => exact absurd rfl hi.2.2
  case cleanup =>
    rcases hi with e | ⟨-, -, e⟩
    · exact e
    · exact absurd rfl e
  case raised =>
    rcases hi with e | ⟨-, -, e⟩
    · exact e
    · exact absurd rfl e
  case returned =>
    rcases hi.2 with e | e
    · exact e.1
    · exact absurd rfl e.2

/-- C08: when the writer returns normally the target has the new content and the
temporary file is gone. -/
theorem C08_completed {win : Bool} {ino : Nat} {chunks : List Bytes} {old : Option File}
    {s : WState} (h : WReach win ino chunks old s) (hr : s.pc = .returned) :
    s.tmp = none ∧ s.target.map File.data = some chunks.flatten := by
  have hi := winv_reach h
  simp only [WInv, hr] at hi
  refine ⟨hi.1, ?_⟩
  rcases hi.2 with e | e
  · rw [e.1, e.2]
  · rw [e.1]; rfl

/-- C08 on Windows: the only further possibility is that the target is missing. -/
theorem C08_windows {ino : Nat} {chunks : List Bytes} {old : Option File} {s : WState}
    (h : WReach true ino chunks old s) :
    s.target = old ∨ s.target = some ⟨ino, chunks.flatten⟩ ∨ s.target = none := by
  have hi := winv_reach h
  obtain ⟨t, m, b, pc⟩ := s
  cases pc <;> simp only [WInv] at hi
  case start => exact Or.inl hi.1
  case opened => exact Or.inl hi.1
  case fdopenFailed => exact Or.inl hi
  case writing => exact Or.inl hi.1
  case comparing => exact Or.inl hi.1
  case same => exact Or.inl hi.1
  case chmod => exact Or.inl hi.1
  case replacing => exact Or.inl hi.1
  case «renaming» =>
    rcases hi.1 with e | ⟨-, e⟩
    · exact Or.inl e
    · exact Or.inr (Or.inr e)
  case cleanup =>
    rcases hi with e | ⟨-, e, -⟩
    · exact Or.inl e
    · exact Or.inr (Or.inr e)
  case raised =>
    rcases hi with e | ⟨-, e, -⟩
    · exact Or.inl e
    · exact Or.inr (Or.inr e)
  case returned =>
    rcases hi.2 with e | e
    · exact Or.inl e.1
    · exact Or.inr (Or.inl e.1)

theorem reach_writing (win : Bool) (ino : Nat) (chunks : List Bytes) (old : Option File) :
    WReach win ino chunks old ⟨old, some ⟨ino, chunks.flatten⟩, [], .comparing⟩ := by
  have h : ∀ (cs : List Bytes) (b : Bytes),
      Relation.ReflTransGen (WStep win ino chunks) ⟨old, some ⟨ino, []⟩, b, .writing cs⟩
        ⟨old, some ⟨ino, []⟩, b ++ cs.flatten, .writing []⟩ := by
    intro cs
    induction cs with
    | nil => intro b; simpa using .refl
    | cons c cs ih =>
      intro b
      refine .head .write ?_
      simpa using ih (b ++ c)
  refine .head .mkstemp (.head .fdopen ?_)
  exact (h chunks []).tail .close

/-- C08, other direction: from every starting point the writer can run to a normal
return (so the theorems above are about executions that exist). -/
theorem C08_can_complete (win : Bool) (ino : Nat) (chunks : List Bytes) (old : Option File) :
    ∃ s, WReach win ino chunks old s ∧ s.pc = .returned := by
  have h := reach_writing win ino chunks old
  cases old with
  | none =>
    exact ⟨_, (((h.tail .cmpMissing).tail .chmod).tail (.noRemove (Or.inr rfl))).tail .rename, rfl⟩
  | some f =>
    obtain ⟨j, e⟩ := f
    by_cases hd : e = chunks.flatten
    · subst hd
      exact ⟨_, (h.tail .cmpSame).tail .unlink, rfl⟩
    · cases win with
      | false =>
        exact ⟨_, (((h.tail (.cmpDifferent hd)).tail .chmod).tail
          (.noRemove (Or.inl rfl))).tail .rename, rfl⟩
      | true =>
        exact ⟨_, (((h.tail (.cmpDifferent hd)).tail .chmod).tail (.remove rfl)).tail .rename, rfl⟩

/-- Where the code is weaker than the claim on Windows: if the rename fails after the
removal, the handler deletes the temporary file too, and both the old and the new
content are lost. -/
theorem C08_windows_can_lose_both :
    ∃ s, WReach true 1 [[1, 2]] (some ⟨0, [7]⟩) s ∧ s.pc = .raised ∧ s.target = none ∧
      s.tmp = none :=
  ⟨_, (((((reach_writing true 1 [[1, 2]] (some ⟨0, [7]⟩)).tail
    (.cmpDifferent (by decide))).tail .chmod).tail (.remove rfl)).tail .renameFails).tail .cleanup,
    rfl, rfl, rfl⟩

/-- A crash in the middle of writing: the old file is still complete. -/
example : ∃ s, WReach false 1 [[1, 2], [3]] (some ⟨0, [7]⟩) s ∧ s.target = some ⟨0, [7]⟩ ∧
    s.tmp = some ⟨1, [1]⟩ :=
  ⟨_, .tail (.tail (.tail (.tail .refl .mkstemp) .fdopen) .write)
    (.flush (b1 := [1]) (b2 := [2])), rfl, rfl⟩

end Gyp
