import Verif.Proofs.InstallDone
/-
How often an installation is tried.
-/
namespace Gyp
open Spec

/-- No new try, and the same place. -/
def SameTry (s s' : InstState) : Prop := s'.tries = s.tries ∧ s'.devDir = s.devDir

/-- Ends or fails in the same try. -/
def Calm {α : Type} (m : InstM α) : Prop :=
  ∀ s, wp m (fun _ s' => SameTry s s') (fun e s' => SameTry s s' ∧ e ≠ .fuel) s

theorem SameTry.trans {s s' s'' : InstState} (h : SameTry s s') (h' : SameTry s' s'') :
    SameTry s s'' := ⟨h'.1.trans h.1, h'.2.trans h.2⟩

theorem Calm.pure {α : Type} (a : α) : Calm (Pure.pure a : InstM α) := fun _ => ⟨rfl, rfl⟩

theorem Calm.fail {α : Type} {e : InstErr} (h : e ≠ .fuel) : Calm (InstM.fail e : InstM α) :=
  fun _ => ⟨⟨rfl, rfl⟩, h⟩

theorem Calm.upd {g : InstState → InstState} (h : ∀ s, SameTry s (g s)) : Calm (InstM.upd g) :=
  fun s => h s

theorem Calm.bind {α β : Type} {m : InstM α} {f : α → InstM β} (hm : Calm m) (hf : ∀ a, Calm (f a)) :
    Calm (m >>= f) := by
  intro s
  rw [wp_bind]
  refine wp_mono (hm s) ?_ (fun _ _ h => h)
  intro a s1 h1
  exact wp_mono (hf a s1) (fun _ _ h => h1.trans h) (fun _ _ h => ⟨h1.trans h.1, h.2⟩)

theorem Calm.tryBind {α β : Type} {m : InstM α} {f : Except InstErr α → InstM β} (hm : Calm m)
    (hok : ∀ a, Calm (f (.ok a))) (herr : ∀ e, e ≠ .fuel → Calm (f (.error e))) :
    Calm (InstM.attempt m >>= f) := by
  intro s
  rw [wp_bind, wp_attempt]
  refine wp_mono (hm s) ?_ ?_
  · intro a s1 h1
    exact wp_mono (hok a s1) (fun _ _ h => h1.trans h) (fun _ _ h => ⟨h1.trans h.1, h.2⟩)
  · rintro e s1 ⟨h1, he⟩
    exact wp_mono (herr e he s1) (fun _ _ h => h1.trans h) (fun _ _ h => ⟨h1.trans h.1, h.2⟩)

theorem Calm.op {α : Type} {E : InstEnv} {kind : FsOp} {f : InstState → Except FsErr α × InstState}
    (hf : ∀ s, SameTry s (f s).2) : Calm (InstM.op E kind f) := by
  intro s
  apply wp_op
  · intro e _; exact ⟨⟨rfl, rfl⟩, by simp⟩
  · intro _ a s' hs
    have := hf { s with n := s.n + 1 }
    rw [hs] at this
    exact this
  · intro _ a s' hs
    have := hf { s with n := s.n + 1 }
    rw [hs] at this
    exact ⟨this, by simp⟩

theorem SameTry.refl (s : InstState) : SameTry s s := ⟨rfl, rfl⟩

theorem calm_statDir (E : InstEnv) (kind : FsOp) (dir : Str) : Calm (statDir E kind dir) :=
  Calm.op fun s => SameTry.refl s

theorem calm_statFile (E : InstEnv) (dir file : Str) : Calm (statFile E dir file) :=
  Calm.op fun s => by split <;> exact SameTry.refl s

theorem calm_readFile (E : InstEnv) (dir file : Str) : Calm (readFile E dir file) :=
  Calm.op fun s => by
    split
    · exact SameTry.refl s
    · split <;> exact SameTry.refl s

theorem calm_mkdir (E : InstEnv) (dir : Str) : Calm (mkdir E dir) :=
  Calm.op fun s => by
    dsimp only
    split <;> exact ⟨rfl, rfl⟩

theorem calm_putFile (E : InstEnv) (kind : FsOp) (dir f c : Str) : Calm (putFile E kind dir f c) :=
  Calm.op fun s => by
    split
    · exact ⟨rfl, rfl⟩
    · split <;> exact ⟨rfl, rfl⟩

theorem calm_fetch (E : InstEnv) (url : Str) : Calm (fetch E url) :=
  Calm.bind (Calm.op fun s => SameTry.refl s) fun r => by
    split
    · exact Calm.fail (by simp)
    · exact Calm.pure _

theorem calm_extractAll (E : InstEnv) (dir : Str) : ∀ ms, Calm (extractAll E dir ms)
  | [] => Calm.pure _
  | (f, c) :: rest => by
    unfold extractAll
    split
    · exact Calm.bind (calm_putFile _ _ _ _ _) fun _ =>
        Calm.bind (calm_extractAll E dir rest) fun _ => Calm.pure _
    · exact calm_extractAll E dir rest

theorem calm_getTarball (E : InstEnv) (rel : InstRelease) (dir : Str) : Calm (getTarball E rel dir) := by
  unfold getTarball
  split
  · refine Calm.bind (calm_extractAll _ _ _) fun k => ?_
    split
    · exact Calm.fail (by simp)
    · exact Calm.pure _
  · refine Calm.bind (calm_fetch _ _) fun b => Calm.bind (Calm.upd fun s => ⟨rfl, rfl⟩) fun _ =>
      Calm.bind (calm_extractAll _ _ _) fun k => ?_
    split
    · exact Calm.fail (by simp)
    · exact Calm.pure _

theorem calm_getNodeLib (E : InstEnv) (rel : InstRelease) (dir : Str) (content : List (Str × Str)) :
    Calm (getNodeLib E rel dir content) :=
  Calm.bind (calm_fetch _ _) fun _ => Calm.bind (Calm.upd fun s => ⟨rfl, rfl⟩) fun _ =>
    Calm.bind (calm_putFile _ _ _ _ _) fun _ => Calm.pure _

theorem calm_verifySums (expect : List (Str × Str)) : ∀ content, Calm (verifySums expect content)
  | [] => Calm.pure _
  | (k, d) :: rest => by
    unfold verifySums
    split
    · exact calm_verifySums expect rest
    · exact Calm.fail (by simp)

theorem calm_copyAll (E : InstEnv) (dir : Str) : ∀ fs, Calm (copyAll E dir fs)
  | [] => Calm.pure _
  | (f, c) :: rest => by
    unfold copyAll
    refine Calm.tryBind (Calm.op fun s => ?_) (fun _ => calm_copyAll E dir rest) (fun e he => ?_)
    · split <;> exact ⟨rfl, rfl⟩
    · dsimp only
      split
      · exact Calm.tryBind (calm_statFile _ _ _) (fun _ => calm_copyAll E dir rest)
          (fun _ _ => Calm.fail he)
      · exact Calm.fail he

theorem calm_goBody (E : InstEnv) (rel : InstRelease) (dir : Str) (want : Bool) :
    Calm (goBody E rel dir want) := by
  unfold goBody
  refine Calm.bind (Calm.upd fun s => ⟨rfl, rfl⟩) fun _ => Calm.bind ?_ fun content =>
    Calm.bind ?_ fun content => Calm.bind (calm_putFile _ _ _ _ _) fun _ =>
    Calm.bind ?_ fun expect => Calm.bind (calm_verifySums _ _) fun _ => ?_
  · split
    · exact calm_getTarball _ _ _
    · exact Calm.pure _
  · split
    · exact calm_getNodeLib _ _ _ _
    · exact Calm.pure _
  · split
    · exact Calm.bind (calm_fetch _ _) fun _ => Calm.bind (Calm.upd fun s => ⟨rfl, rfl⟩) fun _ =>
        Calm.pure _
    · exact Calm.pure _
  · split
    · exact Calm.bind (fun s => ⟨rfl, rfl⟩) fun _ => calm_copyAll _ _ _
    · exact Calm.pure _

theorem calm_removeVersion (E : InstEnv) (v : Str) : Calm (removeVersion E v) := by
  intro s
  refine Calm.tryBind (f := ?_) (calm_statDir E .removeStat (versionPath s.devDir v)) (fun _ => ?_)
    (fun e he => ?_) s
  · exact Calm.op fun s => ⟨rfl, rfl⟩
  · dsimp only
    split
    · exact Calm.pure _
    · exact Calm.fail he

/-- The world denies access to a directory. -/
def Denied (E : InstEnv) : Prop :=
  ∃ n, E.fault .stat n = some .eacces ∨ E.fault .mkdir n = some .eacces

/-- The same try, or one more in the temporary directory. -/
def OneMore (E : InstEnv) (argv : List Str) (s s' : InstState) : Prop :=
  SameTry s s' ∨ (s'.tries = s.tries + 1 ∧ s'.devDir = E.tmpdir ++ c!"/.node-gyp" ∧
    noretryWord ∉ argv ∧ Denied E)

def Once {α : Type} (E : InstEnv) (argv : List Str) (m : InstM α) : Prop :=
  ∀ s, wp m (fun _ s' => OneMore E argv s s') (fun e s' => OneMore E argv s s' ∧ e ≠ .fuel) s

theorem SameTry.thenOne {E : InstEnv} {argv : List Str} {s s' s'' : InstState} (h : SameTry s s')
    (h' : OneMore E argv s' s'') : OneMore E argv s s'' := by
  rcases h' with h' | ⟨h1, h2⟩
  · exact Or.inl (h.trans h')
  · exact Or.inr ⟨by rw [h1, h.1], h2⟩

theorem OneMore.thenSame {E : InstEnv} {argv : List Str} {s s' s'' : InstState}
    (h : OneMore E argv s s') (h' : SameTry s' s'') : OneMore E argv s s'' := by
  rcases h with h | ⟨h1, h2, h3⟩
  · exact Or.inl (h.trans h')
  · exact Or.inr ⟨h'.1.trans h1, h'.2.trans h2, h3⟩

theorem Calm.once {α : Type} {E : InstEnv} {argv : List Str} {m : InstM α} (h : Calm m) :
    Once E argv m := fun s => wp_mono (h s) (fun _ _ h => Or.inl h) (fun _ _ h => ⟨Or.inl h.1, h.2⟩)

/-- An attempt of a calm operation whose errors are known. -/
theorem Once.tryBind {α β : Type} {E : InstEnv} {argv : List Str} {m : InstM α}
    {f : Except InstErr α → InstM β} (hm : Calm m) (K : InstErr → Prop)
    (hK : ∀ s, wp m (fun _ _ => True) (fun e _ => K e) s)
    (hok : ∀ a, Once E argv (f (.ok a)))
    (herr : ∀ e, e ≠ .fuel → K e → Once E argv (f (.error e))) :
    Once E argv (InstM.attempt m >>= f) := by
  intro s
  rw [wp_bind, wp_attempt]
  refine wp_mono (wp_and (hm s) (hK s)) ?_ ?_
  · rintro a s1 ⟨h1, -⟩
    exact wp_mono (hok a s1) (fun _ _ h => h1.thenOne h) (fun _ _ h => ⟨h1.thenOne h.1, h.2⟩)
  · rintro e s1 ⟨⟨h1, he⟩, hk⟩
    exact wp_mono (herr e he hk s1) (fun _ _ h => h1.thenOne h) (fun _ _ h => ⟨h1.thenOne h.1, h.2⟩)

theorem Once.bind {α β : Type} {E : InstEnv} {argv : List Str} {m : InstM α} {f : α → InstM β}
    (hm : Calm m) (hf : ∀ a, Once E argv (f a)) : Once E argv (m >>= f) := by
  intro s
  rw [wp_bind]
  refine wp_mono (hm s) ?_ (fun _ _ h => ⟨Or.inl h.1, h.2⟩)
  intro a s1 h1
  exact wp_mono (hf a s1) (fun _ _ h => h1.thenOne h) (fun _ _ h => ⟨h1.thenOne h.1, h.2⟩)

/-- Access is denied only by the world. -/
theorem op_denied {α : Type} {E : InstEnv} {kind : FsOp} {f : InstState → Except FsErr α × InstState}
    (hf : ∀ s e, (f s).1 = .error e → e ≠ .eacces) (s : InstState) :
    wp (InstM.op E kind f) (fun _ _ => True)
      (fun e _ => e = .fs .eacces → ∃ n, E.fault kind n = some .eacces) s := by
  apply wp_op
  · intro e he h
    cases h
    exact ⟨s.n, he⟩
  · intros; trivial
  · intro _ e s' hs h
    cases h
    exact absurd rfl (hf _ _ (by rw [hs]))

theorem statDir_denied (E : InstEnv) (dir : Str) (s : InstState) :
    wp (statDir E .stat dir) (fun _ _ => True) (fun e _ => e = .fs .eacces → Denied E) s := by
  refine wp_mono (op_denied (f := _) (fun s e h => ?_) s) (fun _ _ h => h)
    (fun _ _ h he => by obtain ⟨n, hn⟩ := h he; exact ⟨n, Or.inl hn⟩)
  dsimp only at h
  split at h
  · cases h
  · cases h; simp

theorem statFile_denied (E : InstEnv) (dir file : Str) (s : InstState) :
    wp (statFile E dir file) (fun _ _ => True) (fun e _ => e = .fs .eacces → Denied E) s := by
  refine wp_mono (op_denied (f := _) (fun s e h => ?_) s) (fun _ _ h => h)
    (fun _ _ h he => by obtain ⟨n, hn⟩ := h he; exact ⟨n, Or.inl hn⟩)
  split at h
  · cases h; simp
  · dsimp only at h
    split at h
    · cases h
    · cases h; simp

theorem mkdir_denied (E : InstEnv) (dir : Str) (s : InstState) :
    wp (mkdir E dir) (fun _ _ => True) (fun e _ => e = .fs .eacces → Denied E) s := by
  refine wp_mono (op_denied (f := _) (fun s e h => ?_) s) (fun _ _ h => h)
    (fun _ _ h he => by obtain ⟨n, hn⟩ := h he; exact ⟨n, Or.inr hn⟩)
  cases h

theorem once_goOrRollback {E : InstEnv} {argv : List Str} (rel : InstRelease) (dir : Str) (want : Bool)
    (fallback : InstErr → InstM Unit) (hf : ∀ e, e ≠ .fuel → Denied E → Once E argv (fallback e)) :
    Once E argv (goOrRollback E rel dir want fallback) := by
  have hgo : Once E argv (goInstall E rel dir want fallback) := by
    unfold goInstall
    refine Once.tryBind (calm_mkdir E dir) (fun e => e = .fs .eacces → Denied E)
      (mkdir_denied E dir) (fun _ => (calm_goBody E rel dir want).once) ?_
    intro e he hk
    dsimp only
    split
    · rename_i h; exact hf e he (hk h)
    · exact (Calm.fail he).once
  intro s
  unfold goOrRollback
  rw [wp_bind, wp_attempt]
  refine wp_mono (hgo s) (fun _ _ h => h) ?_
  rintro e s1 ⟨h1, he⟩
  refine wp_mono ((Calm.bind (calm_removeVersion E rel.versionDir) fun _ => Calm.fail he) s1)
    (fun _ _ h => h1.thenSame h) (fun _ _ h => ⟨h1.thenSame h.1, h.2⟩)

theorem once_ensureInstall {E : InstEnv} {argv : List Str} (rel : InstRelease) (dir : Str)
    (fallback : InstErr → InstM Unit) (hf : ∀ e, e ≠ .fuel → Denied E → Once E argv (fallback e)) :
    Once E argv (ensureInstall E rel dir fallback) := by
  unfold ensureInstall
  refine Once.tryBind (calm_statDir E _ dir) _ (statDir_denied E dir) (fun _ => ?_) ?_
  · dsimp only
    refine Once.tryBind (calm_readFile E dir _) (fun _ => True) (fun s => ?_) (fun t => ?_)
      (fun e he _ => ?_)
    · exact wp_mono (calm_readFile E dir _ s) (fun _ _ _ => trivial) (fun _ _ _ => trivial)
    all_goals
      refine Once.bind ?_ fun version => ?_
      · first
          | exact Calm.pure _
          | (dsimp only; split <;> first | exact Calm.pure _ | exact Calm.fail he)
      · split
        · exact once_goOrRollback rel dir true fallback hf
        · split
          · refine Once.tryBind (calm_statFile E dir _) _ (statFile_denied E dir _)
              (fun _ => (Calm.pure _).once) ?_
            intro e he hk
            dsimp only
            split
            · exact once_goOrRollback rel dir false fallback hf
            · split
              · rename_i h; exact hf e he (hk h)
              · exact (Calm.fail he).once
          · exact (Calm.pure _).once
  · intro e he hk
    dsimp only
    split
    · exact once_goOrRollback rel dir true fallback hf
    · split
      · rename_i h; exact hf e he (hk h)
      · exact (Calm.fail he).once

/-- One try in `s`, given what the fallback does. -/
theorem installRun_once_aux {E : InstEnv} (fuel : Nat) (argv : List Str)
    (hf : ∀ e, e ≠ .fuel → Denied E → Once E argv (eaccesFallback E argv (installRun E fuel) e))
    (s : InstState) :
    wp (installRun E (fuel + 1) argv)
      (fun _ s' => OneMore E argv { s with tries := s.tries + 1 } s')
      (fun e s' => OneMore E argv { s with tries := s.tries + 1 } s' ∧ e ≠ .fuel) s := by
  unfold wp
  rw [installRun]
  dsimp only
  by_cases h1 : (E.release argv).valid = false
  · rw [if_pos h1]; exact ⟨Or.inl ⟨rfl, rfl⟩, by simp⟩
  · rw [if_neg h1]
    by_cases h2 : (E.release argv).tooOld = true
    · rw [if_pos h2]; exact ⟨Or.inl ⟨rfl, rfl⟩, by simp⟩
    · rw [if_neg h2]
      by_cases h3 : (E.release argv).pre = true
      · rw [if_pos h3]
        by_cases h4 : E.nodedir = true
        · rw [if_pos h4]; exact Or.inl ⟨rfl, rfl⟩
        · rw [if_neg h4]; exact ⟨Or.inl ⟨rfl, rfl⟩, by simp⟩
      · rw [if_neg h3]
        by_cases h5 : E.ensure = true
        · rw [if_pos h5]
          exact once_ensureInstall _ _ _ hf _
        · rw [if_neg h5]
          exact once_goOrRollback _ _ _ _ hf _

/-- The retry itself is not retried. -/
theorem installRun_retry {E : InstEnv} (fuel : Nat) (argv : List Str) (h : noretryWord ∈ argv)
    (s : InstState) :
    wp (installRun E (fuel + 1) argv)
      (fun _ s' => s'.tries = s.tries + 1 ∧ s'.devDir = s.devDir)
      (fun e s' => (s'.tries = s.tries + 1 ∧ s'.devDir = s.devDir) ∧ e ≠ .fuel) s := by
  have hsame : ∀ s', OneMore E argv { s with tries := s.tries + 1 } s' →
      s'.tries = s.tries + 1 ∧ s'.devDir = s.devDir := by
    rintro s' (h' | ⟨-, -, h', -⟩)
    · exact h'
    · exact absurd h h'
  refine wp_mono (installRun_once_aux fuel argv ?_ s) (fun _ _ h => hsame _ h)
    (fun _ _ h => ⟨hsame _ h.1, h.2⟩)
  intro e he _
  unfold eaccesFallback
  rw [if_pos h]
  exact (Calm.fail he).once

theorem installRun_once {E : InstEnv} (fuel : Nat) (argv : List Str) (s : InstState) :
    wp (installRun E (fuel + 2) argv)
      (fun _ s' => OneMore E argv { s with tries := s.tries + 1 } s')
      (fun e s' => OneMore E argv { s with tries := s.tries + 1 } s' ∧ e ≠ .fuel) s := by
  refine installRun_once_aux (fuel + 1) argv ?_ s
  intro e he hd s
  unfold eaccesFallback
  split
  · exact ⟨Or.inl (SameTry.refl s), he⟩
  · rename_i hno
    rw [wp_bind, wp_upd, wp_bind, wp_upd]
    have hs : ∀ s', (s'.tries = (if E.cwd = E.tmpdir then
          { { s with devDir := E.tmpdir ++ c!"/.node-gyp" } with removes := s.removes ++ [argv] }
          else { s with devDir := E.tmpdir ++ c!"/.node-gyp" } : InstState).tries + 1 ∧
        s'.devDir = (if E.cwd = E.tmpdir then
          { { s with devDir := E.tmpdir ++ c!"/.node-gyp" } with removes := s.removes ++ [argv] }
          else { s with devDir := E.tmpdir ++ c!"/.node-gyp" } : InstState).devDir) →
        OneMore E argv s s' := by
      rintro s' ⟨h1, h2⟩
      refine Or.inr ⟨?_, ?_, hno, hd⟩
      · rw [h1]; split <;> rfl
      · rw [h2]; split <;> rfl
    exact wp_mono (installRun_retry fuel (noretryWord :: argv) List.mem_cons_self _)
      (fun _ s' h => hs s' h) (fun _ s' h => ⟨hs s' h.1, h.2⟩)

/-- The bound of the recursion does not matter. -/
theorem installRun_fuel {E : InstEnv} (fuel : Nat) (argv : List Str) :
    installRun E (fuel + 2) argv = installRun E 2 argv := by
  have hin : ∀ k argv, noretryWord ∈ argv → installRun E (k + 1) argv = installRun E 1 argv := by
    intro k argv h
    have : eaccesFallback E argv (installRun E k) = eaccesFallback E argv (installRun E 0) := by
      funext e
      unfold eaccesFallback
      rw [if_pos h, if_pos h]
    funext s
    rw [installRun, installRun, this]
  have : eaccesFallback E argv (installRun E (fuel + 1)) = eaccesFallback E argv (installRun E 1) := by
    funext e
    unfold eaccesFallback
    rw [hin fuel (noretryWord :: argv) List.mem_cons_self]
  funext s
  rw [installRun, this, installRun]

end Gyp
