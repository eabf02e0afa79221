import Verif.Proofs.InstallRetry
/-
C51 Install only keeps verified headers.
C52 An ensured install is skipped only when a complete one exists.
C53 Permission problems retry in the temporary directory at most once.

`installRun E 2 argv` is the command `install argv` in the world `E` (what the file system and the
network do); it starts in a state `startState`, with any directories and files.  The number 2
bounds the recursion of the model; C53_terminates shows that it is enough.
-/
namespace Gyp
open Spec

/-- The start of the program: nothing was done yet. -/
def startState (n : Nat) (devDir : Str) (disk : Disk) : InstState :=
  { n := n, devDir := devDir, disk := disk, tmp := [], removes := [], seen := [], got := [],
    sums := [], begun := [], tries := 0 }

/-- What `wp` says of a run. -/
theorem wp_run_ok {α : Type} {m : InstM α} {Q : α → InstState → Prop} {R : InstErr → InstState → Prop}
    {s s' : InstState} {a : α} (h : wp m Q R s) (hr : m s = (.ok a, s')) : Q a s' := by
  unfold wp at h; rw [hr] at h; exact h

theorem wp_run_err {α : Type} {m : InstM α} {Q : α → InstState → Prop} {R : InstErr → InstState → Prop}
    {s s' : InstState} {e : InstErr} (h : wp m Q R s) (hr : m s = (.error e, s')) : R e s' := by
  unfold wp at h; rw [hr] at h; exact h

/-! ### C51 -/

/-- After a successful install every downloaded file had the checksum that a downloaded list
publishes for it. -/
theorem C51_verified {E : InstEnv} (hne : ∀ a, (E.release a).tarballName ≠ (E.release a).libPath)
    (argv : List Str) (n : Nat) (devDir : Str) (disk : Disk) (s' : InstState)
    (hrun : installRun E 2 argv (startState n devDir disk) = (.ok (), s')) :
    ∀ d ∈ s'.got, Verified E s'.sums d := by
  intro d hd
  rcases (wp_run_ok (installRun_post hne 2 argv _) hrun).2 d hd with h | h
  · exact h
  · cases h

/-- Whatever the outcome, a file on disk was there before or has a known origin: the marker, a
header of the user's archive or of a downloaded one, or a download. -/
theorem C51_files {E : InstEnv} (hne : ∀ a, (E.release a).tarballName ≠ (E.release a).libPath)
    (argv : List Str) (n : Nat) (devDir : Str) (disk : Disk) (r : Except InstErr Unit) (s' : InstState)
    (hrun : installRun E 2 argv (startState n devDir disk) = (r, s')) (dir : Str) (fs : Files)
    (hfs : aget s'.disk dir = some fs) (file : Str × Str) (hf : file ∈ fs) :
    (∃ fs0, aget disk dir = some fs0 ∧ file ∈ fs0) ∨ FileFrom E s'.got file := by
  cases r with
  | ok a => exact (wp_run_ok (installRun_post hne 2 argv _) hrun).1.origin dir fs file hfs hf
  | error e => exact (wp_run_err (installRun_post hne 2 argv _) hrun).1.origin dir fs file hfs hf

/-- A successful install has done one of three things: nothing, for a pre-release with a given
source directory; nothing, because with `--ensure` the version is there; or it has put the
headers, the marker and the library of the version into its directory, and changed no other. -/
theorem C51_complete {E : InstEnv} (hpos : 0 < E.installVersion)
    (hne : ∀ a, (E.release a).tarballName ≠ (E.release a).libPath)
    (argv : List Str) (n : Nat) (devDir : Str) (disk : Disk) (s' : InstState)
    (hrun : installRun E 2 argv (startState n devDir disk) = (.ok (), s')) :
    ∃ a, (a = argv ∨ a = c!"--node_gyp_internal_noretry" :: argv) ∧
      (((E.release a).pre = true ∧ E.nodedir = true ∧ NothingDone (startState n devDir disk) s') ∨
       (E.ensure = true ∧ NothingDone (startState n devDir disk) s' ∧
          UpToDate E disk (s'.devDir ++ c!"/" ++ (E.release a).versionDir)) ∨
       InstalledNow E (E.release a) (s'.devDir ++ c!"/" ++ (E.release a).versionDir)
          (startState n devDir disk) s') := by
  obtain ⟨a, ha, h⟩ := wp_run_ok (installRun_done hpos hne 2 argv _) hrun
  refine ⟨a, ?_, ?_⟩
  · rcases ha with ha | ⟨-, ha⟩
    · exact Or.inl ha
    · exact Or.inr ha
  · have hv : ∀ v, s'.devDir ++ c!"/" ++ v = versionPath s'.devDir v := fun v => by
      unfold versionPath; simp
    rw [hv]
    rcases h with h | h | h
    · exact Or.inl h
    · exact Or.inr (Or.inl h)
    · exact Or.inr (Or.inr h.1)

/-- A failed install leaves no trace of itself, as long as directories can be removed: every
directory is as before or gone, and every directory an installation was begun in is gone. -/
theorem C51_failure {E : InstEnv} (hne : ∀ a, (E.release a).tarballName ≠ (E.release a).libPath)
    (hrm : RemovalWorks E) (argv : List Str) (n : Nat) (devDir : Str) (disk : Disk) (e : InstErr)
    (s' : InstState) (hrun : installRun E 2 argv (startState n devDir disk) = (.error e, s')) :
    (∀ dir, aget s'.disk dir = aget disk dir ∨ aget s'.disk dir = none) ∧
      ∀ dir ∈ s'.begun, aget s'.disk dir = none := by
  have h := (wp_run_err (installRun_post hne 2 argv _) hrun).2 hrm
  refine ⟨fun dir => (h dir).1, fun dir hd => ?_⟩
  rcases (h dir).2 hd with h' | h'
  · cases h'
  · exact h'

/-! ### C52 -/

/-- The proved part of C52: an ensured install (of a proper release) that has downloaded nothing
and begun nothing has found the version directory with a marker that records the current version
of the installer, or a later one; on Windows also the library.

Missing: an interrupted install is not always redone; see C52_interrupted. -/
theorem C52_skip_partial {E : InstEnv} (hpos : 0 < E.installVersion)
    (hne : ∀ a, (E.release a).tarballName ≠ (E.release a).libPath)
    (hpre : ∀ a, (E.release a).pre = false)
    (argv : List Str) (n : Nat) (devDir : Str) (disk : Disk) (s' : InstState)
    (hrun : installRun E 2 argv (startState n devDir disk) = (.ok (), s'))
    (hskip : s'.begun = []) :
    E.ensure = true ∧ NothingDone (startState n devDir disk) s' ∧
      ∃ a, (a = argv ∨ a = c!"--node_gyp_internal_noretry" :: argv) ∧
        UpToDate E disk (s'.devDir ++ c!"/" ++ (E.release a).versionDir) := by
  obtain ⟨a, ha, h⟩ := wp_run_ok (installRun_done hpos hne 2 argv _) hrun
  rcases h with h | h | h
  · rw [hpre a] at h; cases h.1
  · refine ⟨h.1, h.2.1, a, ?_, ?_⟩
    · rcases ha with ha | ⟨-, ha⟩
      · exact Or.inl ha
      · exact Or.inr ha
    · have := h.2.2
      unfold versionPath at this
      rw [show s'.devDir ++ c!"/" ++ (E.release a).versionDir =
        s'.devDir ++ '/' :: (E.release a).versionDir by simp]
      exact this
  · rw [h.2] at hskip; cases hskip

/-- The same the other way round: if the directory is missing, or has no marker or one of an older
version, an ensured install that succeeds has really installed. -/
theorem C52_redone_partial {E : InstEnv} (hpos : 0 < E.installVersion)
    (hne : ∀ a, (E.release a).tarballName ≠ (E.release a).libPath)
    (hpre : ∀ a, (E.release a).pre = false)
    (argv : List Str) (n : Nat) (devDir : Str) (disk : Disk) (s' : InstState)
    (hrun : installRun E 2 argv (startState n devDir disk) = (.ok (), s'))
    (hnot : ∀ a, ¬ UpToDate E disk (s'.devDir ++ c!"/" ++ (E.release a).versionDir)) :
    ∃ a, (a = argv ∨ a = c!"--node_gyp_internal_noretry" :: argv) ∧
      InstalledNow E (E.release a) (s'.devDir ++ c!"/" ++ (E.release a).versionDir)
        (startState n devDir disk) s' := by
  obtain ⟨a, ha, h⟩ := C51_complete hpos hne argv n devDir disk s' hrun
  refine ⟨a, ha, ?_⟩
  rcases h with h | h | h
  · rw [hpre a] at h; cases h.1
  · exact absurd h.2.2 (hnot a)
  · exact h

/-! ### C53 -/

/-- The installation ends after at most two tries: more recursion than two levels changes nothing,
and the bound of the model is never reached. -/
theorem C53_terminates (E : InstEnv) (k : Nat) (argv : List Str) (s : InstState) :
    installRun E (k + 2) argv s = installRun E 2 argv s ∧ (installRun E 2 argv s).1 ≠ .error .fuel := by
  refine ⟨by rw [installRun_fuel], ?_⟩
  intro h
  rcases hr : installRun E 2 argv s with ⟨r, s'⟩
  rw [hr] at h
  dsimp only at h
  subst h
  exact (wp_run_err (installRun_once 0 argv s) hr).2 rfl

/-- There is one try in the given directory or, only if access to a directory was denied, a second
one in the temporary directory. -/
theorem C53_once (E : InstEnv) (argv : List Str) (n : Nat) (devDir : Str) (disk : Disk)
    (r : Except InstErr Unit) (s' : InstState)
    (hrun : installRun E 2 argv (startState n devDir disk) = (r, s')) :
    (s'.tries = 1 ∧ s'.devDir = devDir) ∨
    (s'.tries = 2 ∧ s'.devDir = E.tmpdir ++ c!"/.node-gyp" ∧
      c!"--node_gyp_internal_noretry" ∉ argv ∧
      ∃ n, E.fault .stat n = some .eacces ∨ E.fault .mkdir n = some .eacces) := by
  have h : OneMore E argv { startState n devDir disk with tries := 1 } s' := by
    cases r with
    | ok a => exact wp_run_ok (Q := fun _ s' => OneMore E argv _ s') (installRun_once 0 argv _) hrun
    | error e => exact (wp_run_err (installRun_once 0 argv _) hrun).1
  rcases h with h | h
  · exact Or.inl h
  · exact Or.inr h

/-- Other errors are never retried. -/
theorem C53_other_errors (E : InstEnv) (argv : List Str) (n : Nat) (devDir : Str) (disk : Disk)
    (r : Except InstErr Unit) (s' : InstState)
    (hrun : installRun E 2 argv (startState n devDir disk) = (r, s'))
    (hacc : ∀ n, E.fault .stat n ≠ some .eacces ∧ E.fault .mkdir n ≠ some .eacces) :
    s'.tries = 1 ∧ s'.devDir = devDir := by
  rcases C53_once E argv n devDir disk r s' hrun with h | ⟨-, -, -, n, h⟩
  · exact h
  · rcases h with h | h
    · exact absurd h (hacc n).1
    · exact absurd h (hacc n).2

/-- A proper release that can be installed. -/
def Installable (rel : InstRelease) : Prop :=
  rel.valid = true ∧ rel.tooOld = false ∧ rel.pre = false

/-- The state in which the second try starts. -/
def retryState (E : InstEnv) (argv : List Str) (n : Nat) (disk : Disk) : InstState :=
  { startState (n + 1) (E.tmpdir ++ c!"/.node-gyp") disk with
    removes := if E.cwd = E.tmpdir then [argv] else [], tries := 1 }

theorem installRun_first {E : InstEnv} {argv : List Str} (fuel : Nat) (s : InstState)
    (hrel : Installable (E.release argv)) :
    installRun E (fuel + 1) argv s =
      if E.ensure = true then
        ensureInstall E (E.release argv) (versionPath s.devDir (E.release argv).versionDir)
          (eaccesFallback E argv (installRun E fuel)) { s with tries := s.tries + 1 }
      else goOrRollback E (E.release argv) (versionPath s.devDir (E.release argv).versionDir) true
          (eaccesFallback E argv (installRun E fuel)) { s with tries := s.tries + 1 } := by
  rw [installRun]
  obtain ⟨h1, h2, h3⟩ := hrel
  simp only [h1, h2, h3]
  simp

theorem op_fault {α : Type} {E : InstEnv} {kind : FsOp} {f : InstState → Except FsErr α × InstState}
    {s : InstState} {e : FsErr} (h : E.fault kind s.n = some e) :
    InstM.op E kind f s = (.error (.fs e), { s with n := s.n + 1 }) := by
  unfold InstM.op; rw [h]

theorem bind_run {α β : Type} (m : InstM α) (f : α → InstM β) (s : InstState) :
    (m >>= f) s = match m s with
      | (.ok a, s') => f a s'
      | (.error e, s') => (.error e, s') := rfl

theorem attempt_run {α : Type} (m : InstM α) (s : InstState) :
    InstM.attempt m s = (.ok (m s).1, (m s).2) := rfl

theorem fallback_run {E : InstEnv} {argv : List Str} {fuel : Nat} (e : InstErr) (n : Nat) (dir : Str)
    (disk : Disk) (h : noretryWord ∉ argv) :
    eaccesFallback E argv (installRun E fuel) e
        { startState (n + 1) dir disk with tries := 1 } =
      installRun E fuel (noretryWord :: argv) (retryState E argv n disk) := by
  unfold eaccesFallback
  rw [if_neg h]
  show installRun E fuel _ _ = _
  congr 1
  unfold retryState
  dsimp only
  split <;> rfl

/-- If the first access to the cache is denied, the install is tried again in the temporary
directory: it succeeds exactly if the second try does, and then with its result. -/
theorem C53_retries (E : InstEnv) (argv : List Str) (n : Nat) (devDir : Str) (disk : Disk)
    (hrel : Installable (E.release argv)) (hno : c!"--node_gyp_internal_noretry" ∉ argv)
    (hacc : (E.ensure = true ∧ E.fault .stat n = some .eacces) ∨
      (E.ensure = false ∧ E.fault .mkdir n = some .eacces)) (s' : InstState) :
    installRun E 2 argv (startState n devDir disk) = (.ok (), s') ↔
      installRun E 1 (c!"--node_gyp_internal_noretry" :: argv) (retryState E argv n disk) = (.ok (), s') := by
  rw [installRun_first 1 _ hrel]
  rcases hacc with ⟨h1, h2⟩ | ⟨h1, h2⟩
  · rw [if_pos h1]
    unfold ensureInstall
    rw [bind_run]
    have : InstM.attempt (statDir E .stat (versionPath (startState n devDir disk).devDir
        (E.release argv).versionDir)) { startState n devDir disk with tries := 1 } =
        (.ok (.error (.fs .eacces)), { startState (n + 1) devDir disk with tries := 1 }) := by
      unfold InstM.attempt statDir
      rw [op_fault (e := .eacces) h2]
      rfl
    rw [show (startState n devDir disk).tries + 1 = 1 from rfl, this]
    dsimp only
    rw [if_neg (by simp), if_pos rfl, fallback_run _ _ _ _ hno]
    rfl
  · rw [if_neg (by simp [h1])]
    have hm : mkdir E (versionPath (startState n devDir disk).devDir
        (E.release argv).versionDir) { startState n devDir disk with tries := 1 } =
        (.error (.fs .eacces), { startState (n + 1) devDir disk with tries := 1 }) := by
      unfold mkdir
      rw [op_fault (e := .eacces) h2]
      rfl
    have hgo : goInstall E (E.release argv) (versionPath (startState n devDir disk).devDir
        (E.release argv).versionDir) true (eaccesFallback E argv (installRun E 1))
        { startState n devDir disk with tries := 1 } =
        installRun E 1 (noretryWord :: argv) (retryState E argv n disk) := by
      unfold goInstall
      rw [bind_run, attempt_run, hm]
      dsimp only
      rw [if_pos rfl, fallback_run _ _ _ _ hno]
    unfold goOrRollback
    rw [bind_run, attempt_run, show (startState n devDir disk).tries + 1 = 1 from rfl, hgo]
    have hcase : ∀ x : Except InstErr Unit × InstState,
        ((match (Except.ok x.1, x.2) with
          | ((.ok r : Except InstErr (Except InstErr Unit)), s2) =>
            (match r with
              | .ok _ => pure ()
              | .error e => do removeVersion E (E.release argv).versionDir; InstM.fail e : InstM Unit) s2
          | (.error e, s2) => (.error e, s2)) = (.ok (), s')) ↔ x = (.ok (), s') := by
      rintro ⟨r, s2⟩
      cases r with
      | ok u => exact Iff.rfl
      | error e =>
        dsimp only
        rw [bind_run]
        rcases removeVersion E (E.release argv).versionDir s2 with ⟨r3, s3⟩
        cases r3 with
        | ok u =>
          constructor
          · intro h; have := congrArg Prod.fst h; cases this
          · intro h; have := congrArg Prod.fst h; cases this
        | error e' =>
          constructor
          · intro h; have := congrArg Prod.fst h; cases this
          · intro h; have := congrArg Prod.fst h; cases this
    exact hcase _


/-- If access to the cache and to the temporary directory is denied, the install fails with this
very error. -/
theorem C53_gives_up (E : InstEnv) (argv : List Str) (n : Nat) (devDir : Str) (disk : Disk)
    (hrel : Installable (E.release argv))
    (hrel' : Installable (E.release (c!"--node_gyp_internal_noretry" :: argv)))
    (hrm : RemovalWorks E)
    (hacc : ∀ n, E.fault .stat n = some .eacces ∧ E.fault .mkdir n = some .eacces) :
    (installRun E 2 argv (startState n devDir disk)).1 = .error (.fs .eacces) := by
  have hremove : ∀ v s, ∃ s1, removeVersion E v s = (.ok (), s1) := by
    intro v s
    show ∃ s1, (do
      let r ← InstM.attempt (statDir E .removeStat (versionPath s.devDir v))
      match r with
      | .error e => if e = InstErr.fs .enoent then pure () else InstM.fail e
      | .ok _ =>
        InstM.op E .rm fun s2 =>
          (.ok (), setDisk s2 (s2.disk.filter fun p => decide (p.1 ≠ versionPath s.devDir v))) : InstM Unit) s
        = (.ok (), s1)
    by_cases h : (aget s.disk (versionPath s.devDir v)).isSome = true
    · have hs : statDir E .removeStat (versionPath s.devDir v) s =
          (.ok (), { s with n := s.n + 1 }) := by
        unfold statDir InstM.op
        rw [(hrm _).1]
        dsimp only
        rw [if_pos h]
      rw [bind_run, attempt_run, hs]
      dsimp only
      unfold InstM.op
      rw [(hrm _).2]
      exact ⟨_, rfl⟩
    · have hs : statDir E .removeStat (versionPath s.devDir v) s =
          (.error (.fs .enoent), { s with n := s.n + 1 }) := by
        unfold statDir InstM.op
        rw [(hrm _).1]
        dsimp only
        rw [if_neg h]
      rw [bind_run, attempt_run, hs]
      exact ⟨_, rfl⟩
  have hroll : ∀ v e s, ((do removeVersion E v; InstM.fail e : InstM Unit) s).1 = .error e := by
    intro v e s
    obtain ⟨s1, h1⟩ := hremove v s
    rw [bind_run, h1]
    rfl
  -- one try with a fallback that fails like this
  have htry : ∀ argv fuel s, Installable (E.release argv) →
      (∀ s, (eaccesFallback E argv (installRun E fuel) (.fs .eacces) s).1 = .error (.fs .eacces)) →
      (installRun E (fuel + 1) argv s).1 = .error (.fs .eacces) := by
    intro argv fuel s hrel hf
    rw [installRun_first _ _ hrel]
    split
    · unfold ensureInstall
      rw [bind_run, attempt_run]
      unfold statDir
      rw [op_fault (hacc _).1]
      dsimp only
      rw [if_neg (by simp), if_pos rfl]
      exact hf _
    · unfold goOrRollback goInstall
      rw [bind_run, attempt_run, bind_run, attempt_run]
      unfold mkdir
      rw [op_fault (hacc _).2]
      dsimp only
      rw [if_pos rfl, hf]
      dsimp only
      exact hroll _ _ _
  by_cases hno : noretryWord ∈ argv
  · refine htry argv 1 _ hrel (fun s => ?_)
    unfold eaccesFallback
    rw [if_pos hno]; rfl
  · refine htry argv 1 _ hrel (fun s => ?_)
    unfold eaccesFallback
    rw [if_neg hno]
    refine htry (noretryWord :: argv) 0 _ hrel' (fun s => ?_)
    unfold eaccesFallback
    rw [if_pos List.mem_cons_self]; rfl

/-! ### Examples and witnesses -/

/-- Releases for the examples: `4` is asked for as first argument, else it is `10`. -/
def exRelease (argv : List Str) : InstRelease :=
  let v := if argv.head? = some c!"4" then c!"4" else c!"10"
  { valid := true, tooOld := false, pre := false, versionDir := v, name := c!"node",
    tarballUrl := c!"u/" ++ v ++ c!".tgz", tarballName := v ++ c!".tgz", shasumsUrl := c!"u/sums",
    libUrl := c!"u/lib", libPath := c!"win/node.lib" }

/-- A world for the examples: the archive has one header and one other file. -/
def exEnv (sums : Str) (ensure : Bool) (fault : FsOp → Nat → Option FsErr) : InstEnv :=
  { win := false, ensure := ensure, nodedir := false, tarball := none, arch := c!"x64",
    installVersion := 11, tmpdir := c!"/tmp", cwd := c!"/w", release := exRelease, fault := fault,
    net := fun _ url => if url = c!"u/sums" then .body sums else .body c!"tar",
    digest := fun s => s, untar := fun _ => ([(c!"include/a.h", c!"A"), (c!"README", c!"R")], false) }

def exGood : InstEnv := exEnv c!"tar  4.tgz\ntar  10.tgz\n" false fun _ _ => none

theorem exRelease_ne (argv : List Str) : (exRelease argv).tarballName ≠ (exRelease argv).libPath := by
  unfold exRelease
  dsimp only
  split <;> decide

/-- A proper install: the hypotheses of C51_verified and C51_complete. -/
example : ∃ s', installRun exGood 2 [c!"4"] (startState 0 c!"/c" []) = (.ok (), s') ∧
    s'.disk = [(c!"/c/4", [(c!"include/a.h", c!"A"), (c!"installVersion", c!"11\n")])] ∧
    s'.got = [(c!"4.tgz", c!"tar")] :=
  ⟨(installRun exGood 2 [c!"4"] (startState 0 c!"/c" [])).2, by decide +kernel⟩

/-- A wrong checksum: the hypotheses of C51_failure. -/
example : ∃ s', installRun (exEnv c!"bad  4.tgz" false fun _ _ => none) 2 [c!"4"]
      (startState 0 c!"/c" []) = (.error (.checksum c!"4.tgz"), s') ∧
    s'.begun = [c!"/c/4"] ∧ s'.disk = [] :=
  ⟨(installRun (exEnv c!"bad  4.tgz" false fun _ _ => none) 2 [c!"4"] (startState 0 c!"/c" [])).2,
    by decide +kernel⟩

example : RemovalWorks exGood := fun _ => ⟨rfl, rfl⟩

/-- The marker is written before the checksums are verified: a crash in between (one of the states
the disk goes through in a run that is about to fail) leaves a directory with unverified headers
that a later ensured install accepts without downloading anything. -/
theorem C52_interrupted :
    ∃ s1 s2 crashed,
      installRun (exEnv c!"bad  4.tgz" true fun _ _ => none) 2 [c!"4"] (startState 0 c!"/c" []) =
        (.error (.checksum c!"4.tgz"), s1) ∧ crashed ∈ s1.seen ∧
      installRun (exEnv c!"bad  4.tgz" true fun _ _ => none) 2 [c!"4"] (startState 0 c!"/c" crashed) =
        (.ok (), s2) ∧ s2.got = [] ∧
      aget s2.disk c!"/c/4" = some [(c!"include/a.h", c!"A"), (c!"installVersion", c!"11\n")] :=
  ⟨(installRun (exEnv c!"bad  4.tgz" true fun _ _ => none) 2 [c!"4"] (startState 0 c!"/c" [])).2,
   (installRun (exEnv c!"bad  4.tgz" true fun _ _ => none) 2 [c!"4"] (startState 0 c!"/c"
      [(c!"/c/4", [(c!"include/a.h", c!"A"), (c!"installVersion", c!"11\n")])])).2,
   [(c!"/c/4", [(c!"include/a.h", c!"A"), (c!"installVersion", c!"11\n")])],
   by decide +kernel⟩

/-- An ensured install that is skipped: the hypotheses of C52_skip_partial. -/
example : ∃ s', installRun (exEnv [] true fun _ _ => none) 2 [c!"4"]
      (startState 0 c!"/c" [(c!"/c/4", [(c!"installVersion", c!"11\n")])]) = (.ok (), s') ∧
    s'.begun = [] ∧ s'.got = [] :=
  ⟨(installRun (exEnv [] true fun _ _ => none) 2 [c!"4"]
      (startState 0 c!"/c" [(c!"/c/4", [(c!"installVersion", c!"11\n")])])).2, by decide +kernel⟩

/-- An ensured install of an older directory that is redone: the hypotheses of
C52_redone_partial. -/
example : ∃ s', installRun (exEnv c!"tar  4.tgz" true fun _ _ => none) 2 [c!"4"]
      (startState 0 c!"/c" [(c!"/c/4", [(c!"installVersion", c!"9\n")])]) = (.ok (), s') ∧
    s'.begun = [c!"/c/4"] ∧ s'.got = [(c!"4.tgz", c!"tar")] :=
  ⟨(installRun (exEnv c!"tar  4.tgz" true fun _ _ => none) 2 [c!"4"]
      (startState 0 c!"/c" [(c!"/c/4", [(c!"installVersion", c!"9\n")])])).2, by decide +kernel⟩

/-- Access is denied at first. -/
def exDenied : InstEnv :=
  exEnv c!"tar  4.tgz\ntar  10.tgz\n" false fun op n => if op = .mkdir ∧ n = 0 then some .eacces else none

/-- The second try does not install the version that was asked for: the retry puts its own word
before the arguments, and the version is read from the first one. -/
theorem C53_forgets_version :
    ∃ s', installRun exDenied 2 [c!"4"] (startState 0 c!"/c" []) = (.ok (), s') ∧ s'.tries = 2 ∧
      s'.disk = [(c!"/tmp/.node-gyp/10",
        [(c!"include/a.h", c!"A"), (c!"installVersion", c!"11\n")])] :=
  ⟨(installRun exDenied 2 [c!"4"] (startState 0 c!"/c" [])).2, by decide +kernel⟩

/-- The hypotheses of C53_retries and C53_gives_up. -/
example : Installable (exDenied.release [c!"4"]) ∧ exDenied.ensure = false ∧
    exDenied.fault .mkdir 0 = some .eacces :=
  ⟨⟨rfl, rfl, rfl⟩, rfl, rfl⟩

example : RemovalWorks (exEnv [] true fun op _ => if op = .stat ∨ op = .mkdir then some .eacces else none) :=
  fun _ => ⟨rfl, rfl⟩

end Gyp
