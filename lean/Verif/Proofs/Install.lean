import Verif.Model.Install
import Verif.Props.Shasums
import Verif.Spec.Install
/-
Reasoning about installations.
-/
namespace Gyp
open Spec

/-- `m` started in `s` ends with `Q`, or fails with `R`. -/
def wp {α : Type} (m : InstM α) (Q : α → InstState → Prop) (R : InstErr → InstState → Prop)
    (s : InstState) : Prop :=
  match m s with
  | (.ok a, s') => Q a s'
  | (.error e, s') => R e s'

theorem wp_mono {α : Type} {m : InstM α} {Q Q' : α → InstState → Prop}
    {R R' : InstErr → InstState → Prop} {s : InstState} (h : wp m Q R s)
    (hQ : ∀ a s, Q a s → Q' a s) (hR : ∀ e s, R e s → R' e s) : wp m Q' R' s := by
  unfold wp at h ⊢
  rcases hm : m s with ⟨r, s'⟩
  rw [hm] at h
  cases r with
  | ok a => exact hQ a s' h
  | error e => exact hR e s' h

theorem wp_and {α : Type} {m : InstM α} {Q Q' : α → InstState → Prop}
    {R R' : InstErr → InstState → Prop} {s : InstState} (h : wp m Q R s) (h' : wp m Q' R' s) :
    wp m (fun a s => Q a s ∧ Q' a s) (fun e s => R e s ∧ R' e s) s := by
  unfold wp at h h' ⊢
  rcases hm : m s with ⟨r, s'⟩
  rw [hm] at h h'
  cases r with
  | ok a => exact ⟨h, h'⟩
  | error e => exact ⟨h, h'⟩

theorem wp_pure {α : Type} (a : α) (Q : α → InstState → Prop) (R : InstErr → InstState → Prop)
    (s : InstState) : wp (pure a : InstM α) Q R s ↔ Q a s := Iff.rfl

theorem wp_fail {α : Type} (e : InstErr) (Q : α → InstState → Prop) (R : InstErr → InstState → Prop)
    (s : InstState) : wp (InstM.fail e : InstM α) Q R s ↔ R e s := Iff.rfl

theorem wp_bind {α β : Type} (m : InstM α) (f : α → InstM β) (Q : β → InstState → Prop)
    (R : InstErr → InstState → Prop) (s : InstState) :
    wp (m >>= f) Q R s ↔ wp m (fun a s' => wp (f a) Q R s') R s := by
  unfold wp
  show (match (match m s with
    | (.ok a, s') => f a s'
    | (.error e, s') => (.error e, s')) with
    | (.ok a, s') => Q a s'
    | (.error e, s') => R e s') ↔ _
  rcases m s with ⟨r, s'⟩
  cases r <;> rfl

theorem wp_attempt {α : Type} (m : InstM α) (Q : Except InstErr α → InstState → Prop)
    (R : InstErr → InstState → Prop) (s : InstState) :
    wp (InstM.attempt m) Q R s ↔ wp m (fun a s' => Q (.ok a) s') (fun e s' => Q (.error e) s') s := by
  unfold wp InstM.attempt
  simp only
  rcases m s with ⟨r, s'⟩
  cases r <;> rfl

theorem wp_op {α : Type} (E : InstEnv) (kind : FsOp) (f : InstState → Except FsErr α × InstState)
    (Q : α → InstState → Prop) (R : InstErr → InstState → Prop) (s : InstState)
    (h1 : ∀ e, E.fault kind s.n = some e → R (.fs e) { s with n := s.n + 1 })
    (h2 : E.fault kind s.n = none → ∀ a s', f { s with n := s.n + 1 } = (.ok a, s') → Q a s')
    (h3 : E.fault kind s.n = none → ∀ e s', f { s with n := s.n + 1 } = (.error e, s') → R (.fs e) s') :
    wp (InstM.op E kind f) Q R s := by
  unfold wp InstM.op
  cases hf : E.fault kind s.n with
  | some e => simp only; exact h1 e hf
  | none =>
    simp only
    rcases hr : f { s with n := s.n + 1 } with ⟨r, s'⟩
    cases r with
    | ok a => exact h2 hf a s' hr
    | error e => exact h3 hf e s' hr

theorem wp_upd (g : InstState → InstState) (Q : Unit → InstState → Prop)
    (R : InstErr → InstState → Prop) (s : InstState) :
    wp (InstM.upd g) Q R s ↔ Q () (g s) := Iff.rfl

/-! ### Headers -/

theorem validMember_iff (f : Str) : validMember f = true ↔ IsHeader f := by
  have hext : ∀ (base e : Str), '.' ∉ e →
      ((match rsplit1 '.' base with
        | none => []
        | some ([], _) => []
        | some (_, e) => '.' :: e) = '.' :: e ↔ ∃ stem, stem ≠ [] ∧ base = stem ++ '.' :: e) := by
    intro base e he
    cases h : rsplit1 '.' base with
    | none =>
      simp only
      constructor
      · intro h; cases h
      · rintro ⟨stem, -, rfl⟩
        have := rsplit1_none_iff.mp h
        exact absurd (by simp) this
    | some p =>
      obtain ⟨a, b⟩ := p
      obtain ⟨hb, hd⟩ := rsplit1_some h
      cases a with
      | nil =>
        simp only
        constructor
        · intro h; cases h
        · rintro ⟨stem, hs, hbase⟩
          rw [hbase, rsplit1_append he] at h
          simp only [Option.some.injEq, Prod.mk.injEq] at h
          exact absurd h.1 hs
      | cons x a =>
        simp only [List.cons.injEq, true_and]
        constructor
        · rintro rfl; exact ⟨x :: a, by simp, hb⟩
        · rintro ⟨stem, hs, hbase⟩
          rw [hbase, rsplit1_append he] at h
          simp only [Option.some.injEq, Prod.mk.injEq] at h
          exact h.2.symm
  have hbase : ∀ (P : Str → Prop),
      P (match rsplit1 '/' f with | some (_, b) => b | none => f) ↔
        ∃ p b, (f = b ∨ f = p ++ '/' :: b) ∧ '/' ∉ b ∧ P b := by
    intro P
    cases h : rsplit1 '/' f with
    | none =>
      simp only
      have hn := rsplit1_none_iff.mp h
      constructor
      · intro hp; exact ⟨[], f, Or.inl rfl, hn, hp⟩
      · rintro ⟨p, b, rfl | rfl, -, hp⟩
        · exact hp
        · exact absurd (by simp) hn
    | some q =>
      obtain ⟨a, b⟩ := q
      obtain ⟨hf, hb⟩ := rsplit1_some h
      simp only
      constructor
      · intro hp; exact ⟨a, b, Or.inr hf, hb, hp⟩
      · rintro ⟨p, b', rfl | rfl, hb', hp⟩
        · rw [rsplit1_none_iff.mpr hb'] at h; cases h
        · rw [rsplit1_append hb'] at h
          simp only [Option.some.injEq, Prod.mk.injEq] at h
          rw [← h.2]; exact hp
  unfold validMember IsHeader jsExtname
  simp only [Bool.or_eq_true, decide_eq_true_eq]
  have h1 := fun b => hext b c!"h" (by decide)
  have h2 := fun b => hext b c!"gypi" (by decide)
  rw [show c!".h" = '.' :: c!"h" from rfl, show c!".gypi" = '.' :: c!"gypi" from rfl]
  refine (or_congr (h1 _) (h2 _)).trans ?_
  have := hbase (fun base => (∃ stem, stem ≠ [] ∧ base = stem ++ '.' :: c!"h") ∨
    ∃ stem, stem ≠ [] ∧ base = stem ++ '.' :: c!"gypi")
  refine this.trans ?_
  constructor
  · rintro ⟨p, b, hf, hb, ⟨stem, hs, e⟩ | ⟨stem, hs, e⟩⟩
    · exact ⟨p, b, stem, hf, hb, hs, Or.inl e⟩
    · exact ⟨p, b, stem, hf, hb, hs, Or.inr e⟩
  · rintro ⟨p, b, stem, hf, hb, hs, e | e⟩
    · exact ⟨p, b, hf, hb, Or.inl ⟨stem, hs, e⟩⟩
    · exact ⟨p, b, hf, hb, Or.inr ⟨stem, hs, e⟩⟩

theorem mem_aset_str {d : Files} {k v : Str} {p : Str × Str} (h : p ∈ aset d k v) :
    p = (k, v) ∨ p ∈ d := by
  induction d with
  | nil => exact Or.inl (by simpa [aset] using h)
  | cons r d ih =>
    unfold aset at h
    by_cases hr : r.1 = k
    · rw [if_pos hr] at h
      rcases List.mem_cons.mp h with h | h
      · exact Or.inl h
      · exact Or.inr (by simp [h])
    · rw [if_neg hr] at h
      rcases List.mem_cons.mp h with h | h
      · exact Or.inr (by simp [h])
      · rcases ih h with h | h
        · exact Or.inl h
        · exact Or.inr (by simp [h])

/-! ### The invariant of `go` -/

theorem FileFrom_mono {E : InstEnv} {got got' : List (Str × Str)} (h : ∀ x ∈ got, x ∈ got')
    {p : Str × Str} (hp : FileFrom E got p) : FileFrom E got' p := by
  rcases hp with h1 | h1 | ⟨d, hd, h1⟩
  · exact Or.inl h1
  · exact Or.inr (Or.inl h1)
  · exact Or.inr (Or.inr ⟨d, h d hd, h1⟩)

/-- What holds while the files are put into `dir`, relative to the state `s0` before. -/
structure GoInv (E : InstEnv) (s0 : InstState) (dir : Str) (s : InstState) : Prop where
  devDir : s.devDir = s0.devDir
  begun : s.begun = s0.begun
  removes : s.removes = s0.removes
  tries : s.tries = s0.tries
  frame : ∀ d, d ≠ dir → aget s.disk d = aget s0.disk d
  origin : ∀ fs p, aget s.disk dir = some fs → p ∈ fs →
    (∃ fs0, aget s0.disk dir = some fs0 ∧ p ∈ fs0) ∨ FileFrom E s.got p
  tmp : ∀ p ∈ s.tmp, FileFrom E s.got p
  gotM : ∀ x ∈ s0.got, x ∈ s.got
  sumsM : ∀ x ∈ s0.sums, x ∈ s.sums

/-- Nothing new was downloaded. -/
def SameNet (s s' : InstState) : Prop := s'.got = s.got ∧ s'.sums = s.sums

theorem GoInv.tick {E : InstEnv} {s0 s : InstState} {dir : Str} (h : GoInv E s0 dir s) :
    GoInv E s0 dir { s with n := s.n + 1 } :=
  ⟨h.devDir, h.begun, h.removes, h.tries, h.frame, h.origin, h.tmp, h.gotM, h.sumsM⟩

theorem GoInv.got {E : InstEnv} {s0 s : InstState} {dir : Str} (h : GoInv E s0 dir s)
    (p : Str × Str) : GoInv E s0 dir { s with got := p :: s.got } := by
  refine ⟨h.devDir, h.begun, h.removes, h.tries, h.frame, ?_, ?_,
    fun x hx => List.mem_cons_of_mem _ (h.gotM x hx), h.sumsM⟩
  · intro fs q h1 h2
    rcases h.origin fs q h1 h2 with h3 | h3
    · exact Or.inl h3
    · exact Or.inr (FileFrom_mono (fun x hx => List.mem_cons_of_mem _ hx) h3)
  · intro q hq
    exact FileFrom_mono (fun x hx => List.mem_cons_of_mem _ hx) (h.tmp q hq)

theorem GoInv.sums {E : InstEnv} {s0 s : InstState} {dir : Str} (h : GoInv E s0 dir s)
    (t : Str) : GoInv E s0 dir { s with sums := t :: s.sums } :=
  ⟨h.devDir, h.begun, h.removes, h.tries, h.frame, h.origin, h.tmp, h.gotM,
    fun x hx => List.mem_cons_of_mem _ (h.sumsM x hx)⟩

theorem GoInv.write {E : InstEnv} {s0 s : InstState} {dir : Str} (h : GoInv E s0 dir s)
    {fs : Files} (hfs : aget s.disk dir = some fs) {f c : Str} (hp : FileFrom E s.got (f, c)) :
    GoInv E s0 dir (setDisk s (aset s.disk dir (aset fs f c))) := by
  refine ⟨h.devDir, h.begun, h.removes, h.tries, ?_, ?_, h.tmp, h.gotM, h.sumsM⟩
  · intro d hd
    show aget (aset s.disk dir _) d = _
    rw [aget_aset, if_neg hd]; exact h.frame d hd
  · intro fs' q h1 h2
    have h1' : aget (aset s.disk dir (aset fs f c)) dir = some fs' := h1
    rw [aget_aset, if_pos rfl] at h1'
    rw [← Option.some.inj h1'] at h2
    rcases mem_aset_str h2 with rfl | h2
    · exact Or.inr hp
    · exact h.origin fs q hfs h2

theorem GoInv.writeTmp {E : InstEnv} {s0 s : InstState} {dir : Str} (h : GoInv E s0 dir s)
    {f c : Str} (hp : FileFrom E s.got (f, c)) :
    GoInv E s0 dir { s with tmp := aset s.tmp f c } := by
  refine ⟨h.devDir, h.begun, h.removes, h.tries, h.frame, h.origin, ?_, h.gotM, h.sumsM⟩
  intro q hq
  rcases mem_aset_str hq with rfl | hq
  · exact hp
  · exact h.tmp q hq

theorem putFile_inv {E : InstEnv} {s0 s : InstState} {dir : Str} (h : GoInv E s0 dir s)
    (kind : FsOp) {f c : Str} (hp : FileFrom E s.got (f, c)) :
    wp (putFile E kind dir f c) (fun _ s' => GoInv E s0 dir s' ∧ SameNet s s')
      (fun _ s' => GoInv E s0 dir s' ∧ SameNet s s') s := by
  unfold putFile
  apply wp_op
  · intro e _; exact ⟨h.tick, rfl, rfl⟩
  · intro _ a s' hs
    by_cases hw : E.win = true
    · rw [if_pos hw] at hs
      cases hs
      exact ⟨h.tick.writeTmp hp, rfl, rfl⟩
    · rw [if_neg hw] at hs
      split at hs
      · cases hs
      · rename_i fs hfs
        cases hs
        exact ⟨h.tick.write hfs hp, rfl, rfl⟩
  · intro _ e s' hs
    by_cases hw : E.win = true
    · rw [if_pos hw] at hs; cases hs
    · rw [if_neg hw] at hs
      split at hs
      · cases hs; exact ⟨h.tick, rfl, rfl⟩
      · cases hs

theorem fetch_inv {E : InstEnv} {s0 s : InstState} {dir : Str} (h : GoInv E s0 dir s) (url : Str) :
    wp (fetch E url) (fun _ s' => GoInv E s0 dir s' ∧ SameNet s s')
      (fun _ s' => GoInv E s0 dir s' ∧ SameNet s s') s := by
  unfold fetch
  rw [wp_bind]
  apply wp_op
  · intro e _; exact ⟨h.tick, rfl, rfl⟩
  · intro _ a s' hs
    cases hs
    split
    · exact ⟨h.tick, rfl, rfl⟩
    · exact ⟨h.tick, rfl, rfl⟩
  · intro _ e s' hs; cases hs

theorem extractAll_inv {E : InstEnv} {s0 : InstState} {dir : Str} :
    ∀ (ms : Files) (s : InstState), GoInv E s0 dir s →
      (∀ p ∈ ms, IsHeader p.1 → FileFrom E s.got p) →
      wp (extractAll E dir ms) (fun _ s' => GoInv E s0 dir s' ∧ SameNet s s')
        (fun _ s' => GoInv E s0 dir s' ∧ SameNet s s') s
  | [], s, h, _ => ⟨h, rfl, rfl⟩
  | (f, c) :: rest, s, h, hp => by
    unfold extractAll
    by_cases hv : validMember f = true
    · rw [if_pos hv, wp_bind]
      refine wp_mono (putFile_inv h .extract (hp (f, c) (by simp) ((validMember_iff f).mp hv))) ?_
        (fun _ _ h => h)
      rintro - s1 ⟨h1, e1, e2⟩
      rw [wp_bind]
      refine wp_mono (extractAll_inv rest s1 h1 ?_) ?_ ?_
      · intro p hpm hh; rw [e1]; exact hp p (by simp [hpm]) hh
      · rintro k s2 ⟨h2, e3, e4⟩
        exact ⟨h2, e3.trans e1, e4.trans e2⟩
      · rintro k s2 ⟨h2, e3, e4⟩
        exact ⟨h2, e3.trans e1, e4.trans e2⟩
    · rw [if_neg hv]
      exact extractAll_inv rest s h (fun p hpm => hp p (by simp [hpm]))

/-- What is known about the downloads in progress: everything but what was there in `s0` and
what `content` still has to verify is verified, and `content` is only filled if checksums will be
downloaded. -/
structure NetInv (E : InstEnv) (s0 : InstState) (content : List (Str × Str)) (s : InstState) :
    Prop where
  pending : ∀ d ∈ s.got, Verified E s.sums d ∨ d ∈ s0.got ∨ (d.1, E.digest d.2) ∈ content
  filled : content ≠ [] → E.tarball = none ∨ E.win = true
  sums : ∀ t ∈ s0.sums, t ∈ s.sums

theorem NetInv.same {E : InstEnv} {s0 : InstState} {content : List (Str × Str)} {s s' : InstState}
    (h : NetInv E s0 content s) (e : SameNet s s') : NetInv E s0 content s' := by
  refine ⟨?_, h.filled, ?_⟩
  · intro d hd
    rw [e.1] at hd
    rw [e.2]; exact h.pending d hd
  · rw [e.2]; exact h.sums

theorem getTarball_inv {E : InstEnv} {s0 s : InstState} {dir : Str} (rel : InstRelease)
    (h : GoInv E s0 dir s) (hn : NetInv E s0 [] s) :
    wp (getTarball E rel dir)
      (fun content s' => GoInv E s0 dir s' ∧ NetInv E s0 content s' ∧
        (content = [] ∨ ∃ d, content = [(rel.tarballName, d)]))
      (fun _ s' => GoInv E s0 dir s') s := by
  unfold getTarball
  cases ht : E.tarball with
  | some bytes =>
    simp only
    rw [wp_bind]
    refine wp_mono (extractAll_inv _ s h ?_) ?_ (fun _ _ h => h.1)
    · intro p hp hh; exact Or.inr (Or.inl ⟨bytes, ht, hp, hh⟩)
    · rintro k s1 ⟨h1, e⟩
      split
      · exact h1
      · exact ⟨h1, hn.same e, Or.inl rfl⟩
  | none =>
    simp only
    rw [wp_bind]
    refine wp_mono (fetch_inv h _) ?_ (fun _ _ h => h.1)
    rintro bytes s1 ⟨h1, e1⟩
    rw [wp_bind, wp_upd, wp_bind]
    refine wp_mono (extractAll_inv _ _ (h1.got _) ?_) ?_ (fun _ _ h => h.1)
    · intro p hp hh
      exact Or.inr (Or.inr ⟨_, List.mem_cons_self, Or.inl ⟨hp, hh⟩⟩)
    · rintro k s2 ⟨h2, e2⟩
      split
      · exact h2
      · refine ⟨h2, ⟨?_, fun _ => Or.inl ht, ?_⟩, Or.inr ⟨_, rfl⟩⟩
        · intro d hd
          rw [e2.1] at hd
          rcases List.mem_cons.mp hd with rfl | hd
          · exact Or.inr (Or.inr (by simp))
          · rcases (hn.same e1).pending d hd with h | h | h
            · exact Or.inl (by rw [e2.2]; exact h)
            · exact Or.inr (Or.inl h)
            · cases h
        · rw [e2.2]; exact (hn.same e1).sums

theorem getNodeLib_inv {E : InstEnv} {s0 s : InstState} {dir : Str} (rel : InstRelease)
    {content : List (Str × Str)} (hne : rel.tarballName ≠ rel.libPath) (hw : E.win = true)
    (h : GoInv E s0 dir s) (hn : NetInv E s0 content s)
    (hc : content = [] ∨ ∃ d, content = [(rel.tarballName, d)]) :
    wp (getNodeLib E rel dir content)
      (fun content s' => GoInv E s0 dir s' ∧ NetInv E s0 content s')
      (fun _ s' => GoInv E s0 dir s') s := by
  unfold getNodeLib
  rw [wp_bind]
  refine wp_mono (fetch_inv h _) ?_ (fun _ _ h => h.1)
  rintro bytes s1 ⟨h1, e1⟩
  rw [wp_bind, wp_upd, wp_bind]
  refine wp_mono (putFile_inv (h1.got _) .write (Or.inr (Or.inr ⟨_, List.mem_cons_self, Or.inr rfl⟩)))
    ?_ (fun _ _ h => h.1)
  rintro - s2 ⟨h2, e2⟩
  rw [wp_pure]
  have hset : aset content rel.libPath (E.digest bytes) = content ++ [(rel.libPath, E.digest bytes)] := by
    apply aset_new
    rcases hc with rfl | ⟨d, rfl⟩
    · simp [akeys]
    · simpa [akeys] using fun e => hne e.symm
  refine ⟨h2, ?_, fun _ => Or.inr hw, ?_⟩
  · intro d hd
    rw [e2.1] at hd
    rw [hset]
    rcases List.mem_cons.mp hd with rfl | hd
    · exact Or.inr (Or.inr (by simp))
    · rcases (hn.same e1).pending d hd with h | h | h
      · exact Or.inl (by rw [e2.2]; exact h)
      · exact Or.inr (Or.inl h)
      · exact Or.inr (Or.inr (by simp [h]))
  · rw [e2.2]; exact (hn.same e1).sums

theorem verifySums_ok {E : InstEnv} (expect : List (Str × Str)) : ∀ (content : List (Str × Str))
    (s : InstState) (I : InstState → Prop), I s →
    wp (verifySums expect content)
      (fun _ s' => s' = s ∧ ∀ p ∈ content, aget expect p.1 = some p.2) (fun _ s' => I s') s
  | [], s, I, _ => ⟨rfl, by simp⟩
  | (k, d) :: rest, s, I, hI => by
    unfold verifySums
    by_cases h : aget expect k = some d
    · rw [if_pos h]
      refine wp_mono (verifySums_ok (E := E) expect rest s I hI) ?_ (fun _ _ h => h)
      rintro - s' ⟨rfl, hr⟩
      refine ⟨rfl, ?_⟩
      intro p hp
      rcases List.mem_cons.mp hp with rfl | hp
      · exact h
      · exact hr p hp
    · rw [if_neg h]; exact hI

theorem statFile_same {E : InstEnv} {s : InstState} (dir file : Str) (I : InstState → Prop)
    (hI : I { s with n := s.n + 1 }) :
    wp (statFile E dir file) (fun _ s' => I s') (fun _ s' => I s') s := by
  unfold statFile
  apply wp_op
  · intro e _; exact hI
  · intro _ a s' hs
    split at hs
    · cases hs
    · have := congrArg Prod.snd hs
      simp only at this
      rw [← this]; exact hI
  · intro _ a s' hs
    split at hs
    · have := congrArg Prod.snd hs
      simp only at this
      rw [← this]; exact hI
    · have := congrArg Prod.snd hs
      simp only at this
      rw [← this]; exact hI

theorem copyAll_inv {E : InstEnv} {s0 : InstState} {dir : Str} :
    ∀ (fs : Files) (s : InstState), GoInv E s0 dir s → (∀ p ∈ fs, FileFrom E s.got p) →
      wp (copyAll E dir fs) (fun _ s' => GoInv E s0 dir s' ∧ SameNet s s')
        (fun _ s' => GoInv E s0 dir s' ∧ SameNet s s') s
  | [], s, h, _ => ⟨h, rfl, rfl⟩
  | (f, c) :: rest, s, h, hp => by
    unfold copyAll
    rw [wp_bind, wp_attempt]
    have hgo : ∀ s1, GoInv E s0 dir s1 ∧ SameNet s s1 →
        wp (copyAll E dir rest) (fun _ s' => GoInv E s0 dir s' ∧ SameNet s s')
          (fun _ s' => GoInv E s0 dir s' ∧ SameNet s s') s1 := by
      rintro s1 ⟨h1, e1⟩
      refine wp_mono (copyAll_inv rest s1 h1 ?_) ?_ ?_
      · intro p hpm; rw [e1.1]; exact hp p (by simp [hpm])
      · rintro - s2 ⟨h2, e2⟩; exact ⟨h2, e2.1.trans e1.1, e2.2.trans e1.2⟩
      · rintro - s2 ⟨h2, e2⟩; exact ⟨h2, e2.1.trans e1.1, e2.2.trans e1.2⟩
    have herr : ∀ (e : InstErr) s1, GoInv E s0 dir s1 ∧ SameNet s s1 →
        wp (match (Except.error e : Except InstErr Unit) with
          | .ok _ => copyAll E dir rest
          | .error e =>
            if E.ensure = true ∧ e = .fs .ebusy then do
              let x ← InstM.attempt (statFile E dir f)
              match x with
              | .ok _ => copyAll E dir rest
              | .error _ => InstM.fail e
            else InstM.fail e) (fun _ s' => GoInv E s0 dir s' ∧ SameNet s s')
          (fun _ s' => GoInv E s0 dir s' ∧ SameNet s s') s1 := by
      intro e s1 h1
      simp only
      split
      · rw [wp_bind, wp_attempt]
        refine wp_mono (statFile_same dir f (fun s' => GoInv E s0 dir s' ∧ SameNet s s')
          ⟨h1.1.tick, h1.2⟩) ?_ ?_
        · rintro - s2 h2; exact hgo s2 h2
        · rintro - s2 h2; exact h2
      · exact h1
    apply wp_op
    · intro e _; exact herr _ _ ⟨h.tick, rfl, rfl⟩
    · intro _ a s' hs
      split at hs
      · cases hs
      · rename_i fs hfs
        cases hs
        exact hgo _ ⟨h.tick.write hfs (hp (f, c) (by simp)), rfl, rfl⟩
    · intro _ e s' hs
      split at hs
      · cases hs; exact herr _ _ ⟨h.tick, rfl, rfl⟩
      · cases hs

/-- The state in which `go` starts to work. -/
def goStart (s : InstState) (dir : Str) : InstState := { s with begun := dir :: s.begun, tmp := [] }

/-- The whole of `go` after the directory was made. -/
theorem goBody_inv {E : InstEnv} {s : InstState} {dir : Str} (rel : InstRelease) (want : Bool)
    (hne : rel.tarballName ≠ rel.libPath) :
    wp (goBody E rel dir want)
      (fun _ s' => GoInv E (goStart s dir) dir s' ∧ NetInv E s [] s')
      (fun _ s' => GoInv E (goStart s dir) dir s') s := by
  unfold goBody
  rw [wp_bind, wp_upd]
  show wp _ _ _ (goStart s dir)
  have h0 : GoInv E (goStart s dir) dir (goStart s dir) :=
    ⟨rfl, rfl, rfl, rfl, fun _ _ => rfl, fun fs p h1 h2 => Or.inl ⟨fs, h1, h2⟩,
      (fun p hp => by cases hp), fun _ h => h, fun _ h => h⟩
  have n0 : NetInv E (goStart s dir) [] (goStart s dir) :=
    ⟨fun d hd => Or.inr (Or.inl hd), fun h => absurd rfl h, fun _ h => h⟩
  rw [wp_bind]
  have hT : wp (if want = true then getTarball E rel dir else pure [])
      (fun content s' => GoInv E (goStart s dir) dir s' ∧ NetInv E (goStart s dir) content s' ∧
        (content = [] ∨ ∃ d, content = [(rel.tarballName, d)]))
      (fun _ s' => GoInv E (goStart s dir) dir s') (goStart s dir) := by
    split
    · exact getTarball_inv rel h0 n0
    · exact ⟨h0, n0, Or.inl rfl⟩
  refine wp_mono hT ?_ (fun _ _ h => h)
  rintro content s1 ⟨h1, n1, hc⟩
  rw [wp_bind]
  have hL : wp (if E.win = true then getNodeLib E rel dir content else pure content)
      (fun content s' => GoInv E (goStart s dir) dir s' ∧ NetInv E (goStart s dir) content s')
      (fun _ s' => GoInv E (goStart s dir) dir s') s1 := by
    split
    · rename_i hw; exact getNodeLib_inv rel hne hw h1 n1 hc
    · exact ⟨h1, n1⟩
  refine wp_mono hL ?_ (fun _ _ h => h)
  rintro content s2 ⟨h2, n2⟩
  rw [wp_bind]
  refine wp_mono (putFile_inv h2 .write (Or.inl rfl)) ?_ (fun _ _ h => h.1)
  rintro - s3 ⟨h3, e3⟩
  have n3 := n2.same e3
  rw [wp_bind]
  have hS : wp (if E.tarball = none ∨ E.win = true then getShasums E rel else pure [])
      (fun expect s' => GoInv E (goStart s dir) dir s' ∧ NetInv E (goStart s dir) content s' ∧
        (content = [] ∨ ∃ text ∈ s'.sums, expect = parseShasums text))
      (fun _ s' => GoInv E (goStart s dir) dir s') s3 := by
    split
    · unfold getShasums
      rw [wp_bind]
      refine wp_mono (fetch_inv h3 _) ?_ (fun _ _ h => h.1)
      rintro text s4 ⟨h4, e4⟩
      rw [wp_bind, wp_upd, wp_pure]
      refine ⟨h4.sums _, ⟨?_, n3.filled, ?_⟩, Or.inr ⟨text, by simp, rfl⟩⟩
      · intro d hd
        rcases (n3.same e4).pending d hd with ⟨t, ht, hp⟩ | h
        · exact Or.inl ⟨t, List.mem_cons_of_mem _ ht, hp⟩
        · exact Or.inr h
      · intro t ht; exact List.mem_cons_of_mem _ ((n3.same e4).sums t ht)
    · rename_i hno
      refine ⟨h3, n3, Or.inl ?_⟩
      by_contra hne
      exact hno (n3.filled hne)
  refine wp_mono hS ?_ (fun _ _ h => h)
  rintro expect s4 ⟨h4, n4, hx⟩
  rw [wp_bind]
  refine wp_mono (verifySums_ok (E := E) expect content s4 (GoInv E (goStart s dir) dir) h4) ?_
    (fun _ _ h => h)
  rintro - s5 ⟨rfl, hv⟩
  have n5 : NetInv E s [] s5 := by
    refine ⟨?_, fun h => absurd rfl h, n4.sums⟩
    intro d hd
    rcases n4.pending d hd with h | h | h
    · exact Or.inl h
    · exact Or.inr (Or.inl h)
    · rcases hx with rfl | ⟨text, ht, rfl⟩
      · cases h
      · exact Or.inl ⟨text, ht, (C60_published text d.1 (E.digest d.2)).mp (hv _ h)⟩
  split
  · rw [wp_bind]
    refine wp_mono (Q := fun tmp s' => tmp = s5.tmp ∧ s' = s5) (R := fun _ _ => False) ?_ ?_ ?_
    · exact ⟨rfl, rfl⟩
    · rintro tmp s6 ⟨rfl, rfl⟩
      refine wp_mono (copyAll_inv s6.tmp s6 h4 h4.tmp) ?_ ?_
      · rintro - s7 ⟨h7, e7⟩
        exact ⟨h7, n5.same e7⟩
      · rintro - s7 ⟨h7, e7⟩; exact h7
    · intro _ _ h; exact h.elim
  · exact ⟨h4, n5⟩

/-! ### Whole installations -/

/-- Every file of the new state is old or comes from the run; downloads are only added. -/
structure Fwd (E : InstEnv) (s s' : InstState) : Prop where
  origin : ∀ d fs p, aget s'.disk d = some fs → p ∈ fs →
    (∃ fs0, aget s.disk d = some fs0 ∧ p ∈ fs0) ∨ FileFrom E s'.got p
  got : ∀ x ∈ s.got, x ∈ s'.got
  sums : ∀ x ∈ s.sums, x ∈ s'.sums

/-- The disk, the downloads and the list of installations are as before. -/
structure Quiet (s s' : InstState) : Prop where
  disk : s'.disk = s.disk
  got : s'.got = s.got
  sums : s'.sums = s.sums
  begun : s'.begun = s.begun

/-- Every directory is as before or gone, and the ones worked on are gone. -/
def Clean (s s' : InstState) (d : Str) : Prop :=
  (aget s'.disk d = aget s.disk d ∨ aget s'.disk d = none) ∧
    (d ∈ s'.begun → d ∈ s.begun ∨ aget s'.disk d = none)

def OkPost (E : InstEnv) (s s' : InstState) : Prop :=
  Fwd E s s' ∧ ∀ d ∈ s'.got, Verified E s'.sums d ∨ d ∈ s.got

def ErrPost (E : InstEnv) (s s' : InstState) : Prop :=
  Fwd E s s' ∧ (RemovalWorks E → ∀ d, Clean s s' d)

theorem Quiet.refl (s : InstState) : Quiet s s := ⟨rfl, rfl, rfl, rfl⟩

theorem Quiet.trans {s s' s'' : InstState} (h : Quiet s s') (h' : Quiet s' s'') : Quiet s s'' :=
  ⟨h'.disk.trans h.disk, h'.got.trans h.got, h'.sums.trans h.sums, h'.begun.trans h.begun⟩

theorem Quiet.fwd {E : InstEnv} {s s' : InstState} (h : Quiet s s') : Fwd E s s' :=
  ⟨fun d fs p h1 h2 => Or.inl ⟨fs, h.disk ▸ h1, h2⟩, fun x hx => h.got ▸ hx,
    fun x hx => h.sums ▸ hx⟩

theorem Quiet.okPost {E : InstEnv} {s s' : InstState} (h : Quiet s s') : OkPost E s s' :=
  ⟨h.fwd, fun d hd => Or.inr (h.got ▸ hd)⟩

theorem Quiet.errPost {E : InstEnv} {s s' : InstState} (h : Quiet s s') : ErrPost E s s' :=
  ⟨h.fwd, fun _ d => ⟨Or.inl (by rw [h.disk]), fun hd => Or.inl (h.begun ▸ hd)⟩⟩

theorem Quiet.thenOk {E : InstEnv} {s s' s'' : InstState} (h : Quiet s s') (h' : OkPost E s' s'') :
    OkPost E s s'' := by
  obtain ⟨⟨h1, h2, h3⟩, h4⟩ := h'
  rw [h.disk] at h1; rw [h.got] at h2 h4; rw [h.sums] at h3
  exact ⟨⟨h1, h2, h3⟩, h4⟩

theorem Quiet.thenErr {E : InstEnv} {s s' s'' : InstState} (h : Quiet s s')
    (h' : ErrPost E s' s'') : ErrPost E s s'' := by
  obtain ⟨⟨h1, h2, h3⟩, h4⟩ := h'
  rw [h.disk] at h1; rw [h.got] at h2; rw [h.sums] at h3
  refine ⟨⟨h1, h2, h3⟩, ?_⟩
  intro hr d
  have := h4 hr d
  unfold Clean at this
  rw [h.disk, h.begun] at this
  exact this

theorem wp_quiet_bind {α : Type} {m : InstM α} {f : α → InstM Unit} {E : InstEnv} {s : InstState}
    (hm : wp m (fun _ s' => Quiet s s' ∧ s'.devDir = s.devDir)
      (fun _ s' => Quiet s s' ∧ s'.devDir = s.devDir) s)
    (hf : ∀ a s', s'.devDir = s.devDir →
      wp (f a) (fun _ s'' => OkPost E s' s'') (fun _ s'' => ErrPost E s' s'') s') :
    wp (m >>= f) (fun _ s'' => OkPost E s s'') (fun _ s'' => ErrPost E s s'') s := by
  rw [wp_bind]
  refine wp_mono hm ?_ (fun _ _ h => h.1.errPost)
  intro a s' h
  exact wp_mono (hf a s' h.2) (fun _ _ h' => h.1.thenOk h') (fun _ _ h' => h.1.thenErr h')

theorem wp_quiet_attempt {α : Type} {m : InstM α} {s : InstState}
    (hm : wp m (fun _ s' => Quiet s s' ∧ s'.devDir = s.devDir)
      (fun _ s' => Quiet s s' ∧ s'.devDir = s.devDir) s) :
    wp (InstM.attempt m) (fun _ s' => Quiet s s' ∧ s'.devDir = s.devDir)
      (fun _ s' => Quiet s s' ∧ s'.devDir = s.devDir) s := by
  rw [wp_attempt]; exact wp_mono hm (fun _ _ h => h) (fun _ _ h => h)

theorem wp_quiet_op {α : Type} (E : InstEnv) (kind : FsOp)
    (f : InstState → Except FsErr α × InstState) (hf : ∀ s, (f s).2 = s) (s : InstState) :
    wp (InstM.op E kind f) (fun _ s' => Quiet s s' ∧ s'.devDir = s.devDir)
      (fun _ s' => Quiet s s' ∧ s'.devDir = s.devDir) s := by
  have hq : ∀ s', s' = { s with n := s.n + 1 } → Quiet s s' ∧ s'.devDir = s.devDir := by
    rintro s' rfl; exact ⟨⟨rfl, rfl, rfl, rfl⟩, rfl⟩
  apply wp_op
  · intro e _; exact hq _ rfl
  · intro _ a s' hs
    apply hq
    have := hf { s with n := s.n + 1 }
    rw [hs] at this; exact this
  · intro _ a s' hs
    apply hq
    have := hf { s with n := s.n + 1 }
    rw [hs] at this; exact this

theorem statDir_quiet (E : InstEnv) (kind : FsOp) (dir : Str) (s : InstState) :
    wp (statDir E kind dir) (fun _ s' => Quiet s s' ∧ s'.devDir = s.devDir)
      (fun _ s' => Quiet s s' ∧ s'.devDir = s.devDir) s :=
  wp_quiet_op E kind _ (fun _ => rfl) s

theorem statFile_quiet (E : InstEnv) (dir file : Str) (s : InstState) :
    wp (statFile E dir file) (fun _ s' => Quiet s s' ∧ s'.devDir = s.devDir)
      (fun _ s' => Quiet s s' ∧ s'.devDir = s.devDir) s := by
  refine wp_quiet_op E .stat _ (fun s => ?_) s
  split <;> rfl

theorem readFile_quiet (E : InstEnv) (dir file : Str) (s : InstState) :
    wp (readFile E dir file) (fun _ s' => Quiet s s' ∧ s'.devDir = s.devDir)
      (fun _ s' => Quiet s s' ∧ s'.devDir = s.devDir) s := by
  refine wp_quiet_op E .read _ (fun s => ?_) s
  split
  · rfl
  · split <;> rfl

/-- What is known when `go` fails: all is clean but the directory that will be removed. -/
def GoErr (E : InstEnv) (v : Str) (s s' : InstState) : Prop :=
  Fwd E s s' ∧ (RemovalWorks E → ∀ d, d ≠ versionPath s'.devDir v → Clean s s' d)

theorem mkdir_wp (E : InstEnv) (dir : Str) (s : InstState) :
    wp (mkdir E dir)
      (fun _ s' => s'.devDir = s.devDir ∧ s'.got = s.got ∧ s'.sums = s.sums ∧ s'.begun = s.begun ∧
        aget s'.disk dir = some ((aget s.disk dir).getD []) ∧
        ∀ d, d ≠ dir → aget s'.disk d = aget s.disk d)
      (fun _ s' => Quiet s s' ∧ s'.devDir = s.devDir) s := by
  unfold mkdir
  apply wp_op
  · intro e _; exact ⟨⟨rfl, rfl, rfl, rfl⟩, rfl⟩
  · intro _ a s' hs
    have := congrArg Prod.snd hs
    dsimp only at this
    subst this
    cases h : aget s.disk dir with
    | some fs => exact ⟨rfl, rfl, rfl, rfl, by simpa using h, fun _ _ => rfl⟩
    | none =>
      refine ⟨rfl, rfl, rfl, rfl, ?_, ?_⟩
      · show aget (aset s.disk dir []) dir = _
        rw [aget_aset, if_pos rfl]; rfl
      · intro d hd
        show aget (aset s.disk dir []) d = _
        rw [aget_aset, if_neg hd]
  · intro _ e s' hs
    have := congrArg Prod.fst hs
    cases this

theorem goInstall_post {E : InstEnv} {s : InstState} (rel : InstRelease) (want : Bool)
    (hne : rel.tarballName ≠ rel.libPath) (fallback : InstErr → InstM Unit)
    (hf : ∀ e s, wp (fallback e) (fun _ s' => OkPost E s s') (fun _ s' => ErrPost E s s') s) :
    wp (goInstall E rel (versionPath s.devDir rel.versionDir) want fallback)
      (fun _ s' => OkPost E s s') (fun _ s' => GoErr E rel.versionDir s s') s := by
  unfold goInstall
  rw [wp_bind, wp_attempt]
  refine wp_mono (mkdir_wp E _ s) ?_ ?_
  · rintro - s1 ⟨hd, hg, hs, hb, hdir, hfr⟩
    dsimp only
    have hfwd : ∀ s', GoInv E (goStart s1 (versionPath s.devDir rel.versionDir))
          (versionPath s.devDir rel.versionDir) s' → Fwd E s s' := by
      intro s' h
      refine ⟨?_, hg ▸ h.gotM, hs ▸ h.sumsM⟩
      intro d fs p h1 h2
      by_cases hdd : d = versionPath s.devDir rel.versionDir
      · subst hdd
        rcases h.origin fs p h1 h2 with ⟨fs0, h3, h4⟩ | h3
        · rw [show aget (goStart s1 _).disk (versionPath s.devDir rel.versionDir) = some _ from hdir] at h3
          cases hx : aget s.disk (versionPath s.devDir rel.versionDir) with
          | none => rw [hx] at h3; cases h3; cases h4
          | some fs1 => rw [hx] at h3; cases h3; exact Or.inl ⟨_, rfl, h4⟩
        · exact Or.inr h3
      · refine Or.inl ⟨fs, ?_, h2⟩
        rw [← hfr d hdd, ← h1]
        exact (h.frame d hdd).symm
    refine wp_mono (goBody_inv rel want hne) ?_ ?_
    · rintro - s' ⟨h, hn⟩
      refine ⟨hfwd s' h, ?_⟩
      intro d hd'
      rcases hn.pending d hd' with h | h | h
      · exact Or.inl h
      · exact Or.inr (hg ▸ h)
      · cases h
    · rintro - s' h
      refine ⟨hfwd s' h, ?_⟩
      intro _ d hdd
      rw [h.devDir, show (goStart s1 _).devDir = s.devDir from hd] at hdd
      refine ⟨Or.inl ((h.frame d hdd).trans (hfr d hdd)), ?_⟩
      intro hb'
      rw [h.begun] at hb'
      rcases List.mem_cons.mp hb' with rfl | hb'
      · exact absurd rfl hdd
      · exact Or.inl (hb ▸ hb')
  · rintro e s1 ⟨hq, hd⟩
    dsimp only
    split
    · refine wp_mono (hf e s1) (fun _ _ h' => hq.thenOk h') ?_
      intro e s' h'
      have := hq.thenErr h'
      exact ⟨this.1, fun hr d _ => this.2 hr d⟩
    · exact ⟨hq.fwd, fun _ d _ => (hq.errPost (E := E)).2 (by assumption) d⟩

theorem aget_filter_disk (D : Disk) (dir d : Str) :
    aget (D.filter fun p => decide (p.1 ≠ dir)) d = if d = dir then none else aget D d := by
  induction D with
  | nil => simp [aget]
  | cons p D ih =>
    obtain ⟨k, v⟩ := p
    by_cases hp : k = dir
    · subst hp
      rw [List.filter_cons_of_neg (by simp), ih]
      by_cases hd : d = k
      · simp [hd]
      · rw [if_neg hd, if_neg hd, aget, if_neg (fun e => hd e.symm)]
    · rw [List.filter_cons_of_pos (by simp [hp]), aget, ih]
      by_cases hpd : k = d
      · subst hpd
        rw [if_pos rfl, if_neg hp, aget, if_pos rfl]
      · rw [if_neg hpd, aget, if_neg hpd]

theorem removeVersion_post {E : InstEnv} (v : Str) (e : InstErr) (s s1 : InstState)
    (h : GoErr E v s s1) :
    wp (do removeVersion E v; InstM.fail e : InstM Unit) (fun _ s' => OkPost E s s')
      (fun _ s' => ErrPost E s s') s1 := by
  rw [wp_bind]
  obtain ⟨h1, h2⟩ := h
  have key : ∀ s', (s'.disk = s1.disk ∨
      s'.disk = s1.disk.filter fun p => decide (p.1 ≠ versionPath s1.devDir v)) →
      s'.got = s1.got → s'.sums = s1.sums → s'.begun = s1.begun →
      (RemovalWorks E → aget s'.disk (versionPath s1.devDir v) = none) → ErrPost E s s' := by
    intro s' hd hg hs hb hn
    have hsub : ∀ d fs, aget s'.disk d = some fs → aget s1.disk d = some fs := by
      intro d fs hfs
      rcases hd with e | e
      · rw [e] at hfs; exact hfs
      · rw [e, aget_filter_disk] at hfs
        split at hfs
        · cases hfs
        · exact hfs
    refine ⟨⟨?_, ?_, ?_⟩, ?_⟩
    · intro d fs p hfs hp
      rw [hg]; exact h1.origin d fs p (hsub d fs hfs) hp
    · rw [hg]; exact h1.got
    · rw [hs]; exact h1.sums
    · intro hr d
      by_cases hdd : d = versionPath s1.devDir v
      · subst hdd
        exact ⟨Or.inr (hn hr), fun _ => Or.inr (hn hr)⟩
      · have heq : aget s'.disk d = aget s1.disk d := by
          rcases hd with e | e
          · rw [e]
          · rw [e, aget_filter_disk, if_neg hdd]
        have := h2 hr d hdd
        unfold Clean at this ⊢
        rw [heq, hb]; exact this
  show wp (do
    let r ← InstM.attempt (statDir E .removeStat (versionPath s1.devDir v))
    match r with
    | .error e => if e = InstErr.fs .enoent then pure () else InstM.fail e
    | .ok _ =>
      InstM.op E .rm fun s =>
        (.ok (), setDisk s (s.disk.filter fun p => decide (p.1 ≠ versionPath s1.devDir v)))) _ _ s1
  rw [wp_bind, wp_attempt]
  unfold statDir
  apply wp_op
  · intro e he
    have hnr : ¬ RemovalWorks E := fun hr => by rw [(hr s1.n).1] at he; cases he
    have := key { s1 with n := s1.n + 1 } (Or.inl rfl) rfl rfl rfl (fun hr => absurd hr hnr)
    dsimp only
    split
    · exact this
    · exact this
  · intro _ a s' hs
    have h' := congrArg Prod.snd hs
    dsimp only at h' ⊢
    subst h'
    apply wp_op
    · intro e he
      have hnr : ¬ RemovalWorks E := fun hr => by
        have := (hr (s1.n + 1)).2
        rw [this] at he; cases he
      exact key _ (Or.inl rfl) rfl rfl rfl (fun hr => absurd hr hnr)
    · intro _ a s' hs
      have h' := congrArg Prod.snd hs
      dsimp only at h'
      subst h'
      refine key _ (Or.inr rfl) rfl rfl rfl (fun _ => ?_)
      show aget (List.filter _ s1.disk) _ = none
      rw [aget_filter_disk, if_pos rfl]
    · intro _ e s' hs
      have h' := congrArg Prod.fst hs
      cases h'
  · intro _ e s' hs
    have h' := congrArg Prod.snd hs
    have h'' := congrArg Prod.fst hs
    dsimp only at h' h'' ⊢
    subst h'
    have hnone : aget s1.disk (versionPath s1.devDir v) = none := by
      cases hx : aget s1.disk (versionPath s1.devDir v) with
      | none => rfl
      | some fs => rw [hx] at h''; simp at h''
    have := key { s1 with n := s1.n + 1 } (Or.inl rfl) rfl rfl rfl (fun _ => hnone)
    split
    · exact this
    · exact this

theorem goOrRollback_post {E : InstEnv} {s : InstState} (rel : InstRelease) (want : Bool)
    (hne : rel.tarballName ≠ rel.libPath) (fallback : InstErr → InstM Unit)
    (hf : ∀ e s, wp (fallback e) (fun _ s' => OkPost E s s') (fun _ s' => ErrPost E s s') s) :
    wp (goOrRollback E rel (versionPath s.devDir rel.versionDir) want fallback)
      (fun _ s' => OkPost E s s') (fun _ s' => ErrPost E s s') s := by
  unfold goOrRollback
  rw [wp_bind, wp_attempt]
  refine wp_mono (goInstall_post rel want hne fallback hf) ?_ ?_
  · rintro - s1 h1; exact h1
  · rintro e s1 h1
    exact removeVersion_post rel.versionDir e s s1 h1

theorem ensureInstall_post {E : InstEnv} {s : InstState} (rel : InstRelease)
    (hne : rel.tarballName ≠ rel.libPath) (fallback : InstErr → InstM Unit)
    (hf : ∀ e s, wp (fallback e) (fun _ s' => OkPost E s s') (fun _ s' => ErrPost E s s') s) :
    wp (ensureInstall E rel (versionPath s.devDir rel.versionDir) fallback)
      (fun _ s' => OkPost E s s') (fun _ s' => ErrPost E s s') s := by
  unfold ensureInstall
  refine wp_quiet_bind (wp_quiet_attempt (statDir_quiet E _ _ s)) ?_
  intro r s1 hd1
  have hgo : ∀ s2 want, s2.devDir = s.devDir →
      wp (goOrRollback E rel (versionPath s.devDir rel.versionDir) want fallback)
        (fun _ s' => OkPost E s2 s') (fun _ s' => ErrPost E s2 s') s2 := by
    intro s2 want hd
    rw [← hd]; exact goOrRollback_post rel want hne fallback hf
  cases r with
  | error e =>
    dsimp only
    split
    · exact hgo s1 true hd1
    · split
      · exact hf e s1
      · exact (Quiet.refl s1).errPost
  | ok u =>
    dsimp only
    refine wp_quiet_bind (wp_quiet_attempt (readFile_quiet E _ _ s1)) ?_
    intro v s2 hd2
    refine wp_quiet_bind (s := s2) ?_ ?_
    · cases v with
      | ok t => exact ⟨Quiet.refl s2, rfl⟩
      | error e =>
        dsimp only
        split
        · exact ⟨Quiet.refl s2, rfl⟩
        · exact ⟨Quiet.refl s2, rfl⟩
    · intro version s3 hd3
      split
      · exact hgo s3 true (hd3.trans (hd2.trans hd1))
      · split
        · refine wp_quiet_bind (wp_quiet_attempt (statFile_quiet E _ _ s3)) ?_
          intro l s4 hd4
          cases l with
          | ok u => exact (Quiet.refl s4).okPost
          | error e =>
            dsimp only
            split
            · exact hgo s4 false (hd4.trans (hd3.trans (hd2.trans hd1)))
            · split
              · exact hf e s4
              · exact (Quiet.refl s4).errPost
        · exact (Quiet.refl s3).okPost

theorem eaccesFallback_post {E : InstEnv} (argv : List Str) (again : List Str → InstM Unit)
    (ha : ∀ a s, wp (again a) (fun _ s' => OkPost E s s') (fun _ s' => ErrPost E s s') s)
    (e : InstErr) (s : InstState) :
    wp (eaccesFallback E argv again e) (fun _ s' => OkPost E s s') (fun _ s' => ErrPost E s s') s := by
  unfold eaccesFallback
  split
  · exact (Quiet.refl s).errPost
  · rw [wp_bind, wp_upd, wp_bind, wp_upd]
    have hq : Quiet s (if E.cwd = E.tmpdir then
        { { s with devDir := E.tmpdir ++ c!"/.node-gyp" } with removes := s.removes ++ [argv] }
        else { s with devDir := E.tmpdir ++ c!"/.node-gyp" }) := by
      split <;> exact ⟨rfl, rfl, rfl, rfl⟩
    exact wp_mono (ha _ _) (fun _ _ h => hq.thenOk h) (fun _ _ h => hq.thenErr h)

/-- The names under which the checksums of archive and library are published differ. -/
theorem installRun_post {E : InstEnv} (hne : ∀ a, (E.release a).tarballName ≠ (E.release a).libPath) :
    ∀ fuel argv s, wp (installRun E fuel argv) (fun _ s' => OkPost E s s')
      (fun _ s' => ErrPost E s s') s
  | 0, _, s => (Quiet.refl s).errPost
  | fuel + 1, argv, s => by
    have hf := eaccesFallback_post (E := E) argv (installRun E fuel) (installRun_post hne fuel)
    have hq : Quiet s { s with tries := s.tries + 1 } := ⟨rfl, rfl, rfl, rfl⟩
    have hthen : ∀ m : InstM Unit,
        wp m (fun _ s' => OkPost E { s with tries := s.tries + 1 } s')
          (fun _ s' => ErrPost E { s with tries := s.tries + 1 } s') { s with tries := s.tries + 1 } →
        wp m (fun _ s' => OkPost E s s') (fun _ s' => ErrPost E s s') { s with tries := s.tries + 1 } :=
      fun m h => wp_mono h (fun _ _ h => hq.thenOk h) (fun _ _ h => hq.thenErr h)
    unfold wp
    rw [installRun]
    dsimp only
    by_cases h1 : (E.release argv).valid = false
    · rw [if_pos h1]; exact hq.errPost
    · rw [if_neg h1]
      by_cases h2 : (E.release argv).tooOld = true
      · rw [if_pos h2]; exact hq.errPost
      · rw [if_neg h2]
        by_cases h3 : (E.release argv).pre = true
        · rw [if_pos h3]
          by_cases h4 : E.nodedir = true
          · rw [if_pos h4]; exact hq.okPost
          · rw [if_neg h4]; exact hq.errPost
        · rw [if_neg h3]
          by_cases h5 : E.ensure = true
          · rw [if_pos h5]
            exact hthen _ (ensureInstall_post (s := { s with tries := s.tries + 1 })
              (E.release argv) (hne argv) _ hf)
          · rw [if_neg h5]
            exact hthen _ (goOrRollback_post (s := { s with tries := s.tries + 1 })
              (E.release argv) true (hne argv) _ hf)

end Gyp
