import Verif.Model.Parallel
import Mathlib.Logic.Relation
import Mathlib.Data.List.Perm.Basic
/-
C28: loading build files in parallel.
-/
namespace Gyp
variable {F : Type} [DecidableEq F]

/-- A file that is given or that a needed file depends on. -/
inductive Needed (load : F → Option (List F)) (roots : List F) : F → Prop
  | root {f : F} : f ∈ roots → Needed load roots f
  | dep {f d : F} {ds : List F} : Needed load roots f → load f = some ds → d ∈ ds →
    Needed load roots d

theorem scheduleNew_spec (ds deps scheduled : List F) :
    ∃ new : List F, scheduleNew ds deps scheduled = (deps ++ new, scheduled ++ new) ∧
      new.Nodup ∧ (∀ f ∈ new, f ∉ scheduled ∧ f ∈ ds) ∧ ∀ d ∈ ds, d ∈ scheduled ++ new := by
  induction ds generalizing deps scheduled with
  | nil => exact ⟨[], by simp [scheduleNew]⟩
  | cons d ds ih =>
    unfold scheduleNew
    by_cases h : d ∈ scheduled
    · rw [if_pos h]
      obtain ⟨new, h1, h2, h3, h4⟩ := ih deps scheduled
      refine ⟨new, h1, h2, fun f hf => ⟨(h3 f hf).1, by simp [(h3 f hf).2]⟩, ?_⟩
      intro x hx
      rcases List.mem_cons.mp hx with rfl | hx
      · simp [h]
      · exact h4 x hx
    · rw [if_neg h]
      obtain ⟨new, h1, h2, h3, h4⟩ := ih (deps ++ [d]) (scheduled ++ [d])
      refine ⟨d :: new, by rw [h1]; simp, ?_, ?_, ?_⟩
      · rw [List.nodup_cons]
        refine ⟨fun hd => ?_, h2⟩
        have := (h3 d hd).1
        simp at this
      · intro f hf
        rcases List.mem_cons.mp hf with rfl | hf
        · exact ⟨h, by simp⟩
        · have := h3 f hf
          simp only [List.mem_append, not_or] at this
          exact ⟨this.1.1, by simp [this.2]⟩
      · intro x hx
        rcases List.mem_cons.mp hx with rfl | hx
        · simp
        · have := h4 x hx
          simpa using this

/-- What holds in every reachable state. -/
structure ParInv (load : F → Option (List F)) (roots : List F) (s : ParState F) : Prop where
  nodup : (s.submitted ++ s.deps).Nodup
  sched : ∀ f, f ∈ s.scheduled ↔ f ∈ s.submitted ∨ f ∈ s.deps
  jobs : ∃ failed : List F, s.submitted.Perm (s.outstanding ++ (s.loaded ++ failed)) ∧
    s.pending = s.outstanding.length + failed.length ∧ (s.error = true ↔ failed ≠ []) ∧
    ∀ f ∈ failed, load f = none
  needed : ∀ f ∈ s.scheduled, Needed load roots f
  roots : ∀ f ∈ roots, f ∈ s.scheduled
  closed : ∀ f ∈ s.loaded, ∃ ds, load f = some ds ∧ ∀ d ∈ ds, d ∈ s.scheduled
  wait : s.pc = .waiting false → s.outstanding ≠ []
  leave : s.pc = .joining ∨ s.pc = .finished → s.error = true ∨ s.deps = [] ∧ s.pending = 0
  fin : s.pc = .finished → s.outstanding = []
  crash : s.pc = .crashed → s.submitted = [] ∧ s.deps = []

theorem ParInv.start (load : F → Option (List F)) (roots : List F) (h : roots.Nodup) :
    ParInv load roots (ParState.init roots) := by
  refine ⟨by simpa [ParState.init] using h, by simp [ParState.init], ⟨[], by simp [ParState.init]⟩,
    fun f hf => .root hf, fun f hf => hf, ?_, ?_, ?_, ?_, ?_⟩ <;> simp [ParState.init]

theorem ParInv.main {load : F → Option (List F)} {roots : List F} {s : ParState F}
    (inv : ParInv load roots s) (hpc : s.pc = .loop) : ParInv load roots (mainLoop s) := by
  obtain ⟨failed, hperm, hpend, herr, hfail⟩ := inv.jobs
  unfold mainLoop
  by_cases hl : s.deps = [] ∧ s.pending = 0 ∨ s.error = true
  · rw [if_pos hl]
    by_cases hsub : s.submitted = []
    · rw [if_pos hsub]
      refine ⟨inv.nodup, inv.sched, inv.jobs, inv.needed, inv.roots, inv.closed, by simp, by simp,
        by simp, fun _ => ⟨hsub, ?_⟩⟩
      rcases hl with hl | hl
      · exact hl.1
      · exfalso
        rw [hsub] at hperm
        have := hperm.length_eq
        simp at this
        exact (herr.mp hl) (List.length_eq_zero_iff.mp (by omega))
    · rw [if_neg hsub]
      refine ⟨inv.nodup, inv.sched, inv.jobs, inv.needed, inv.roots, inv.closed, by simp,
        fun _ => ?_, by simp, by simp⟩
      rcases hl with hl | hl
      · exact Or.inr hl
      · exact Or.inl hl
  · rw [if_neg hl]
    push Not at hl
    obtain ⟨hl1, hl2⟩ := hl
    cases hg : s.deps.getLast? with
    | none =>
      have hd : s.deps = [] := List.getLast?_eq_none_iff.mp hg
      refine ⟨inv.nodup, inv.sched, inv.jobs, inv.needed, inv.roots, inv.closed, fun _ => ?_,
        by simp, by simp, by simp⟩
      intro ho
      simp only at ho
      apply hl1 hd
      rw [hpend, ho]
      by_contra hne
      have hf : failed ≠ [] := by
        rintro rfl
        simp at hne
      exact hl2 (herr.mpr hf)
    | some f =>
      have hd : s.deps = s.deps.dropLast ++ [f] := by
        have := List.dropLast_append_getLast? f hg
        exact this.symm
      refine ⟨?_, ?_, ⟨failed, ?_, ?_, herr, hfail⟩, inv.needed, inv.roots, inv.closed, ?_, ?_, ?_,
        ?_⟩
      · have := inv.nodup
        rw [hd] at this
        simp only
        refine (List.Perm.nodup_iff ?_).mp this
        rw [List.append_assoc]
        exact List.Perm.append_left _ List.perm_append_comm
      · intro x
        rw [inv.sched x]
        conv_lhs => rw [hd]
        simp only [List.mem_append, List.mem_singleton]
        tauto
      · simp only
        refine (hperm.append_right [f]).trans ?_
        rw [List.append_assoc s.outstanding, List.append_assoc s.outstanding]
        exact List.Perm.append_left _ List.perm_append_comm
      · simp [hpend]; omega
      · simp [hpc]
      · simp [hpc]
      · simp [hpc]
      · simp [hpc]

theorem ParInv.callback {load : F → Option (List F)} {roots : List F} {s : ParState F}
    (inv : ParInv load roots s) {f : F} (hf : f ∈ s.outstanding)
    (hpc : (∃ n, s.pc = .waiting n) ∨ s.pc = .joining) :
    ParInv load roots (callback load f s) := by
  obtain ⟨failed, hperm, hpend, herr, hfail⟩ := inv.jobs
  have hlen : s.outstanding.length = (s.outstanding.erase f).length + 1 := by
    rw [List.length_erase_of_mem hf]
    have := List.length_pos_of_mem hf
    omega
  have hnf : s.pc ≠ .finished ∧ s.pc ≠ .crashed := by
    rcases hpc with ⟨n, h⟩ | h <;> simp [h]
  have hpc1 : ∀ p, s.pc.notify = p → p ≠ .waiting false ∧ p ≠ .finished ∧ p ≠ .crashed ∧
        (p = .joining → s.pc = .joining) := by
    rintro p rfl
    rcases hpc with ⟨n, h⟩ | h <;> simp [h, ParPc.notify]
  unfold Gyp.callback
  cases hload : load f with
  | none =>
    refine ⟨inv.nodup, inv.sched, ⟨f :: failed, ?_, ?_, by simp, ?_⟩, inv.needed, inv.roots,
      inv.closed, ?_, fun _ => Or.inl rfl, ?_, ?_⟩
    · simp only
      refine hperm.trans ?_
      refine ((List.perm_cons_erase hf).append_right _).trans ?_
      rw [List.cons_append]
      refine List.perm_middle.symm.trans (List.Perm.append_left _ ?_)
      exact List.perm_middle.symm
    · simp [hpend]; omega
    · intro x hx
      rcases List.mem_cons.mp hx with rfl | hx
      · exact hload
      · exact hfail x hx
    · intro h; exact absurd rfl ((hpc1 _ h).1)
    · intro h; exact absurd rfl ((hpc1 _ h).2.1)
    · intro h; exact absurd rfl ((hpc1 _ h).2.2.1)
  | some ds =>
    obtain ⟨new, h1, h2, h3, h4⟩ := scheduleNew_spec ds s.deps s.scheduled
    have hfs : f ∈ s.scheduled := by
      rw [inv.sched]
      left
      exact hperm.mem_iff.mpr (by simp [hf])
    refine ⟨?_, ?_, ⟨failed, ?_, ?_, herr, hfail⟩, ?_, ?_, ?_, ?_, ?_, ?_, ?_⟩ <;>
      simp only [h1]
    · rw [← List.append_assoc, List.nodup_append]
      refine ⟨inv.nodup, h2, ?_⟩
      rintro a ha b hb rfl
      apply (h3 a hb).1
      rw [inv.sched]
      simpa using ha
    · intro x
      simp only [List.mem_append, inv.sched x]
      tauto
    · refine hperm.trans ?_
      refine ((List.perm_cons_erase hf).append_right _).trans ?_
      rw [List.cons_append]
      refine List.perm_middle.symm.trans (List.Perm.append_left _ ?_)
      rw [List.append_assoc, List.singleton_append]
      exact List.perm_middle.symm
    · omega
    · intro x hx
      rcases List.mem_append.mp hx with hx | hx
      · exact inv.needed x hx
      · exact .dep (inv.needed f hfs) hload (h3 x hx).2
    · intro x hx
      exact List.mem_append.mpr (Or.inl (inv.roots x hx))
    · intro x hx
      rcases List.mem_append.mp hx with hx | hx
      · obtain ⟨ds', h5, h6⟩ := inv.closed x hx
        exact ⟨ds', h5, fun d hd => List.mem_append.mpr (Or.inl (h6 d hd))⟩
      · simp at hx
        subst hx
        exact ⟨ds, hload, h4⟩
    · intro h; exact absurd rfl ((hpc1 _ h).1)
    · intro h
      have hj : s.pc = .joining := by
        rcases h with h | h
        · exact (hpc1 _ h).2.2.2 rfl
        · exact absurd rfl ((hpc1 _ h).2.1)
      rcases inv.leave (Or.inl hj) with he | ⟨-, he⟩
      · exact Or.inl he
      · exfalso
        rw [hpend] at he
        omega
    · intro h; exact absurd rfl ((hpc1 _ h).2.1)
    · intro h; exact absurd rfl ((hpc1 _ h).2.2.1)

theorem ParInv.step {load : F → Option (List F)} {roots : List F} {s t : ParState F}
    (inv : ParInv load roots s) (h : ParStep load s t) : ParInv load roots t := by
  cases h with
  | main hpc => exact inv.main hpc
  | wake hpc =>
    exact ⟨inv.nodup, inv.sched, inv.jobs, inv.needed, inv.roots, inv.closed, by simp, by simp,
      by simp, by simp⟩
  | callback f hf hpc => exact inv.callback hf hpc
  | join hpc ho =>
    exact ⟨inv.nodup, inv.sched, inv.jobs, inv.needed, inv.roots, inv.closed, by simp,
      fun _ => inv.leave (Or.inl hpc), fun _ => ho, by simp⟩

theorem ParInv.steps {load : F → Option (List F)} {roots : List F} (hr : roots.Nodup)
    {n : Nat} {s : ParState F} (h : ParSteps load n (ParState.init roots) s) :
    ParInv load roots s := by
  generalize hi : ParState.init roots = i at h
  induction h with
  | refl s => exact hi ▸ ParInv.start load roots hr
  | step _ hs ih => exact (ih hi).step hs

/-- C28: whatever the schedule, no file is given to a worker twice, none is loaded twice,
and only needed files are. -/
theorem C28_once (load : F → Option (List F)) (roots : List F) (hr : roots.Nodup) (n : Nat)
    (s : ParState F) (h : ParSteps load n (ParState.init roots) s) :
    s.submitted.Nodup ∧ s.loaded.Nodup ∧ (∀ f ∈ s.loaded, f ∈ s.submitted) ∧
      ∀ f ∈ s.submitted, Needed load roots f := by
  have inv := ParInv.steps hr h
  obtain ⟨failed, hperm, -, -, -⟩ := inv.jobs
  have hs : s.submitted.Nodup := (List.nodup_append.mp inv.nodup).1
  refine ⟨hs, ?_, ?_, ?_⟩
  · have := hperm.nodup_iff.mp hs
    exact (List.nodup_append.mp (List.nodup_append.mp this).2.1).1
  · intro f hf
    exact hperm.mem_iff.mpr (by simp [hf])
  · intro f hf
    exact inv.needed f ((inv.sched f).mpr (Or.inl hf))

/-- C28: when loading ends without error, exactly the needed files are loaded. -/
theorem C28_complete (load : F → Option (List F)) (roots : List F) (hr : roots.Nodup) (n : Nat)
    (s : ParState F) (h : ParSteps load n (ParState.init roots) s) (hf : s.pc = .finished)
    (he : s.error = false) (f : F) : f ∈ s.loaded ↔ Needed load roots f := by
  have inv := ParInv.steps hr h
  obtain ⟨failed, hperm, hpend, herr, -⟩ := inv.jobs
  have hfail : failed = [] := by
    by_contra hc
    rw [herr.mpr hc] at he
    cases he
  subst hfail
  have ho := inv.fin hf
  have hd : s.deps = [] := by
    rcases inv.leave (Or.inr hf) with h | h
    · rw [h] at he; cases he
    · exact h.1
  rw [ho] at hperm
  simp only [List.nil_append, List.append_nil] at hperm
  have hall : ∀ x, x ∈ s.scheduled ↔ x ∈ s.loaded := by
    intro x
    rw [inv.sched x, hd, hperm.mem_iff]
    simp
  constructor
  · intro hm
    exact inv.needed f ((hall f).mpr hm)
  · intro hn
    induction hn with
    | root hm => exact (hall _).mp (inv.roots _ hm)
    | dep _ hl hm ih =>
      obtain ⟨ds', h1, h2⟩ := inv.closed _ ih
      rw [hl] at h1
      cases h1
      exact (hall _).mp (h2 _ hm)

/-- C28: loading ends with an error exactly when some needed file cannot be loaded. -/
theorem C28_error_iff (load : F → Option (List F)) (roots : List F) (hr : roots.Nodup) (n : Nat)
    (s : ParState F) (h : ParSteps load n (ParState.init roots) s) (hf : s.pc = .finished) :
    s.error = true ↔ ∃ f, Needed load roots f ∧ load f = none := by
  have inv := ParInv.steps hr h
  constructor
  · intro he
    obtain ⟨failed, hperm, -, herr, hfail⟩ := inv.jobs
    obtain ⟨x, hx⟩ := List.exists_mem_of_ne_nil _ (herr.mp he)
    exact ⟨x, inv.needed x ((inv.sched x).mpr (Or.inl (hperm.mem_iff.mpr (by simp [hx])))),
      hfail x hx⟩
  · rintro ⟨f, hn, hl⟩
    by_contra he
    have he : s.error = false := by simpa using he
    obtain ⟨ds, h1, -⟩ := inv.closed f ((C28_complete load roots hr n s h hf he f).mpr hn)
    rw [hl] at h1
    cases h1

/-- C28: after an error nothing more is given to the workers. -/
theorem C28_stop (load : F → Option (List F)) (s t : ParState F) (n : Nat)
    (he : s.error = true) (h : ParSteps load n s t) :
    t.submitted = s.submitted ∧ t.error = true := by
  induction h with
  | refl s => exact ⟨rfl, he⟩
  | step _ hs ih =>
    obtain ⟨h1, h2⟩ := ih he
    cases hs with
    | main _ =>
      unfold mainLoop
      rw [if_pos (Or.inr h2)]
      exact ⟨h1, h2⟩
    | wake _ => exact ⟨h1, h2⟩
    | callback f _ _ =>
      unfold Gyp.callback
      cases load f with
      | none => exact ⟨h1, rfl⟩
      | some ds => exact ⟨h1, h2⟩
    | join _ _ => exact ⟨h1, h2⟩

/-- C28: loading cannot get stuck. -/
theorem C28_progress (load : F → Option (List F)) (roots : List F) (hr : roots.Nodup)
    (hne : roots ≠ []) (n : Nat) (s : ParState F) (h : ParSteps load n (ParState.init roots) s) :
    s.pc = .finished ∨ ∃ t, ParStep load s t := by
  have inv := ParInv.steps hr h
  cases hpc : s.pc with
  | loop => exact Or.inr ⟨_, .main s hpc⟩
  | waiting b =>
    right
    cases b with
    | true => exact ⟨_, .wake s hpc⟩
    | false =>
      obtain ⟨f, hf⟩ := List.exists_mem_of_ne_nil _ (inv.wait hpc)
      exact ⟨_, .callback s f hf (Or.inl ⟨_, hpc⟩)⟩
  | joining =>
    right
    by_cases ho : s.outstanding = []
    · exact ⟨_, .join s hpc ho⟩
    · obtain ⟨f, hf⟩ := List.exists_mem_of_ne_nil _ ho
      exact ⟨_, .callback s f hf (Or.inr hpc)⟩
  | finished => exact Or.inl rfl
  | crashed =>
    exfalso
    obtain ⟨h1, h2⟩ := inv.crash hpc
    obtain ⟨f, hf⟩ := List.exists_mem_of_ne_nil _ hne
    have := (inv.sched f).mp (inv.roots f hf)
    rw [h1, h2] at this
    simp at this

/-- How far the main thread is from the end of its turn. -/
def pcWeight : ParPc → Nat
  | .loop => 2
  | .waiting true => 3
  | .waiting false => 1
  | .joining => 1
  | .finished => 0
  | .crashed => 0

/-- Work left when `k` files are needed. -/
def workLeft (k : Nat) (s : ParState F) : Nat :=
  4 * (k - s.submitted.length) + 3 * s.outstanding.length + pcWeight s.pc

theorem workLeft_step {load : F → Option (List F)} {roots U : List F} {s t : ParState F}
    (hU : ∀ f, Needed load roots f → f ∈ U) (inv : ParInv load roots s)
    (h : ParStep load s t) : workLeft U.length t < workLeft U.length s := by
  have inv' := inv.step h
  have hle : t.submitted.length ≤ U.length := by
    have h1 : t.submitted.Nodup := (List.nodup_append.mp inv'.nodup).1
    exact (List.subperm_of_subset h1 fun f hf =>
      hU f (inv'.needed f ((inv'.sched f).mpr (Or.inl hf)))).length_le
  unfold workLeft
  cases h with
  | main hpc =>
    unfold mainLoop at hle ⊢
    by_cases hl : s.deps = [] ∧ s.pending = 0 ∨ s.error = true
    · rw [if_pos hl]
      simp only [hpc]
      split <;> simp [pcWeight]
    · rw [if_neg hl] at hle ⊢
      cases hg : s.deps.getLast? with
      | none => simp [hpc, pcWeight]
      | some f =>
        rw [hg] at hle
        simp at hle ⊢
        omega
  | wake hpc => simp [hpc, pcWeight]
  | callback f hf hpc =>
    have hlen : s.outstanding.length = (s.outstanding.erase f).length + 1 := by
      rw [List.length_erase_of_mem hf]
      have := List.length_pos_of_mem hf
      omega
    have hw : pcWeight s.pc.notify ≤ pcWeight s.pc + 2 := by
      rcases hpc with ⟨b, h⟩ | h
      · rw [h]; cases b <;> simp [pcWeight, ParPc.notify]
      · rw [h]; simp [ParPc.notify]
    unfold Gyp.callback
    cases load f with
    | none => simp only; omega
    | some ds => simp only; omega
  | join hpc ho => simp [hpc, pcWeight]

/-- C28: loading ends: if the needed files are among `U`, no execution has more than
`4 * |U| + 2` steps. -/
theorem C28_terminates (load : F → Option (List F)) (roots U : List F) (hr : roots.Nodup)
    (hU : ∀ f, Needed load roots f → f ∈ U) (n : Nat) (s : ParState F)
    (h : ParSteps load n (ParState.init roots) s) : n ≤ 4 * U.length + 2 := by
  have key : ∀ n (i s : ParState F), ParInv load roots i → ParSteps load n i s →
      n + workLeft U.length s ≤ workLeft U.length i := by
    intro n i s hi h
    have : ∀ {n i s}, ParSteps load n i s → ParInv load roots i →
        ParInv load roots s ∧ n + workLeft U.length s ≤ workLeft U.length i := by
      intro n i s h
      induction h with
      | refl s => intro hi; exact ⟨hi, by omega⟩
      | step _ hs ih =>
        intro hi
        obtain ⟨h1, h2⟩ := ih hi
        have := workLeft_step hU h1 hs
        exact ⟨h1.step hs, by omega⟩
    exact (this h hi).2
  have := key n _ s (ParInv.start load roots hr) h
  have h0 : workLeft U.length (ParState.init roots) = 4 * U.length + 2 := by
    simp [workLeft, ParState.init, pcWeight]
  omega

/-- With nothing to load the code fails instead of doing nothing. -/
theorem C28_nothing (load : F → Option (List F)) :
    ∃ s, ParSteps load 1 (ParState.init ([] : List F)) s ∧ s.pc = .crashed :=
  ⟨_, .step (.refl _) (.main _ rfl), by simp [mainLoop, ParState.init]⟩

/-! ### One after the other -/

theorem Needed.mono {load : F → Option (List F)} {a b : List F} {f : F} (h : Needed load a f)
    (hab : ∀ x ∈ a, Needed load b x) : Needed load b f := by
  induction h with
  | root h => exact hab _ h
  | dep _ hl hd ih => exact .dep ih hl hd

/-- What a successful traversal adds. -/
structure SeqOk (load : F → Option (List F)) (seen fs r : List F) : Prop where
  prefix_ : ∃ new, r = seen ++ new ∧ ∀ x ∈ new, Needed load fs x ∧
    ∃ ds, load x = some ds ∧ ∀ d ∈ ds, d ∈ r
  nodup : seen.Nodup → r.Nodup
  all : ∀ f ∈ fs, f ∈ r

theorem SeqOk.sub {load : F → Option (List F)} {seen fs r : List F} (h : SeqOk load seen fs r) :
    ∀ f ∈ seen, f ∈ r := by
  obtain ⟨new, rfl, -⟩ := h.prefix_
  intro f hf
  simp [hf]

mutual
theorem seqLoad_ok (load : F → Option (List F)) : ∀ (fuel : Nat) (seen : List F) (f : F)
    (r : List F), seqLoad load fuel seen f = .ok r → SeqOk load seen [f] r
  | 0, seen, f, r, h => by
    unfold seqLoad at h
    cases h
  | fuel + 1, seen, f, r, h => by
    unfold seqLoad at h
    by_cases hs : f ∈ seen
    · rw [if_pos hs] at h
      cases h
      exact ⟨⟨[], by simp, by simp⟩, fun h => h, by simpa using hs⟩
    · rw [if_neg hs] at h
      cases hl : load f with
      | none => rw [hl] at h; cases h
      | some ds =>
        rw [hl] at h
        have ih := seqLoadAll_ok load fuel _ ds r h
        obtain ⟨new, hr, hnew⟩ := ih.prefix_
        refine ⟨⟨f :: new, by rw [hr]; simp, ?_⟩, ?_, ?_⟩
        · intro x hx
          rcases List.mem_cons.mp hx with rfl | hx
          · exact ⟨.root (by simp), ds, hl, ih.all⟩
          · obtain ⟨h1, h2⟩ := hnew x hx
            exact ⟨h1.mono fun y hy => .dep (.root (by simp)) hl hy, h2⟩
        · intro hn
          apply ih.nodup
          rw [List.nodup_append]
          exact ⟨hn, by simp, by rintro a ha b hb rfl; simp at hb; exact hs (hb ▸ ha)⟩
        · intro x hx
          simp at hx
          subst hx
          exact ih.sub _ (by simp)
theorem seqLoadAll_ok (load : F → Option (List F)) : ∀ (fuel : Nat) (seen fs r : List F),
    seqLoadAll load fuel seen fs = .ok r → SeqOk load seen fs r
  | fuel, seen, [], r, h => by
    unfold seqLoadAll at h
    cases h
    exact ⟨⟨[], by simp, by simp⟩, fun h => h, by simp⟩
  | fuel, seen, f :: fs, r, h => by
    unfold seqLoadAll at h
    cases h1 : seqLoad load fuel seen f with
    | error e => rw [h1] at h; cases h
    | ok s =>
      rw [h1] at h
      have a := seqLoad_ok load fuel seen f s h1
      have b := seqLoadAll_ok load fuel s fs r h
      obtain ⟨n1, rfl, p1⟩ := a.prefix_
      obtain ⟨n2, hr, p2⟩ := b.prefix_
      refine ⟨⟨n1 ++ n2, by rw [hr]; simp, ?_⟩, fun hn => b.nodup (a.nodup hn), ?_⟩
      · intro x hx
        rcases List.mem_append.mp hx with hx | hx
        · obtain ⟨h1, ds, h2, h3⟩ := p1 x hx
          exact ⟨h1.mono fun y hy => .root (by simp at hy; simp [hy]), ds, h2,
            fun d hd => b.sub d (h3 d hd)⟩
        · obtain ⟨h1, h2⟩ := p2 x hx
          exact ⟨h1.mono fun y hy => .root (by simp [hy]), h2⟩
      · intro x hx
        rcases List.mem_cons.mp hx with rfl | hx
        · exact b.sub x (a.all x (by simp))
        · exact b.all x hx
end

mutual
theorem seqLoad_err (load : F → Option (List F)) (U : List F) : ∀ (fuel : Nat) (seen : List F)
    (f : F) (e : SeqErr), (∀ x, Needed load [f] x → x ∈ U) → seen.Nodup → (∀ x ∈ seen, x ∈ U) →
    U.length < fuel + seen.length → seqLoad load fuel seen f = .error e →
    e = .load ∧ ∃ x, Needed load [f] x ∧ load x = none
  | 0, seen, f, e, hU, hn, hs, hlen, h => by
    have := (List.subperm_of_subset hn hs).length_le
    omega
  | fuel + 1, seen, f, e, hU, hn, hs, hlen, h => by
    unfold seqLoad at h
    by_cases hf : f ∈ seen
    · rw [if_pos hf] at h; cases h
    · rw [if_neg hf] at h
      cases hl : load f with
      | none =>
        rw [hl] at h
        cases h
        exact ⟨rfl, f, .root (by simp), hl⟩
      | some ds =>
        rw [hl] at h
        have hsub : ∀ x, Needed load ds x → Needed load [f] x := fun x hx =>
          hx.mono fun y hy => .dep (.root (by simp)) hl hy
        obtain ⟨h1, x, h2, h3⟩ := seqLoadAll_err load U fuel (seen ++ [f]) ds e
          (fun x hx => hU x (hsub x hx))
          (by
            rw [List.nodup_append]
            exact ⟨hn, by simp, by rintro a ha b hb rfl; simp at hb; exact hf (hb ▸ ha)⟩)
          (by
            intro x hx
            rcases List.mem_append.mp hx with hx | hx
            · exact hs x hx
            · simp at hx; exact hU x (.root (by simp [hx])))
          (by simp; omega) h
        exact ⟨h1, x, hsub x h2, h3⟩
theorem seqLoadAll_err (load : F → Option (List F)) (U : List F) : ∀ (fuel : Nat)
    (seen fs : List F) (e : SeqErr), (∀ x, Needed load fs x → x ∈ U) → seen.Nodup →
    (∀ x ∈ seen, x ∈ U) → U.length < fuel + seen.length → seqLoadAll load fuel seen fs = .error e →
    e = .load ∧ ∃ x, Needed load fs x ∧ load x = none
  | fuel, seen, [], e, hU, hn, hs, hlen, h => by
    unfold seqLoadAll at h
    cases h
  | fuel, seen, f :: fs, e, hU, hn, hs, hlen, h => by
    unfold seqLoadAll at h
    have hf : ∀ x, Needed load [f] x → Needed load (f :: fs) x := fun x hx =>
      hx.mono fun y hy => .root (by simp at hy; simp [hy])
    have hfs : ∀ x, Needed load fs x → Needed load (f :: fs) x := fun x hx =>
      hx.mono fun y hy => .root (by simp [hy])
    cases h1 : seqLoad load fuel seen f with
    | error e' =>
      rw [h1] at h
      cases h
      obtain ⟨h2, x, h3, h4⟩ := seqLoad_err load U fuel seen f _ (fun x hx => hU x (hf x hx)) hn hs
        hlen h1
      exact ⟨h2, x, hf x h3, h4⟩
    | ok s =>
      rw [h1] at h
      have a := seqLoad_ok load fuel seen f s h1
      obtain ⟨n1, rfl, p1⟩ := a.prefix_
      obtain ⟨h2, x, h3, h4⟩ := seqLoadAll_err load U fuel (seen ++ n1) fs e
        (fun x hx => hU x (hfs x hx)) (a.nodup hn)
        (by
          intro x hx
          rcases List.mem_append.mp hx with hx | hx
          · exact hs x hx
          · exact hU x (hf x (p1 x hx).1))
        (by simp; omega) h
      exact ⟨h2, x, hfs x h3, h4⟩
end

/-- C28: loading one after the other loads each needed file once, or stops with an error
exactly when some needed file cannot be loaded. -/
theorem C28_sequential (load : F → Option (List F)) (roots U : List F)
    (hU : ∀ f, Needed load roots f → f ∈ U) (fuel : Nat) (hfuel : U.length < fuel) :
    (∃ r, seqLoadAll load fuel [] roots = .ok r ∧ r.Nodup ∧
      (∀ f, f ∈ r ↔ Needed load roots f) ∧ ¬ ∃ f, Needed load roots f ∧ load f = none) ∨
    (seqLoadAll load fuel [] roots = .error .load ∧ ∃ f, Needed load roots f ∧ load f = none) := by
  cases h : seqLoadAll load fuel [] roots with
  | ok r =>
    left
    have a := seqLoadAll_ok load fuel [] roots r h
    obtain ⟨new, hr, hnew⟩ := a.prefix_
    rw [List.nil_append] at hr
    subst hr
    have hmem : ∀ f, f ∈ r ↔ Needed load roots f := by
      intro f
      refine ⟨fun hf => (hnew f hf).1, fun hf => ?_⟩
      induction hf with
      | root h => exact a.all _ h
      | dep _ hl hd ih =>
        obtain ⟨-, ds, h1, h2⟩ := hnew _ ih
        rw [hl] at h1
        cases h1
        exact h2 _ hd
    refine ⟨r, rfl, a.nodup (by simp), hmem, ?_⟩
    rintro ⟨f, hf, hl⟩
    obtain ⟨-, ds, h1, -⟩ := hnew f ((hmem f).mpr hf)
    rw [hl] at h1
    cases h1
  | error e =>
    right
    obtain ⟨h1, h2⟩ := seqLoadAll_err load U fuel [] roots e hU (by simp) (by simp) (by simpa using hfuel) h
    exact ⟨by rw [h1], h2⟩

/-- C28: loading in parallel and one after the other agree, whatever the schedule. -/
theorem C28_same (load : F → Option (List F)) (roots U : List F) (hr : roots.Nodup)
    (hU : ∀ f, Needed load roots f → f ∈ U) (fuel : Nat) (hfuel : U.length < fuel) (n : Nat)
    (s : ParState F) (h : ParSteps load n (ParState.init roots) s) (hf : s.pc = .finished) :
    (s.error = true ∧ seqLoadAll load fuel [] roots = .error .load) ∨
    (s.error = false ∧ ∃ r, seqLoadAll load fuel [] roots = .ok r ∧ s.loaded.Perm r) := by
  rcases C28_sequential load roots U hU fuel hfuel with ⟨r, h1, h2, h3, h4⟩ | ⟨h1, h2⟩
  · right
    have he : s.error = false := by
      cases hb : s.error with
      | false => rfl
      | true => exact absurd ((C28_error_iff load roots hr n s h hf).mp hb) h4
    refine ⟨he, r, h1, ?_⟩
    rw [List.perm_ext_iff_of_nodup (C28_once load roots hr n s h).2.1 h2]
    intro f
    rw [h3, C28_complete load roots hr n s h hf he]
  · exact Or.inl ⟨(C28_error_iff load roots hr n s h hf).mpr h2, h1⟩

/-! ### Samples -/

/-- A schedule: which thread makes the next step. -/
inductive ParAct (F : Type) where
  | main | wake | callback (f : F) | join

/-- The step, if it is possible. -/
def ParAct.run (load : F → Option (List F)) (s : ParState F) : ParAct F → Option (ParState F)
  | .main => if s.pc = .loop then some (mainLoop s) else none
  | .wake => if s.pc = .waiting true then some { s with pc := .loop } else none
  | .callback f =>
    if f ∈ s.outstanding ∧ (s.pc = .waiting true ∨ s.pc = .waiting false ∨ s.pc = .joining) then
      some (Gyp.callback load f s) else none
  | .join => if s.pc = .joining ∧ s.outstanding = [] then some { s with pc := .finished } else none

theorem ParAct.run_step {load : F → Option (List F)} {s t : ParState F} {a : ParAct F}
    (h : a.run load s = some t) : ParStep load s t := by
  cases a with
  | main =>
    simp only [ParAct.run] at h
    split at h
    · cases h; exact .main s (by assumption)
    · cases h
  | wake =>
    simp only [ParAct.run] at h
    split at h
    · cases h; exact .wake s (by assumption)
    · cases h
  | callback f =>
    simp only [ParAct.run] at h
    split at h
    · rename_i hc
      cases h
      refine .callback s f hc.1 ?_
      rcases hc.2 with h | h | h
      · exact Or.inl ⟨_, h⟩
      · exact Or.inl ⟨_, h⟩
      · exact Or.inr h
    · cases h
  | join =>
    simp only [ParAct.run] at h
    split at h
    · rename_i hc
      cases h
      exact .join s hc.1 hc.2
    · cases h

theorem ParAct.run_steps {load : F → Option (List F)} (acts : List (ParAct F)) :
    ∀ {n : Nat} {i s t : ParState F}, ParSteps load n i s →
      acts.foldlM (fun s a => a.run load s) s = some t → ∃ m, ParSteps load m i t := by
  induction acts with
  | nil => intro n i s t h e; cases e; exact ⟨n, h⟩
  | cons a acts ih =>
    intro n i s t h e
    rw [List.foldlM_cons] at e
    cases ha : a.run load s with
    | none => rw [ha] at e; cases e
    | some u =>
      rw [ha] at e
      exact ih (.step h (ParAct.run_step ha)) e

/-- `a` needs `b` and `c`, both need `d`, which needs `a`. -/
def sampleLoad (c : Char) : Option (List Char) :=
  if c = 'a' then some ['b', 'c']
  else if c = 'b' then some ['d']
  else if c = 'c' then some ['d', 'c']
  else if c = 'd' then some ['a']
  else none

example : seqLoadAll sampleLoad 5 [] ['a'] = .ok ['a', 'b', 'd', 'c'] := by
  simp [seqLoadAll, seqLoad, sampleLoad]

/-- A whole parallel run in which the second of two jobs finishes first. -/
example : ∃ n s, ParSteps sampleLoad n (ParState.init ['a']) s ∧ s.pc = .finished ∧
    s.error = false ∧ s.submitted = ['a', 'c', 'b', 'd'] ∧ s.loaded = ['a', 'b', 'c', 'd'] := by
  obtain ⟨m, h⟩ := ParAct.run_steps (load := sampleLoad)
    [.main, .main, .callback 'a', .wake, .main, .main, .main, .callback 'b', .callback 'c', .wake,
      .main, .main, .callback 'd', .wake, .main, .join] (.refl (ParState.init ['a'])) rfl
  exact ⟨m, _, h, rfl, rfl, rfl, rfl⟩

/-- A run with a file that cannot be loaded: `b`, though known, is never started. -/
example : ∃ n s, ParSteps sampleLoad n (ParState.init ['x', 'a']) s ∧ s.pc = .finished ∧
    s.error = true ∧ s.submitted = ['a', 'x'] ∧ s.loaded = ['a'] := by
  obtain ⟨m, h⟩ := ParAct.run_steps (load := sampleLoad)
    [.main, .main, .main, .callback 'x', .wake, .main, .callback 'a', .join]
    (.refl (ParState.init ['x', 'a'])) rfl
  exact ⟨m, _, h, rfl, rfl, rfl, rfl⟩

/-- The needed files of the sample. -/
example : ∀ f, Needed sampleLoad ['a'] f → f ∈ ['a', 'b', 'c', 'd'] := by
  intro f h
  induction h with
  | root h => simp at h; simp [h]
  | @dep f d ds _ hl hd ih =>
    simp at ih
    rcases ih with rfl | rfl | rfl | rfl <;> simp [sampleLoad] at hl <;> subst hl <;>
      simp at hd ⊢ <;> tauto

end Gyp
