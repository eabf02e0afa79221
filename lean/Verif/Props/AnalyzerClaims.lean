import Verif.Props.Analyzer
/-
C46: the claims about the answers of the change analyzer.
-/
namespace Gyp
open Spec

/-- No `-I` file of the command line is among the changed files. -/
def Spec.NoIncludeChanged (inp : AInput) : Prop := ∀ f ∈ inp.includes, normpath f ∉ inp.files

theorem includeModified_false {inp : AInput} (h : NoIncludeChanged inp) :
    includeModified inp = false := by
  unfold includeModified
  rw [List.any_eq_false]
  intro f hf
  simpa using h f hf

/-- Different targets of the build have different unqualified names. -/
def Spec.UniqueNames (inp : AInput) : Prop :=
  ∀ t u, InBuild inp t → InBuild inp u →
    (ParseQualifiedTarget t).2.1 = (ParseQualifiedTarget u).2.1 → t = u

theorem pick_unique {inp : AInput} {pick : Str → Option Str} (hp : Resolves inp pick)
    (hu : UniqueNames inp) {t : Str} (ht : InBuild inp t) :
    pick (ParseQualifiedTarget t).2.1 = some t := by
  cases h : pick (ParseQualifiedTarget t).2.1 with
  | none => exact absurd rfl (hp.missing _ h t ht)
  | some u =>
    obtain ⟨h1, h2⟩ := hp.named _ _ h
    rw [hu u t h1 ht h2]

/-- C46, the whole answer.  For every well-loaded build, every order in which Python
enumerates its sets and whatever the bounds, if the analyzer answers then
* the test targets reported are the supplied ones that are affected by the change, `all`
  standing for the roots;
* the compile targets are the test targets and those that follow the compile rule;
* the invalid targets are the supplied names nobody has;
* the status says whether anything is reported;
* the lists are sorted and repeat nothing. -/
theorem C46_answer {inp : AInput} (hw : WellLoaded inp) {ord : SetOrder} (ho : Permutes ord)
    {fuel depth : Nat} {out : AOutput} (hi : NoIncludeChanged inp)
    (h : analyze inp ord fuel depth = .ok out) :
    ∃ pick ms, Resolves inp pick ∧
      (ms.Nodup ∧ ∀ t, t ∈ ms ↔ InBuild inp t ∧ ChangedTarget inp t) ∧
      (∀ n, n ∈ out.testTargets ↔
        (n ≠ c!"all" ∧ n ∈ inp.tests ∧ ∃ t, pick n = some t ∧ Affected inp t) ∨
        (n = c!"all" ∧ n ∈ inp.tests ∧ ∃ t, PartOfAll inp t ∧ Affected inp t)) ∧
      (∃ C, CompileRule inp ms (Supplied inp pick) C ∧
        ∀ n, n ∈ out.compileTargets ↔
          n ∈ out.testTargets ∨ ∃ t, C t ∧ (ParseQualifiedTarget t).2.1 = n) ∧
      (∀ n, n ∈ out.invalidTargets ↔
        (n ∈ inp.additional ∨ n ∈ inp.tests) ∧ n ≠ c!"all" ∧ pick n = none) ∧
      (out.status = if out.compileTargets ≠ [] then AStatus.found else AStatus.noDependency) ∧
      (out.testTargets.Pairwise (fun a b => strLe a b = true) ∧
        out.compileTargets.Pairwise (fun a b => strLe a b = true) ∧
        out.invalidTargets.Pairwise (fun a b => strLe a b = true)) ∧
      (out.testTargets.Nodup ∧ out.compileTargets.Nodup ∧ out.invalidTargets.Nodup) := by
  obtain ⟨s, -, hg, ha⟩ := answer_of hw ho (includeModified_false hi) h
  refine ⟨firstNamed s.names, s.matching, resolves_firstNamed hg, ⟨hg.ndMatching, ?_⟩, ha.tests,
    ha.compile, ha.invalid, ha.status, ha.sorted, ha.once⟩
  intro t
  rw [hg.matching, hg.names]

/-- C46, test targets: a supplied name is reported iff the target of that name is, or
transitively depends on, a target with a changed file. -/
theorem C46_test_targets {inp : AInput} (hw : WellLoaded inp) (hu : UniqueNames inp)
    {ord : SetOrder} (ho : Permutes ord) {fuel depth : Nat} {out : AOutput}
    (hi : NoIncludeChanged inp) (h : analyze inp ord fuel depth = .ok out) {t : Str}
    (ht : InBuild inp t) (hn : (ParseQualifiedTarget t).2.1 ≠ c!"all") :
    (ParseQualifiedTarget t).2.1 ∈ out.testTargets ↔
      (ParseQualifiedTarget t).2.1 ∈ inp.tests ∧
        ∃ c, ChangedTarget inp c ∧ Reach (depEdges inp) t c := by
  obtain ⟨pick, ms, hp, -, h1, -⟩ := C46_answer hw ho hi h
  rw [h1]
  have hpt := pick_unique hp hu ht
  constructor
  · rintro (⟨-, h2, u, h3, h4⟩ | ⟨h2, -⟩)
    · rw [hpt] at h3; cases h3; exact ⟨h2, h4⟩
    · exact absurd h2 hn
  · rintro ⟨h2, h3⟩
    exact Or.inl ⟨hn, h2, t, hpt, h3⟩

/-- C46, `all`: it is reported iff it was supplied and one of the targets of the given
build files on which nothing depends is affected. -/
theorem C46_all {inp : AInput} (hw : WellLoaded inp) {ord : SetOrder} (ho : Permutes ord)
    {fuel depth : Nat} {out : AOutput} (hi : NoIncludeChanged inp)
    (h : analyze inp ord fuel depth = .ok out) :
    c!"all" ∈ out.testTargets ↔ c!"all" ∈ inp.tests ∧ ∃ t, InBuild inp t ∧
      (∀ u, InBuild inp u → t ∉ depEdges inp u) ∧
      (∃ f ∈ inp.buildFiles, (ParseQualifiedTarget t).1 = some f) ∧
      ∃ c, ChangedTarget inp c ∧ Reach (depEdges inp) t c := by
  obtain ⟨pick, ms, hp, -, h1, -⟩ := C46_answer hw ho hi h
  rw [h1]
  constructor
  · rintro (⟨h2, -⟩ | ⟨-, h2, t, h3, h4⟩)
    · exact absurd rfl h2
    · exact ⟨h2, t, h3.1, h3.2.1, h3.2.2, h4⟩
  · rintro ⟨h2, t, h3, h4, h5, h6⟩
    exact Or.inr ⟨rfl, h2, t, ⟨h3, h4, h5⟩, h6⟩

/-- A target below (or equal to) a supplied one. -/
def Spec.BelowSupplied (inp : AInput) (t : Str) : Prop :=
  ∃ r, InBuild inp r ∧ Reach (depEdges inp) r t ∧
    (((ParseQualifiedTarget r).2.1 ≠ c!"all" ∧
        ((ParseQualifiedTarget r).2.1 ∈ inp.additional ∨ (ParseQualifiedTarget r).2.1 ∈ inp.tests)) ∨
      ((c!"all" ∈ inp.additional ∨ c!"all" ∈ inp.tests) ∧ PartOfAll inp r))

theorem belowSupplied_iff {inp : AInput} {pick : Str → Option Str} (hp : Resolves inp pick)
    (hu : UniqueNames inp) (t : Str) :
    (∃ r, InBuild inp r ∧ Supplied inp pick r ∧ Reach (depEdges inp) r t) ↔
      BelowSupplied inp t := by
  constructor
  · rintro ⟨r, h1, h2 | h2, h3⟩
    · obtain ⟨n, h4, h5, h6⟩ := h2
      have := (hp.named n r h6).2
      subst this
      exact ⟨r, h1, h3, Or.inl ⟨h5, h4⟩⟩
    · exact ⟨r, h1, h3, Or.inr h2⟩
  · rintro ⟨r, h1, h2, ⟨h3, h4⟩ | h3⟩
    · exact ⟨r, h1, Or.inl ⟨_, h4, h3, pick_unique hp hu h1⟩, h2⟩
    · exact ⟨r, h1, Or.inr h3, h2⟩

/-- C46, compile targets are needed: each is a reported test target, or the name of an
affected target that is supplied or below a supplied one. -/
theorem C46_compile_needed {inp : AInput} (hw : WellLoaded inp) (hu : UniqueNames inp)
    {ord : SetOrder} (ho : Permutes ord) {fuel depth : Nat} {out : AOutput}
    (hi : NoIncludeChanged inp) (h : analyze inp ord fuel depth = .ok out) {n : Str}
    (hn : n ∈ out.compileTargets) :
    n ∈ out.testTargets ∨ ∃ t, (ParseQualifiedTarget t).2.1 = n ∧ InBuild inp t ∧
      BelowSupplied inp t ∧ ∃ c, ChangedTarget inp c ∧ Reach (depEdges inp) t c := by
  obtain ⟨pick, ms, hp, ⟨-, hms⟩, -, ⟨C, hC, h1⟩, -⟩ := C46_answer hw ho hi h
  rcases (h1 n).mp hn with h2 | ⟨t, h2, h3⟩
  · exact Or.inl h2
  · obtain ⟨h4, ⟨m, hm, hr⟩, h5, -⟩ := (hC t).mp h2
    exact Or.inr ⟨t, h3, h4, (belowSupplied_iff hp hu t).mp h5, m, ((hms m).mp hm).2, hr⟩

/-- C46, compile targets suffice: for every affected target that does something and is
supplied or below a supplied one, a compile target that is it or depends on it. -/
theorem C46_compile_suffices {inp : AInput} (hw : WellLoaded inp) (hu : UniqueNames inp)
    {ord : SetOrder} (ho : Permutes ord) {fuel depth : Nat} {out : AOutput}
    (hi : NoIncludeChanged inp) (h : analyze inp ord fuel depth = .ok out) {t : Str}
    (ht : InBuild inp t) (ha : Affected inp t) (hd : DoesSomething inp t)
    (hs : BelowSupplied inp t) :
    ∃ u, InBuild inp u ∧ Reach (depEdges inp) u t ∧
      (ParseQualifiedTarget u).2.1 ∈ out.compileTargets := by
  classical
  obtain ⟨pick, ms, hp, ⟨-, hms⟩, -, ⟨C, hC, h1⟩, -⟩ := C46_answer hw ho hi h
  by_cases hex : ∃ u, C u ∧ Reach1 (depEdges inp) u t
  · obtain ⟨u, h2, h3⟩ := hex
    exact ⟨u, ((hC u).mp h2).1, h3.to_reflTransGen, (h1 _).mpr (Or.inr ⟨u, h2, rfl⟩)⟩
  · obtain ⟨c, hc, hr⟩ := ha
    have hcb : InBuild inp c := by
      obtain ⟨r, h1, h2⟩ := ht
      exact ⟨r, h1, h2.trans hr⟩
    have : C t := (hC t).mpr ⟨ht, ⟨c, (hms c).mpr ⟨hcb, hc⟩, hr⟩,
      (belowSupplied_iff hp hu t).mpr hs, Or.inr (Or.inl ⟨hex, Or.inr hd⟩)⟩
    exact ⟨t, ht, .refl, (h1 _).mpr (Or.inr ⟨t, this, rfl⟩)⟩

/-- C46, every affected executable that is supplied or below a supplied target is itself a
compile target. -/
theorem C46_compile_executables {inp : AInput} (hw : WellLoaded inp) (hu : UniqueNames inp)
    {ord : SetOrder} (ho : Permutes ord) {fuel depth : Nat} {out : AOutput}
    (hi : NoIncludeChanged inp) (h : analyze inp ord fuel depth = .ok out) {t : Str}
    (ht : InBuild inp t) (ha : Affected inp t) (he : hasType inp c!"executable" t)
    (hs : BelowSupplied inp t) :
    (ParseQualifiedTarget t).2.1 ∈ out.compileTargets := by
  obtain ⟨pick, ms, hp, ⟨-, hms⟩, -, ⟨C, hC, h1⟩, -⟩ := C46_answer hw ho hi h
  obtain ⟨c, hc, hr⟩ := ha
  have hcb : InBuild inp c := by
    obtain ⟨r, h1, h2⟩ := ht
    exact ⟨r, h1, h2.trans hr⟩
  have : C t := (hC t).mpr ⟨ht, ⟨c, (hms c).mpr ⟨hcb, hc⟩, hr⟩,
    (belowSupplied_iff hp hu t).mpr hs, Or.inl he⟩
  exact (h1 _).mpr (Or.inr ⟨t, this, rfl⟩)

/-- C46, invalid targets: the supplied names other than `all` that no target has. -/
theorem C46_invalid {inp : AInput} (hw : WellLoaded inp) {ord : SetOrder} (ho : Permutes ord)
    {fuel depth : Nat} {out : AOutput} (hi : NoIncludeChanged inp)
    (h : analyze inp ord fuel depth = .ok out) (n : Str) :
    n ∈ out.invalidTargets ↔ (n ∈ inp.additional ∨ n ∈ inp.tests) ∧ n ≠ c!"all" ∧
      ∀ t, InBuild inp t → (ParseQualifiedTarget t).2.1 ≠ n := by
  obtain ⟨pick, ms, hp, -, -, -, h1, -⟩ := C46_answer hw ho hi h
  rw [h1]
  refine and_congr_right fun _ => and_congr_right fun _ => ?_
  constructor
  · exact hp.missing n
  · intro h2
    cases h3 : pick n with
    | none => rfl
    | some t => exact absurd (hp.named n t h3).2 (h2 t (hp.named n t h3).1)

/-- C46, a changed `-I` file counts as a change of everything: all supplied names are
reported. -/
theorem C46_include_changed (inp : AInput) (ord : SetOrder) (fuel depth : Nat) {f : Str}
    (hf : f ∈ inp.includes) (hc : normpath f ∈ inp.files) :
    ∃ out, analyze inp ord fuel depth = .ok out ∧ out.status = .allChanged ∧
      (∀ n, n ∈ out.testTargets ↔ n ∈ inp.tests) ∧
      (∀ n, n ∈ out.compileTargets ↔ n ∈ inp.additional ∨ n ∈ inp.tests) := by
  have h1 : inp.files ≠ [] := List.ne_nil_of_mem hc
  have h2 : includeModified inp = true := by
    unfold includeModified
    rw [List.any_eq_true]
    exact ⟨f, hf, by simpa using hc⟩
  unfold analyze
  rw [if_neg h1, h2, if_pos rfl]
  refine ⟨_, rfl, rfl, ?_, ?_⟩
  · intro n
    show n ∈ pySorted strLe _ ↔ _
    rw [mem_pySorted, mem_setUnion]; simp
  · intro n
    show n ∈ pySorted strLe _ ↔ _
    rw [mem_pySorted, mem_setUnion]

/-- C46, the analyzer answers: no target is visited forever, and the recursion is no deeper
than there are targets. -/
theorem C46_terminates {inp : AInput} (hw : WellLoaded inp) (hf : inp.files ≠ []) :
    ∃ N, ∀ fuel ≥ N, ∀ depth ≥ N, ∀ ord, Permutes ord →
      ∃ out, analyze inp ord fuel depth = .ok out := by
  obtain ⟨U, hU⟩ := hw.finite
  refine ⟨inp.targetList.reverse.length + pendingEdges inp U {} + U.length + 1, ?_⟩
  intro fuel hfuel depth hdepth ord ho
  unfold analyze
  rw [if_neg hf]
  by_cases hi : includeModified inp = true
  · rw [if_pos hi]; exact ⟨_, rfl⟩
  rw [if_neg hi]
  obtain ⟨s, hs⟩ := genLoop_total hw hU fuel inp.targetList.reverse {} (genInv_init inp) (by omega)
  have hs' : generateTargets inp fuel = .ok s := hs
  have hg := generated_of hs'
  have hlen : s.names.length ≤ U.length :=
    (List.Nodup.subperm hg.nd (fun t ht => hU t ((hg.names t).mp ht))).length_le
  simp only [hs']
  by_cases hm : s.matching = []
  · rw [if_pos hm]; exact ⟨_, rfl⟩
  rw [if_neg hm]
  have hmem : ∀ t, (∃ n, firstNamed s.names n = some t) → t ∈ s.names :=
    fun t ⟨n, h⟩ => (firstNamed_name h).1
  have htest : ∃ names tab, findTestTargets inp ord depth s = .ok (names, tab) := by
    unfold findTestTargets
    simp only
    have hno : ∀ t ∈ lookupTargets (ord .other ((setUnion inp.tests []).filter (· ≠ c!"all")))
        (unqualifiedMapping s.names (suppliedNoAll inp)).1, t ∈ s.names := by
      intro t ht
      rw [lookup_spec] at ht
      · obtain ⟨n, -, h⟩ := ht; exact hmem t ⟨n, h⟩
      · intro n hn
        rw [(ho _ _).mem_iff] at hn
        simp only [List.mem_filter, mem_setUnion, decide_eq_true_eq] at hn
        exact ⟨Or.inr (by simpa using hn.1), hn.2⟩
    generalize htt : (if decide (c!"all" ∈ inp.tests) = true then _ else _ : List Str) = tt
    have httN : ∀ t ∈ tt, t ∈ s.names := by
      intro t ht
      rw [← htt] at ht
      split at ht
      · rw [(ho _ _).mem_iff, mem_setUnion] at ht
        rcases ht with ht | ht
        · exact hno t ht
        · exact (hg.names t).mpr ((hg.root t).mp ht).1
      · exact hno t ht
    obtain ⟨found, tab, h⟩ := targetsDepending_total hg hw ho depth (by omega) tt s.tab
      (fun _ => rfl) httN
    rw [h]
    exact ⟨_, _, rfl⟩
  obtain ⟨names, tab, ht⟩ := htest
  simp only [ht]
  have htab := (findTestTargets_ok hg ho ht).1
  have hG : CGraph inp s (fun t => { tab t with visited := false }) := by
    refine ⟨?_, ?_, ?_, ?_⟩
    · intro x y
      have : (tab y).backDeps = (s.tab y).backDeps := by
        have := congrArg ATarget.backDeps (htab y); exact this
      show x ∈ (tab y).backDeps ↔ _
      rw [this]; exact hg.back x y
    · intro t ht; exact hw.acyclic t ((hg.names t).mp ht)
    · intro t ht x hx
      rw [hg.names] at ht ⊢
      obtain ⟨r, hr, hrt⟩ := ht
      exact ⟨r, hr, hrt.tail hx⟩
    · intro t
      refine ⟨rfl, ?_⟩
      have : (tab t).added = (s.tab t).added := by
        have := congrArg ATarget.added (htab t); exact this
      show (tab t).added = false
      rw [this]
      by_cases ht : t ∈ s.names
      · obtain ⟨d, hit, -, -, e⟩ := hg.record t ht
        rw [e]; rfl
      · rw [hg.fresh t ht]
  have hcomp : ∃ l, findCompileTargets inp ord depth s tab = .ok l := by
    unfold findCompileTargets
    simp only
    generalize (if c!"all" ∈ suppliedNames inp then _ else _ : List Str) = sup
    obtain ⟨c, hc⟩ := getCompile_total (roots := sup) hG ho depth (by omega) s.matching
      { tab := fun t => { tab t with visited := false } } (fun _ => rfl)
    rw [hc]
    exact ⟨_, rfl⟩
  obtain ⟨l, hl⟩ := hcomp
  rw [hl]
  exact ⟨_, rfl⟩

theorem transGen_above {inp : AInput} {a b : Str}
    (h : Relation.TransGen (fun x y => Reach1 (depEdges inp) y x) a b) :
    Reach1 (depEdges inp) b a := by
  induction h with
  | single e => exact e
  | tail _ e ih => exact e.trans ih

/-- The compile rule determines the compile targets. -/
theorem compileRule_unique {inp : AInput} (hw : WellLoaded inp) {ms : List Str}
    {S C C' : Str → Prop} (h : CompileRule inp ms S C) (h' : CompileRule inp ms S C') :
    ∀ t, C t ↔ C' t := by
  obtain ⟨U, hU⟩ := hw.finite
  have key : ∀ n t, rankIn (fun x y => Reach1 (depEdges inp) y x) U t < n → (C t ↔ C' t) := by
    intro n
    induction n with
    | zero => intro t h; omega
    | succ n ih =>
      intro t hn
      have hu : ∀ u, InBuild inp u → Reach1 (depEdges inp) u t → (C u ↔ C' u) := by
        intro u hub hut
        apply ih
        have := rankIn_lt (R := fun x y => Reach1 (depEdges inp) y x) (hU u hub) hut
          (fun hc => hw.acyclic u hub (transGen_above hc))
        omega
      have e : (∃ u, C u ∧ Reach1 (depEdges inp) u t) ↔ ∃ u, C' u ∧ Reach1 (depEdges inp) u t := by
        constructor
        · rintro ⟨u, h1, h2⟩; exact ⟨u, (hu u ((h u).mp h1).1 h2).mp h1, h2⟩
        · rintro ⟨u, h1, h2⟩; exact ⟨u, (hu u ((h' u).mp h1).1 h2).mpr h1, h2⟩
      rw [h t, h' t, e]
  exact fun t => key _ t (Nat.lt_succ_self _)

theorem sorted_ext {a b : List Str} (ha : a.Pairwise fun x y => strLe x y = true)
    (hb : b.Pairwise fun x y => strLe x y = true) (na : a.Nodup) (nb : b.Nodup)
    (h : ∀ x, x ∈ a ↔ x ∈ b) : a = b :=
  ((List.perm_ext_iff_of_nodup na nb).mpr h).eq_of_pairwise
    (fun x y _ _ h1 h2 => strLe_antisymm x y h1 h2) ha hb

/-- C46, the answer does not depend on the order in which Python enumerates its sets. -/
theorem C46_order_independent {inp : AInput} (hw : WellLoaded inp) {ord ord' : SetOrder}
    (ho : Permutes ord) (ho' : Permutes ord') {fuel depth depth' : Nat} {out out' : AOutput}
    (hi : NoIncludeChanged inp) (h : analyze inp ord fuel depth = .ok out)
    (h' : analyze inp ord' fuel depth' = .ok out') : out = out' := by
  obtain ⟨s, h1, hg, a⟩ := answer_of hw ho (includeModified_false hi) h
  obtain ⟨s', h1', -, b⟩ := answer_of hw ho' (includeModified_false hi) h'
  rw [h1] at h1'; cases h1'
  have e1 : out.testTargets = out'.testTargets :=
    sorted_ext a.sorted.1 b.sorted.1 a.once.1 b.once.1 (fun n => by rw [a.tests, b.tests])
  have e2 : out.compileTargets = out'.compileTargets := by
    refine sorted_ext a.sorted.2.1 b.sorted.2.1 a.once.2.1 b.once.2.1 (fun n => ?_)
    obtain ⟨C, c1, c2⟩ := a.compile
    obtain ⟨C', c1', c2'⟩ := b.compile
    have := compileRule_unique hw c1 c1'
    rw [c2, c2', e1]
    simp only [this]
  have e3 : out.invalidTargets = out'.invalidTargets :=
    sorted_ext a.sorted.2.2 b.sorted.2.2 a.once.2.2 b.once.2.2
      (fun n => by rw [a.invalid, b.invalid])
  have e4 : out.status = out'.status := by rw [a.status, b.status, e2]
  cases out; cases out'
  simp_all

end Gyp
