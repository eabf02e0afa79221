import Verif.Proofs.AnalyzerQueries
/-
C46: the change analyzer.
-/
namespace Gyp
open Spec

/-! ### Looking up unqualified names -/

theorem mapLookup_append (acc : List (Str × Str)) (a t n : Str) :
    mapLookup (acc ++ [(a, t)]) n =
      (mapLookup acc n).or (if a = n then some t else none) := by
  unfold mapLookup
  rw [List.find?_append]
  cases List.find? (fun p => decide (p.1 = n)) acc with
  | some p => simp
  | none =>
    by_cases h : a = n
    · simp [h]
    · simp [h]

/-- The first target in the list with the name. -/
def firstNamed (names : List Str) (n : Str) : Option Str := names.find? fun t => baseName t = n

theorem mapLoop_spec (names : List Str) : ∀ (toFind : List Str) (acc : List (Str × Str)),
    (∀ n ∈ toFind, mapLookup acc n = none) →
    (∀ n, mapLookup (mapLoop names toFind acc).1 n =
      if n ∈ toFind then firstNamed names n else mapLookup acc n) ∧
    (mapLoop names toFind acc).2 = toFind.filter fun n => (firstNamed names n).isNone := by
  induction names with
  | nil =>
    intro toFind acc hacc
    refine ⟨?_, ?_⟩
    · intro n
      simp only [mapLoop, firstNamed, List.find?_nil]
      split
      · exact hacc n (by assumption)
      · rfl
    · simp [mapLoop, firstNamed]
  | cons t ts ih =>
    intro toFind acc hacc
    have hfirst : ∀ n, firstNamed (t :: ts) n =
        if baseName t = n then some t else firstNamed ts n := by
      intro n
      unfold firstNamed
      rw [List.find?_cons]
      by_cases h : baseName t = n
      · simp [h]
      · simp [h]
    simp only [mapLoop]
    by_cases hm : baseName t ∈ toFind
    · rw [if_pos hm]
      have hacc' : ∀ n ∈ toFind.filter (· ≠ baseName t),
          mapLookup (acc ++ [(baseName t, t)]) n = none := by
        intro n hn
        simp only [List.mem_filter, decide_eq_true_eq] at hn
        rw [mapLookup_append, hacc n hn.1, if_neg (Ne.symm hn.2)]; rfl
      have hbase := hacc _ hm
      have hrest : toFind.filter (fun n => (firstNamed (t :: ts) n).isNone) =
          (toFind.filter (· ≠ baseName t)).filter fun n => (firstNamed ts n).isNone := by
        rw [List.filter_filter]
        apply List.filter_congr
        intro n _
        rw [hfirst]
        by_cases h : baseName t = n
        · simp [h]
        · simp [h, Ne.symm h]
      by_cases he : toFind.filter (· ≠ baseName t) = []
      · rw [if_pos he]
        refine ⟨?_, ?_⟩
        · intro n
          simp only
          rw [mapLookup_append, hfirst]
          have hall : ∀ n ∈ toFind, n = baseName t := by
            intro n hn
            by_contra hc
            have : n ∈ toFind.filter (· ≠ baseName t) := by simp [hn, hc]
            rw [he] at this; cases this
          by_cases hn : n ∈ toFind
          · have := hall n hn; subst this
            rw [hbase]; simp [hn]
          · have : baseName t ≠ n := fun e => hn (e ▸ hm)
            simp [hn, this]
        · rw [hrest, he]; rfl
      · rw [if_neg he]
        obtain ⟨c1, c2⟩ := ih _ _ hacc'
        refine ⟨?_, by rw [c2, hrest]⟩
        intro n
        rw [c1, hfirst, mapLookup_append]
        by_cases hn : n ∈ toFind
        · by_cases hb : baseName t = n
          · subst hb
            rw [if_neg (by simp), if_pos hn, hbase]; simp
          · rw [if_pos (by simp [hn, Ne.symm hb]), if_pos hn, if_neg hb]
        · have hb : baseName t ≠ n := fun e => hn (e ▸ hm)
          rw [if_neg (by simp [hn]), if_neg hn, if_neg hb]
          simp
    · rw [if_neg hm]
      obtain ⟨c1, c2⟩ := ih toFind acc hacc
      refine ⟨?_, ?_⟩
      · intro n
        rw [c1, hfirst]
        by_cases hn : n ∈ toFind
        · have : baseName t ≠ n := fun e => hm (e ▸ hn)
          simp [hn, this]
        · simp [hn]
      · rw [c2]
        apply List.filter_congr
        intro n hn
        have : baseName t ≠ n := fun e => hm (e ▸ hn)
        rw [hfirst, if_neg this]

theorem unqualifiedMapping_spec (names toFind : List Str) :
    (∀ n, mapLookup (unqualifiedMapping names toFind).1 n =
      if n ∈ toFind then firstNamed names n else none) ∧
    (unqualifiedMapping names toFind).2 = toFind.filter fun n => (firstNamed names n).isNone := by
  unfold unqualifiedMapping
  by_cases h : toFind = []
  · rw [if_pos h]; subst h; exact ⟨fun n => by simp [mapLookup], by simp⟩
  · rw [if_neg h]
    obtain ⟨c1, c2⟩ := mapLoop_spec names toFind [] (fun n _ => rfl)
    exact ⟨fun n => by rw [c1]; rfl, c2⟩

theorem resolves_firstNamed {inp : AInput} {s : GState} (hg : Generated inp s) :
    Resolves inp (firstNamed s.names) where
  named := fun n t h => by
    have h1 := List.mem_of_find?_eq_some h
    have h2 := List.find?_some h
    simp only [decide_eq_true_eq] at h2
    exact ⟨(hg.names t).mp h1, h2⟩
  missing := fun n h t ht e => by
    have := List.find?_eq_none.mp h t ((hg.names t).mpr ht)
    simp [baseName, e] at this

/-! ### The collection of compile targets, from the graph -/

theorem reach1_iff_back {inp : AInput} {g : GState} {tab0 : Str → ATarget}
    (hg : CGraph inp g tab0) {u t : Str} (hu : u ∈ g.names) :
    Reach1 (depEdges inp) u t ↔ ∃ b ∈ (tab0 t).backDeps, Reach (depEdges inp) u b := by
  constructor
  · intro h
    obtain ⟨b, h1, h2⟩ := Relation.TransGen.tail'_iff.mp h
    have hb : b ∈ g.names := by
      clear h h2
      induction h1 with
      | refl => exact hu
      | tail _ e ih => exact hg.closed _ ih _ e
    exact ⟨b, (hg.back b t).mpr ⟨hb, h2⟩, h1⟩
  · rintro ⟨b, h1, h2⟩
    exact Relation.TransGen.tail'_iff.mpr ⟨b, h2, ((hg.back b t).mp h1).2⟩

theorem compile_rule {inp : AInput} {g : GState} (hg : Generated inp g) (hw : WellLoaded inp)
    {ord : SetOrder} (ho : Permutes ord) {depth : Nat} {roots : List Str} {tab : Str → ATarget}
    (htab : ∀ t, SameButStatus (tab t) (g.tab t)) {c : CState}
    (h : getCompileTargets ord depth roots g.matching
      { tab := fun t => { tab t with visited := false } } = .ok c) :
    c.result.Nodup ∧ CompileRule inp g.matching (· ∈ roots) (· ∈ c.result) := by
  let tab0 : Str → ATarget := fun t => { tab t with visited := false }
  have hb0 : ∀ t, (tab0 t).backDeps = (g.tab t).backDeps := fun t => by
    have := congrArg ATarget.backDeps (htab t); exact this
  have hG : CGraph inp g tab0 := by
    refine ⟨?_, ?_, ?_, ?_⟩
    · intro x y; rw [hb0]; exact hg.back x y
    · intro t ht; exact hw.acyclic t ((hg.names t).mp ht)
    · intro t ht x hx
      rw [hg.names] at ht ⊢
      obtain ⟨r, hr, hrt⟩ := ht
      exact ⟨r, hr, hrt.tail hx⟩
    · intro t
      refine ⟨rfl, ?_⟩
      have h1 : (tab0 t).added = (g.tab t).added := by
        have := congrArg ATarget.added (htab t); exact this
      rw [h1]
      by_cases ht : t ∈ g.names
      · obtain ⟨d, hit, -, -, e⟩ := hg.record t ht
        rw [e]; rfl
      · rw [hg.fresh t ht]
  have hI0 : CompInv g roots tab0 [] (fun _ => False) { tab := tab0 } :=
    { names := fun x hx => by cases hx
      unvisited := fun _ _ => rfl
      unres := fun _ _ => by simp
      active := fun _ hx => by cases hx
      static := fun _ => ⟨rfl, rfl, rfl, rfl⟩
      done := fun x hx => by cases hx
      nd := List.nodup_nil }
  obtain ⟨hI, hV⟩ := getCompile_ok (roots := roots) hG ho depth g.matching
    (fun m hm => ((hg.matching m).mp hm).1) { tab := tab0 } c _ hI0 h
  refine ⟨hI.nd, ?_⟩
  have hvis : ∀ x, (c.tab x).visited = true ↔ ∃ m ∈ g.matching, Above inp g x m := by
    intro x; rw [hV]; simp [tab0]
  have hdone : ∀ x, (c.tab x).visited = true → CLocal roots tab0 [] c x (FirstBelow inp g.matching x) := by
    intro x hx
    have := hI.done x hx (by simp)
    simpa [tab0] using this
  have hVc : ∀ x, (c.tab x).visited = true → x ∈ g.names ∧
      ∀ b ∈ (tab0 x).backDeps, (c.tab b).visited = true :=
    fun x hx => ⟨hI.names x hx, fun b hb => ((hdone x hx).above b hb).1⟩
  have hroot := propagates (P := fun x => (c.tab x).inRoots = true) (Base := (· ∈ roots)) hG hVc
    (fun x hx => (hdone x hx).rooted)
  have hlink := propagates (P := fun x => (c.tab x).linkedAncestor = true)
    (Base := fun x => (tab0 x).linkedAncestor = true) hG hVc (fun x hx => (hdone x hx).linked)
  have hadd := propagates (P := fun x => (c.tab x).added = true) (Base := (· ∈ c.result)) hG hVc
    (fun x hx => (hdone x hx).added)
  have hresV : ∀ x, x ∈ c.result → (c.tab x).visited = true := by
    intro x hx
    by_contra hc
    exact hI.unres x (by simpa using hc) hx
  -- the record of a target of the build
  have hrec : ∀ t ∈ g.names, ∃ d, inp.dicts t = some d ∧
      (tab0 t).isExecutable = decide (d.type = c!"executable") ∧
      (tab0 t).isStaticLibrary = decide (d.type = c!"static_library") ∧
      (tab0 t).linkedAncestor =
        (decide (d.type = c!"executable") || decide (d.type = c!"shared_library")) ∧
      (tab0 t).requiresBuild = typeRequiresBuild d := by
    intro t ht
    obtain ⟨d, hit, h1, -, e⟩ := hg.record t ht
    have h2 := htab t
    rw [e] at h2
    refine ⟨d, h1, ?_, ?_, ?_, ?_⟩
    · exact congrArg ATarget.isExecutable h2
    · exact congrArg ATarget.isStaticLibrary h2
    · exact congrArg ATarget.linkedAncestor h2
    · exact congrArg ATarget.requiresBuild h2
  have hexe : ∀ t ∈ g.names, ((tab0 t).isExecutable = true ↔ hasType inp c!"executable" t) := by
    intro t ht
    obtain ⟨d, h1, h2, -⟩ := hrec t ht
    rw [h2]; simp [hasType, h1]
  have hsta : ∀ t ∈ g.names,
      ((tab0 t).isStaticLibrary = true ↔ hasType inp c!"static_library" t) := by
    intro t ht
    obtain ⟨d, h1, -, h2, -⟩ := hrec t ht
    rw [h2]; simp [hasType, h1]
  have hlnk : ∀ t ∈ g.names, ((tab0 t).linkedAncestor = true ↔
      hasType inp c!"executable" t ∨ hasType inp c!"shared_library" t) := by
    intro t ht
    obtain ⟨d, h1, -, -, h2, -⟩ := hrec t ht
    rw [h2]; simp [hasType, h1]
  have hreq : ∀ t ∈ g.names, ((tab0 t).requiresBuild = true ↔ DoesSomething inp t) := by
    intro t ht
    obtain ⟨d, h1, -, -, -, h2⟩ := hrec t ht
    rw [h2]; simp [DoesSomething, h1, typeRequiresBuild, or_assoc]
  intro t
  beta_reduce
  have habove : ∀ r x, Above inp g r x ↔ InBuild inp r ∧ Reach (depEdges inp) r x := by
    intro r x; rw [Above, hg.names]
  by_cases hv : (c.tab t).visited = true
  · have htn := hI.names t hv
    have hL := hdone t hv
    rw [hL.chosen, hroot t hv, hexe t htn, hsta t htn, hreq t htn]
    have e1 : (c.tab t).linkedAncestor ≠ true ↔
        ¬ ∃ u, InBuild inp u ∧ Reach (depEdges inp) u t ∧
          (hasType inp c!"executable" u ∨ hasType inp c!"shared_library" u) := by
      rw [ne_eq, hlink t hv]
      apply not_congr
      constructor
      · rintro ⟨r, hr, hb⟩
        exact ⟨r, ((habove r t).mp hr).1, hr.2, (hlnk r hr.1).mp hb⟩
      · rintro ⟨r, h1, h2, h3⟩
        have hr := (habove r t).mpr ⟨h1, h2⟩
        exact ⟨r, hr, (hlnk r hr.1).mpr h3⟩
    have e2 : (∃ b ∈ (tab0 t).backDeps, (c.tab b).added = true) ↔
        ∃ u, u ∈ c.result ∧ Reach1 (depEdges inp) u t := by
      constructor
      · rintro ⟨b, hb, hab⟩
        obtain ⟨r, hr, hres⟩ := (hadd b ((hVc t hv).2 b hb)).mp hab
        exact ⟨r, hres, (reach1_iff_back hG hr.1).mpr ⟨b, hb, hr.2⟩⟩
      · rintro ⟨u, hu, hut⟩
        have hun := hI.names u (hresV u hu)
        obtain ⟨b, hb, hub⟩ := (reach1_iff_back hG hun).mp hut
        exact ⟨b, hb, (hadd b ((hVc t hv).2 b hb)).mpr ⟨u, ⟨hun, hub⟩, hu⟩⟩
    rw [e1, e2]
    have e3 : (∃ r, Above inp g r t ∧ r ∈ roots) ↔
        ∃ r, InBuild inp r ∧ r ∈ roots ∧ Reach (depEdges inp) r t := by
      constructor
      · rintro ⟨r, hr, h2⟩; exact ⟨r, ((habove r t).mp hr).1, h2, hr.2⟩
      · rintro ⟨r, h1, h2, h3⟩; exact ⟨r, (habove r t).mpr ⟨h1, h3⟩, h2⟩
    rw [e3]
    obtain ⟨m, hm, hr⟩ := (hvis t).mp hv
    have h1 : InBuild inp t := ((habove t m).mp hr).1
    have h2 : ∃ m ∈ g.matching, Reach (depEdges inp) t m := ⟨m, hm, hr.2⟩
    simp only [h1, h2, true_and]
  · constructor
    · intro hc; exact absurd (hresV t hc) hv
    · rintro ⟨h1, ⟨m, hm, h2⟩, -⟩
      exact absurd ((hvis t).mpr ⟨m, hm, (habove t m).mpr ⟨h1, h2⟩⟩) hv

/-! ### The whole answer -/

/-- The two lists of names that are looked up. -/
theorem mem_suppliedNoAll (inp : AInput) (n : Str) :
    n ∈ suppliedNoAll inp ↔ (n ∈ inp.additional ∨ n ∈ inp.tests) ∧ n ≠ c!"all" := by
  simp [suppliedNoAll, suppliedNames, mem_setUnion]

theorem mem_lookupTargets (names : List Str) (m : List (Str × Str)) (t : Str) :
    t ∈ lookupTargets names m ↔ ∃ n ∈ names, mapLookup m n = some t := by
  simp [lookupTargets]

theorem strLe_pairwise_sorted (l : List Str) :
    (pySorted strLe l).Pairwise fun a b => strLe a b = true :=
  pySorted_pairwise strLe strLe_total strLe_trans l

/-- The answer for a run in which the targets have been generated. -/
structure AnswerOf (inp : AInput) (pick : Str → Option Str) (ms : List Str) (out : AOutput) :
    Prop where
  tests : ∀ n, n ∈ out.testTargets ↔
    (n ≠ c!"all" ∧ n ∈ inp.tests ∧ ∃ t, pick n = some t ∧ Affected inp t) ∨
    (n = c!"all" ∧ n ∈ inp.tests ∧ ∃ t, PartOfAll inp t ∧ Affected inp t)
  compile : ∃ C, CompileRule inp ms (Supplied inp pick) C ∧
    ∀ n, n ∈ out.compileTargets ↔
      n ∈ out.testTargets ∨ ∃ t, C t ∧ (ParseQualifiedTarget t).2.1 = n
  invalid : ∀ n, n ∈ out.invalidTargets ↔
    (n ∈ inp.additional ∨ n ∈ inp.tests) ∧ n ≠ c!"all" ∧ pick n = none
  status : out.status =
    if out.compileTargets ≠ [] then AStatus.found else AStatus.noDependency
  sorted : out.testTargets.Pairwise (fun a b => strLe a b = true) ∧
    out.compileTargets.Pairwise (fun a b => strLe a b = true) ∧
    out.invalidTargets.Pairwise (fun a b => strLe a b = true)
  once : out.testTargets.Nodup ∧ out.compileTargets.Nodup ∧ out.invalidTargets.Nodup

theorem mem_pySorted (l : List Str) (n : Str) : n ∈ pySorted strLe l ↔ n ∈ l :=
  (pySorted_perm strLe l).mem_iff

theorem nodup_pySorted {l : List Str} (h : l.Nodup) : (pySorted strLe l).Nodup :=
  (pySorted_perm strLe l).nodup_iff.mpr h

theorem invalid_spec {inp : AInput} (names : List Str) :
    (∀ n, n ∈ (unqualifiedMapping names (suppliedNoAll inp)).2 ↔
      (n ∈ inp.additional ∨ n ∈ inp.tests) ∧ n ≠ c!"all" ∧ firstNamed names n = none) ∧
    (unqualifiedMapping names (suppliedNoAll inp)).2.Nodup := by
  obtain ⟨-, h2⟩ := unqualifiedMapping_spec names (suppliedNoAll inp)
  rw [h2]
  refine ⟨?_, ?_⟩
  · intro n
    rw [List.mem_filter, mem_suppliedNoAll]
    simp [and_assoc]
  · exact ((nodup_setUnion _ _).filter _).filter _

theorem lookup_spec {inp : AInput} (names l : List Str)
    (hl : ∀ n ∈ l, (n ∈ inp.additional ∨ n ∈ inp.tests) ∧ n ≠ c!"all") (t : Str) :
    t ∈ lookupTargets l (unqualifiedMapping names (suppliedNoAll inp)).1 ↔
      ∃ n ∈ l, firstNamed names n = some t := by
  obtain ⟨h1, -⟩ := unqualifiedMapping_spec names (suppliedNoAll inp)
  rw [mem_lookupTargets]
  constructor
  · rintro ⟨n, hn, h⟩
    rw [h1, if_pos ((mem_suppliedNoAll inp n).mpr (hl n hn))] at h
    exact ⟨n, hn, h⟩
  · rintro ⟨n, hn, h⟩
    exact ⟨n, hn, by rw [h1, if_pos ((mem_suppliedNoAll inp n).mpr (hl n hn))]; exact h⟩

theorem firstNamed_name {names : List Str} {n t : Str} (h : firstNamed names n = some t) :
    t ∈ names ∧ baseName t = n := by
  have h2 := List.find?_some h
  simp only [decide_eq_true_eq] at h2
  exact ⟨List.mem_of_find?_eq_some h, h2⟩

theorem lookup_nodup {inp : AInput} (names l : List Str) (hn : l.Nodup)
    (hl : ∀ n ∈ l, (n ∈ inp.additional ∨ n ∈ inp.tests) ∧ n ≠ c!"all") :
    (lookupTargets l (unqualifiedMapping names (suppliedNoAll inp)).1).Nodup := by
  obtain ⟨h1, -⟩ := unqualifiedMapping_spec names (suppliedNoAll inp)
  unfold lookupTargets
  refine List.Nodup.filterMap ?_ hn
  intro a a' b hb hb'
  simp only [Option.mem_def] at hb hb'
  have key : ∀ a, mapLookup (unqualifiedMapping names (suppliedNoAll inp)).1 a = some b →
      baseName b = a := by
    intro a h
    rw [h1] at h
    split at h
    · exact (firstNamed_name h).2
    · cases h
  rw [← key a hb, ← key a' hb']

/-- The test targets found. -/
theorem findTestTargets_ok {inp : AInput} {s : GState} (hg : Generated inp s)
    {ord : SetOrder} (ho : Permutes ord) {depth : Nat} {names : List Str} {tab : Str → ATarget}
    (h : findTestTargets inp ord depth s = .ok (names, tab)) :
    (∀ t, SameButStatus (tab t) (s.tab t)) ∧ names.Nodup ∧
    ∀ n, n ∈ names ↔
      (n ≠ c!"all" ∧ n ∈ inp.tests ∧ ∃ t, firstNamed s.names n = some t ∧ Affected inp t) ∨
      (n = c!"all" ∧ n ∈ inp.tests ∧ ∃ t, PartOfAll inp t ∧ Affected inp t) := by
  unfold findTestTargets at h
  simp only at h
  generalize hl : ord .other ((setUnion inp.tests []).filter (· ≠ c!"all")) = l at h
  have hlm : ∀ n, n ∈ l ↔ n ∈ inp.tests ∧ n ≠ c!"all" := by
    intro n; rw [← hl, (ho _ _).mem_iff]; simp [mem_setUnion]
  have hln : l.Nodup := by
    rw [← hl]; exact (ho _ _).nodup_iff.mpr ((nodup_setUnion _ _).filter _)
  generalize hno : lookupTargets l (unqualifiedMapping s.names (suppliedNoAll inp)).1 = noAll at h
  have hnoM : ∀ t, t ∈ noAll ↔ ∃ n ∈ l, firstNamed s.names n = some t := by
    intro t; rw [← hno]
    exact lookup_spec s.names l (fun n hn => ⟨Or.inr ((hlm n).mp hn).1, ((hlm n).mp hn).2⟩) t
  have hnoN : noAll.Nodup := by
    rw [← hno]
    exact lookup_nodup s.names l hln (fun n hn => ⟨Or.inr ((hlm n).mp hn).1, ((hlm n).mp hn).2⟩)
  have hnoNames : ∀ t ∈ noAll, t ∈ s.names ∧ baseName t ∈ inp.tests ∧ baseName t ≠ c!"all" ∧
      firstNamed s.names (baseName t) = some t := by
    intro t ht
    obtain ⟨n, hn, hf⟩ := (hnoM t).mp ht
    obtain ⟨h1, h2⟩ := firstNamed_name hf
    rw [h2]
    exact ⟨h1, ((hlm n).mp hn).1, ((hlm n).mp hn).2, hf⟩
  have hinj : ∀ a ∈ noAll, ∀ b ∈ noAll, baseName a = baseName b → a = b := by
    intro a ha b hb e
    have h1 := (hnoNames a ha).2.2.2
    have h2 := (hnoNames b hb).2.2.2
    rw [e, h2] at h1
    exact (Option.some.inj h1).symm
  generalize htt : (if decide (c!"all" ∈ inp.tests) = true then
    ord .testTargets (setUnion noAll (rootTargets s)) else noAll) = tt at h
  have httM : ∀ t, t ∈ tt ↔ t ∈ noAll ∨ (c!"all" ∈ inp.tests ∧ PartOfAll inp t) := by
    intro t
    rw [← htt]
    by_cases ha : c!"all" ∈ inp.tests
    · simp only [ha, decide_true, if_true, true_and]
      rw [(ho _ _).mem_iff, mem_setUnion, hg.root]
    · simp [ha]
  have httN : tt.Nodup := by
    rw [← htt]
    split
    · exact (ho _ _).nodup_iff.mpr (nodup_setUnion _ _)
    · exact hnoN
  have httNames : ∀ t ∈ tt, t ∈ s.names := by
    intro t ht
    rcases (httM t).mp ht with h1 | h1
    · exact (hnoNames t h1).1
    · exact (hg.names t).mpr h1.2.1
  cases hf : targetsDepending ord depth tt s.tab with
  | error e => simp only [hf] at h; cases h
  | ok r =>
    obtain ⟨found, tab1⟩ := r
    simp only [hf] at h
    obtain ⟨c1, c2, c3⟩ := targetsDepending_ok hg ho depth tt s.tab (statusOK_init hg) httNames
      found tab1 hf
    have hfN : found.Nodup := c2.nodup httN
    generalize hma : (decide (c!"all" ∈ inp.tests) &&
      found.any fun x => decide (x ∈ rootTargets s)) = ma at h
    have hmaIff : ma = true ↔ c!"all" ∈ inp.tests ∧ ∃ t, PartOfAll inp t ∧ Affected inp t := by
      rw [← hma]
      simp only [Bool.and_eq_true, decide_eq_true_eq, List.any_eq_true]
      constructor
      · rintro ⟨h1, t, h2, h3⟩
        exact ⟨h1, t, (hg.root t).mp h3, ((c3 t).mp h2).2⟩
      · rintro ⟨h1, t, h2, h3⟩
        exact ⟨h1, t, (c3 t).mpr ⟨(httM t).mpr (Or.inr ⟨h1, h2⟩), h3⟩, (hg.root t).mpr h2⟩
    have hfm : ∀ t, t ∈ (if ma = true then found.filter (fun x => decide (x ∈ noAll)) else found) ↔
        t ∈ noAll ∧ Affected inp t := by
      intro t
      cases hmv : ma with
      | true =>
        simp only [if_true, List.mem_filter, decide_eq_true_eq, c3, httM]
        tauto
      | false =>
        simp only [Bool.false_eq_true, if_false, c3, httM]
        constructor
        · rintro ⟨h1 | ⟨h1, h2⟩, h3⟩
          · exact ⟨h1, h3⟩
          · have := hmaIff.mpr ⟨h1, t, h2, h3⟩
            rw [hmv] at this; cases this
        · rintro ⟨h1, h2⟩; exact ⟨Or.inl h1, h2⟩
    have hfmN : (if ma = true then found.filter (fun x => decide (x ∈ noAll)) else found).Nodup := by
      split
      · exact hfN.filter _
      · exact hfN
    generalize (if ma = true then found.filter (fun x => decide (x ∈ noAll)) else found) = fm
      at h hfm hfmN
    cases h
    refine ⟨c1.same, ?_, ?_⟩
    · rw [List.nodup_append]
      refine ⟨?_, ?_, ?_⟩
      · refine List.Nodup.map_on ?_ hfmN
        intro a ha b hb e
        exact hinj a ((hfm a).mp ha).1 b ((hfm b).mp hb).1 e
      · split <;> simp
      · intro a ha b hb e
        subst e
        obtain ⟨t, ht, rfl⟩ := List.mem_map.mp ha
        have := (hnoNames t ((hfm t).mp ht).1).2.2.1
        split at hb
        · exact this (List.mem_singleton.mp hb)
        · cases hb
    · intro n
      rw [List.mem_append, List.mem_map]
      have e1 : (∃ a ∈ fm, baseName a = n) ↔
          (n ≠ c!"all" ∧ n ∈ inp.tests ∧ ∃ t, firstNamed s.names n = some t ∧ Affected inp t) := by
        constructor
        · rintro ⟨t, ht, rfl⟩
          obtain ⟨h1, h2⟩ := (hfm t).mp ht
          obtain ⟨-, g2, g3, g4⟩ := hnoNames t h1
          exact ⟨g3, g2, t, g4, h2⟩
        · rintro ⟨h1, h2, t, h3, h4⟩
          exact ⟨t, (hfm t).mpr ⟨(hnoM t).mpr ⟨n, (hlm n).mpr ⟨h2, h1⟩, h3⟩, h4⟩,
            (firstNamed_name h3).2⟩
      have e2 : n ∈ (if ma = true then [c!"all"] else []) ↔
          (n = c!"all" ∧ n ∈ inp.tests ∧ ∃ t, PartOfAll inp t ∧ Affected inp t) := by
        split
        · rename_i hm
          obtain ⟨h1, h2⟩ := hmaIff.mp hm
          constructor
          · intro hn
            have := List.mem_singleton.mp hn
            subst this; exact ⟨rfl, h1, h2⟩
          · rintro ⟨rfl, -, -⟩; simp
        · rename_i hm
          constructor
          · intro hn; cases hn
          · rintro ⟨rfl, h1, h2⟩; exact absurd (hmaIff.mpr ⟨h1, h2⟩) hm
      rw [e1, e2]

theorem supplied_spec {inp : AInput} {s : GState} (hg : Generated inp s) (t : Str) :
    t ∈ (if c!"all" ∈ suppliedNames inp then
        setUnion (lookupTargets (suppliedNoAll inp)
          (unqualifiedMapping s.names (suppliedNoAll inp)).1) (rootTargets s)
      else lookupTargets (suppliedNoAll inp)
        (unqualifiedMapping s.names (suppliedNoAll inp)).1) ↔
      Supplied inp (firstNamed s.names) t := by
  have h1 := lookup_spec (inp := inp) s.names (suppliedNoAll inp)
    (fun n hn => (mem_suppliedNoAll inp n).mp hn) t
  have h2 : c!"all" ∈ suppliedNames inp ↔ (c!"all" ∈ inp.additional ∨ c!"all" ∈ inp.tests) := by
    simp [suppliedNames, mem_setUnion]
  have h3 : (∃ n ∈ suppliedNoAll inp, firstNamed s.names n = some t) ↔
      ∃ n, (n ∈ inp.additional ∨ n ∈ inp.tests) ∧ n ≠ c!"all" ∧ firstNamed s.names n = some t := by
    constructor
    · rintro ⟨n, hn, h⟩
      have := (mem_suppliedNoAll inp n).mp hn
      exact ⟨n, this.1, this.2, h⟩
    · rintro ⟨n, h4, h5, h⟩
      exact ⟨n, (mem_suppliedNoAll inp n).mpr ⟨h4, h5⟩, h⟩
  unfold Supplied
  by_cases ha : c!"all" ∈ suppliedNames inp
  · rw [if_pos ha, mem_setUnion, h1, hg.root, h3]
    have := h2.mp ha
    constructor
    · rintro (h | h)
      · exact Or.inl h
      · exact Or.inr ⟨this, h⟩
    · rintro (h | ⟨-, h⟩)
      · exact Or.inl h
      · exact Or.inr h
  · rw [if_neg ha, h1, h3]
    constructor
    · exact Or.inl
    · rintro (h | ⟨h, -⟩)
      · exact h
      · exact absurd (h2.mpr h) ha

theorem findCompileTargets_ok {inp : AInput} {s : GState} (hg : Generated inp s)
    (hw : WellLoaded inp) {ord : SetOrder} (ho : Permutes ord) {depth : Nat} {names : List Str}
    {tab : Str → ATarget} (htab : ∀ t, SameButStatus (tab t) (s.tab t))
    (h : findCompileTargets inp ord depth s tab = .ok names) :
    ∃ C, CompileRule inp s.matching (Supplied inp (firstNamed s.names)) C ∧
      ∀ n, n ∈ names ↔ ∃ t, C t ∧ (ParseQualifiedTarget t).2.1 = n := by
  unfold findCompileTargets at h
  simp only at h
  have hsup := supplied_spec (inp := inp) hg
  generalize (if c!"all" ∈ suppliedNames inp then _ else _ : List Str) = sup at h hsup
  cases hc : getCompileTargets ord depth sup s.matching
      { tab := fun t => { tab t with visited := false } } with
  | error e => simp only [hc] at h; cases h
  | ok c =>
    simp only [hc] at h
    cases h
    obtain ⟨-, hrule⟩ := compile_rule hg hw ho htab hc
    refine ⟨(· ∈ c.result), ?_, ?_⟩
    · have : (fun x => x ∈ sup) = Supplied inp (firstNamed s.names) :=
        funext fun t => propext (hsup t)
      rw [← this]; exact hrule
    · intro n
      simp [baseName]

theorem affected_matching {inp : AInput} {s : GState} (hg : Generated inp s) {t : Str}
    (ht : InBuild inp t) (ha : Affected inp t) : s.matching ≠ [] := by
  obtain ⟨c, hc, hr⟩ := ha
  have hcb : InBuild inp c := by
    obtain ⟨r, h1, h2⟩ := ht
    exact ⟨r, h1, h2.trans hr⟩
  have : c ∈ s.matching := (hg.matching c).mpr ⟨(hg.names c).mpr hcb, hc⟩
  intro e; rw [e] at this; cases this

theorem answer_of {inp : AInput} (hw : WellLoaded inp) {ord : SetOrder} (ho : Permutes ord)
    {fuel depth : Nat} {out : AOutput} (hi : includeModified inp = false)
    (h : analyze inp ord fuel depth = .ok out) :
    ∃ s, generateTargets inp fuel = .ok s ∧ Generated inp s ∧
      AnswerOf inp (firstNamed s.names) s.matching out := by
  unfold analyze at h
  by_cases hf : inp.files = []
  · rw [if_pos hf] at h; cases h
  rw [if_neg hf, hi] at h
  simp only [Bool.false_eq_true, if_false] at h
  cases hgen : generateTargets inp fuel with
  | error e => simp only [hgen] at h; cases h
  | ok s =>
    simp only [hgen] at h
    have hg := generated_of hgen
    refine ⟨s, rfl, hg, ?_⟩
    obtain ⟨hinv, hinvN⟩ := invalid_spec (inp := inp) s.names
    by_cases hm : s.matching = []
    · rw [if_pos hm] at h
      cases h
      have hno : ∀ t, InBuild inp t → ¬ Affected inp t :=
        fun t ht ha => affected_matching hg ht ha hm
      refine
        { tests := fun n => ?_
          compile := ⟨fun _ => False, ?_, ?_⟩
          invalid := fun n => ?_
          status := rfl
          sorted := ⟨List.Pairwise.nil, List.Pairwise.nil, strLe_pairwise_sorted _⟩
          once := ⟨List.nodup_nil, List.nodup_nil, nodup_pySorted hinvN⟩ }
      · constructor
        · intro hn; cases hn
        · rintro (⟨-, -, t, h1, h2⟩ | ⟨-, -, t, h1, h2⟩)
          · exact absurd h2 (hno t ((hg.names t).mp (firstNamed_name h1).1))
          · exact absurd h2 (hno t h1.1)
      · intro t
        rw [hm]
        simp
      · intro n
        constructor
        · intro hn; cases hn
        · rintro (hn | ⟨t, hc, -⟩)
          · cases hn
          · exact hc.elim
      · show n ∈ pySorted strLe _ ↔ _
        rw [mem_pySorted, hinv]
    · rw [if_neg hm] at h
      cases ht : findTestTargets inp ord depth s with
      | error e => simp only [ht] at h; cases h
      | ok r =>
        obtain ⟨tests, tab⟩ := r
        simp only [ht] at h
        obtain ⟨t1, t2, t3⟩ := findTestTargets_ok hg ho ht
        cases hc : findCompileTargets inp ord depth s tab with
        | error e => simp only [hc] at h; cases h
        | ok compile =>
          simp only [hc] at h
          cases h
          obtain ⟨C, c1, c2⟩ := findCompileTargets_ok hg hw ho t1 hc
          refine
            { tests := fun n => ?_
              compile := ⟨C, c1, fun n => ?_⟩
              invalid := fun n => ?_
              status := ?_
              sorted := ⟨strLe_pairwise_sorted _, strLe_pairwise_sorted _, strLe_pairwise_sorted _⟩
              once := ⟨nodup_pySorted t2, nodup_pySorted (nodup_setUnion _ _),
                nodup_pySorted hinvN⟩ }
          · show n ∈ pySorted strLe _ ↔ _
            rw [mem_pySorted]; exact t3 n
          · show n ∈ pySorted strLe _ ↔ n ∈ pySorted strLe _ ∨ _
            rw [mem_pySorted, mem_pySorted, mem_setUnion, c2 n]
            exact or_comm
          · show n ∈ pySorted strLe _ ↔ _
            rw [mem_pySorted, hinv]
          · show (if _ then _ else _) = if pySorted strLe (setUnion compile tests) ≠ [] then _ else _
            have : (compile ≠ [] ∨ tests ≠ []) ↔ pySorted strLe (setUnion compile tests) ≠ [] := by
              constructor
              · intro h0 he
                have hnil : ∀ n, n ∈ compile ∨ n ∈ tests → False := by
                  intro n hn
                  have : n ∈ pySorted strLe (setUnion compile tests) :=
                    (mem_pySorted _ _).mpr ((mem_setUnion _ _ _).mpr hn)
                  rw [he] at this; cases this
                rcases h0 with h0 | h0
                · obtain ⟨n, hn⟩ := List.exists_mem_of_ne_nil _ h0; exact hnil n (Or.inl hn)
                · obtain ⟨n, hn⟩ := List.exists_mem_of_ne_nil _ h0; exact hnil n (Or.inr hn)
              · intro h0
                obtain ⟨n, hn⟩ := List.exists_mem_of_ne_nil _ h0
                rcases (mem_setUnion _ _ _).mp ((mem_pySorted _ _).mp hn) with h1 | h1
                · exact Or.inl (List.ne_nil_of_mem h1)
                · exact Or.inr (List.ne_nil_of_mem h1)
            by_cases hx : compile ≠ [] ∨ tests ≠ []
            · rw [if_pos hx, if_pos (this.mp hx)]
            · rw [if_neg hx, if_neg (fun e => hx (this.mpr e))]

end Gyp
