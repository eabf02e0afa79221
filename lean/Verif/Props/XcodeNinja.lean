import Verif.Spec.XcodeNinja
import Verif.Props.Analyzer
/-
C128: the wrapper of Xcode around ninja.
-/
namespace Gyp
open Spec

theorem isValidForWrapper_iff {extras pattern : Option (Str → Bool)} {s : XnSpec} :
    isValidForWrapper extras pattern s = true ↔ ShownInXcode extras pattern s := by
  unfold isValidForWrapper ShownInXcode
  have h1 : askedFor extras s.name = true ↔ ∃ e, extras = some e ∧ e s.name = true := by
    cases extras <;> simp [askedFor]
  have h2 : (s.xctest || (s.type = c!"executable" && s.productExtension ≠ c!"bundle")) = true ↔
      (s.xctest = true ∨ s.type = c!"executable" ∧ s.productExtension ≠ c!"bundle") := by
    simp
  by_cases a : ∃ e, extras = some e ∧ e s.name = true
  · rw [if_pos (h1.mpr a)]; simp [a]
  · rw [if_neg (mt h1.mp a)]
    by_cases b : (s.xctest = true ∨ s.type = c!"executable" ∧ s.productExtension ≠ c!"bundle")
    · rw [if_pos (h2.mpr b)]
      cases pattern <;> simp only [a, b, false_or, true_and] <;> simp
    · rw [if_neg (mt h2.mp b)]
      simp only [a, b, false_or, false_and, Bool.false_eq_true]

/-- **C128 (targets).** The wrapper has the shown targets, in their order, and one more for indexing. -/
theorem C128_targets (mainGyp sourcesGyp : Str) (extras pattern : Option (Str → Bool)) (ts : List XnSpec) :
    ∃ kept dropped : List XnSpec, kept.Sublist ts ∧ (kept ++ dropped).Perm ts ∧ (∀ t ∈ kept, ShownInXcode extras pattern t) ∧
      (∀ t ∈ dropped, ¬ ShownInXcode extras pattern t) ∧
      wrapperTargets mainGyp sourcesGyp extras pattern ts =
        kept.map (fun s => mainGyp ++ c!":" ++ s.name ++ c!"#target") ++
        [sourcesGyp ++ c!":sources_for_indexing#target"] := by
  refine ⟨ts.filter (isValidForWrapper extras pattern), ts.filter (fun t => !isValidForWrapper extras pattern t),
    List.filter_sublist, List.filter_append_perm _ _, ?_, ?_, rfl⟩
  · intro t ht
    exact isValidForWrapper_iff.mp (List.mem_filter.mp ht).2
  · intro t ht h
    have := (List.mem_filter.mp ht).2
    rw [isValidForWrapper_iff.mpr h] at this
    cases this

/-- A program for examples. -/
def xnProgram (name : Str) : XnSpec := ⟨name, c!"executable", [], false, [], [c!"a.c", c!"$x"], [], [c!"b.c"], [], []⟩

/-- A library for examples. -/
def xnLibrary (name : Str) : XnSpec := ⟨name, c!"static_library", [], false, [], [c!"a.c"], [], [], [], []⟩

example : wrapperTargets c!"m.gyp" c!"s.gyp" none none [xnProgram c!"p", xnLibrary c!"l"] =
    [c!"m.gyp:p#target", c!"s.gyp:sources_for_indexing#target"] := by decide +kernel

theorem aget_carryOne (old new : List (Str × Str)) (key k : Str) :
    aget (carryOne old new key) k = if k = key then (aget old key).or (aget new k) else aget new k := by
  unfold carryOne
  cases h : aget old key with
  | none => simp
  | some v => simp only [aget_aset, Option.some_or]

theorem xn_keys : xnTarget ≠ xnSigning ∧ xnTarget ≠ xnLoader ∧ xnTarget ≠ xnHost ∧ xnTarget ≠ xnBuildDir ∧
    xnSigning ≠ xnLoader ∧ xnSigning ≠ xnHost ∧ xnSigning ≠ xnBuildDir ∧ xnLoader ≠ xnHost ∧ xnLoader ≠ xnBuildDir ∧
    xnHost ≠ xnBuildDir := by decide

theorem aget_carry {old new : List (Str × Str)} :
    (∀ k, k = xnTarget ∨ k = xnLoader ∨ k = xnHost →
      aget (carrySettings new old) k = (aget old k).or (aget new k)) ∧
    aget (carrySettings new old) xnSigning = (if (aget old xnTarget).isSome then some c!"NO" else aget new xnSigning) ∧
    ∀ k, k ≠ xnTarget → k ≠ xnLoader → k ≠ xnHost → k ≠ xnSigning → aget (carrySettings new old) k = aget new k := by
  obtain ⟨n1, n2, n3, n4, n5, n6, n7, n8, n9, n10⟩ := xn_keys
  unfold carrySettings
  simp only [aget_carryOne]
  refine ⟨?_, ?_, ?_⟩
  · rintro k (rfl | rfl | rfl)
    · rw [if_neg n3, if_neg n2]
      cases h : aget old xnTarget <;> simp [aget_aset]
    · rw [if_neg n8, if_pos rfl]
      cases h : aget old xnTarget <;> simp [aget_aset, n2.symm, n5.symm]
    · rw [if_pos rfl, if_neg n8.symm]
      cases h : aget old xnTarget <;> simp [aget_aset, n3.symm, n6.symm]
  · rw [if_neg n6, if_neg n5]
    cases h : aget old xnTarget <;> simp [aget_aset, n1.symm]
  · intro k h1 h2 h3 h4
    rw [if_neg h3, if_neg h2]
    cases h : aget old xnTarget <;> simp [aget_aset, h1, h4]

theorem aget_fold (k : Str) (hk : k = xnTarget ∨ k = xnLoader ∨ k = xnHost) :
    ∀ (configs : List (Str × List (Str × Str))) (new : List (Str × Str)),
    (∃ v, LastSays configs k v ∧ aget (configs.foldl (fun n c => carrySettings n c.2) new) k = some v) ∨
    (∀ c ∈ configs, aget c.2 k = none) ∧
      aget (configs.foldl (fun n c => carrySettings n c.2) new) k = aget new k
  | [], new => .inr ⟨by simp, rfl⟩
  | c :: cs, new => by
    rw [List.foldl_cons]
    rcases aget_fold k hk cs (carrySettings new c.2) with ⟨v, ⟨a, d, b, he, h1, h2⟩, h⟩ | ⟨h1, h2⟩
    · exact .inl ⟨v, ⟨c :: a, d, b, by rw [he]; rfl, h1, h2⟩, h⟩
    · rw [aget_carry.1 k hk] at h2
      cases hc : aget c.2 k with
      | none =>
        rw [hc] at h2
        exact .inr ⟨fun x hx => by
          rcases List.mem_cons.mp hx with rfl | hx
          · exact hc
          · exact h1 x hx, by simpa using h2⟩
      | some v =>
        rw [hc] at h2
        exact .inl ⟨v, ⟨[], c, cs, rfl, hc, h1⟩, by simpa using h2⟩

theorem lastSays_not_none {configs : List (Str × List (Str × Str))} {k v : Str} (h : LastSays configs k v)
    (hn : ∀ c ∈ configs, aget c.2 k = none) : False := by
  obtain ⟨a, c, b, rfl, h1, -⟩ := h
  rw [hn c (by simp)] at h1
  cases h1

theorem lastSays_unique {configs : List (Str × List (Str × Str))} {k v w : Str} (h : LastSays configs k v)
    (h' : LastSays configs k w) : v = w := by
  obtain ⟨a, c, b, rfl, h1, h2⟩ := h
  obtain ⟨a', c', b', he, h1', h2'⟩ := h'
  rcases List.append_eq_append_iff.mp he with ⟨x, rfl, hx⟩ | ⟨x, rfl, hx⟩
  · cases x with
    | nil => simp only [List.nil_append, List.cons.injEq] at hx; rw [← hx.1, h1] at h1'; exact Option.some.inj h1'
    | cons y x =>
      simp only [List.cons_append, List.cons.injEq] at hx
      have := h2 c' (by rw [hx.2]; simp)
      rw [this] at h1'; cases h1'
  · cases x with
    | nil => simp only [List.nil_append, List.cons.injEq] at hx; rw [hx.1, h1] at h1'; exact Option.some.inj h1'
    | cons y x =>
      simp only [List.cons_append, List.cons.injEq] at hx
      have := h2' c (by rw [hx.2]; simp)
      rw [this] at h1; cases h1

theorem aget_initial {buildDir : Option Str} {k : Str} (h : k ≠ xnBuildDir) :
    aget (firstSettings buildDir) k = none := by
  cases buildDir <;> simp [firstSettings, aget, Ne.symm h]

/-- **C128 (settings).** Every configuration of the wrapped target gets, for the deployment target, the bundle loader
and the test host, what the last configuration that sets it says, and nothing if none does; signing is off if some
configuration has a deployment target; the build directory is that of ninja. -/
theorem C128_settings {buildDir : Option Str} {configs : List (Str × List (Str × Str))} {name : Str}
    {settings : List (Str × Str)} (hm : (name, settings) ∈ wrapperConfigurations buildDir configs) :
    (∀ k ∈ [c!"IPHONEOS_DEPLOYMENT_TARGET", c!"BUNDLE_LOADER", c!"TEST_HOST"], ∀ v,
      aget settings k = some v ↔ LastSays configs k v) ∧
    (aget settings c!"CODE_SIGNING_REQUIRED" = some c!"NO" ↔
      ∃ c ∈ configs, (aget c.2 c!"IPHONEOS_DEPLOYMENT_TARGET").isSome) ∧
    aget settings c!"CONFIGURATION_BUILD_DIR" = buildDir := by
  obtain ⟨n1, n2, n3, n4, n5, n6, n7, n8, n9, n10⟩ := xn_keys
  obtain ⟨c, _, he⟩ := List.mem_map.mp hm
  cases he
  refine ⟨?_, ?_, ?_⟩
  · intro k hk v
    have hk3 : k = xnTarget ∨ k = xnLoader ∨ k = xnHost := by simpa [xnTarget, xnLoader, xnHost] using hk
    have hkb : k ≠ xnBuildDir := by rcases hk3 with rfl | rfl | rfl <;> assumption
    rcases aget_fold k hk3 configs (firstSettings buildDir) with
      ⟨w, hw, h⟩ | ⟨hn, h⟩
    · rw [wrapperSettings, h]
      exact ⟨fun e => by cases e; exact hw, fun hv => by rw [lastSays_unique hv hw]⟩
    · rw [wrapperSettings, h, aget_initial hkb]
      exact ⟨fun e => (by cases e), fun hv => (lastSays_not_none hv hn).elim⟩
  · have key : ∀ (cs : List (Str × List (Str × Str))) (new : List (Str × Str)),
        aget (cs.foldl (fun n c => carrySettings n c.2) new) xnSigning =
          if ∃ c ∈ cs, (aget c.2 xnTarget).isSome = true then some c!"NO" else aget new xnSigning := by
      intro cs
      induction cs with
      | nil => intro new; simp
      | cons c cs ih =>
        intro new
        rw [List.foldl_cons, ih, aget_carry.2.1]
        by_cases h1 : ∃ c ∈ cs, (aget c.2 xnTarget).isSome = true
        · rw [if_pos h1, if_pos]
          obtain ⟨d, hd, h⟩ := h1
          exact ⟨d, by simp [hd], h⟩
        · rw [if_neg h1]
          by_cases h2 : (aget c.2 xnTarget).isSome = true
          · rw [if_pos h2, if_pos ⟨c, by simp, h2⟩]
          · rw [if_neg h2, if_neg]
            rintro ⟨d, hd, h⟩
            rcases List.mem_cons.mp hd with rfl | hd
            · exact h2 h
            · exact h1 ⟨d, hd, h⟩
    have := key configs (firstSettings buildDir)
    rw [aget_initial n7] at this
    show aget (wrapperSettings buildDir configs) xnSigning = _ ↔ _
    rw [wrapperSettings, this]
    by_cases h : ∃ c ∈ configs, (aget c.2 xnTarget).isSome = true
    · rw [if_pos h]; exact ⟨fun _ => h, fun _ => rfl⟩
    · rw [if_neg h]; exact ⟨fun e => (by cases e), fun e => (h e).elim⟩
  · have key : ∀ (cs : List (Str × List (Str × Str))) (new : List (Str × Str)),
        aget (cs.foldl (fun n c => carrySettings n c.2) new) xnBuildDir = aget new xnBuildDir := by
      intro cs
      induction cs with
      | nil => intro new; rfl
      | cons c cs ih =>
        intro new
        rw [List.foldl_cons, ih, aget_carry.2.2 _ n4.symm n9.symm n10.symm n7.symm]
    show aget (wrapperSettings buildDir configs) xnBuildDir = buildDir
    rw [wrapperSettings, key]
    cases buildDir <;> simp [firstSettings, aget]

/-- **C128 (own settings, partial).** Where all configurations of a target agree on one of the three settings, each
configuration of the wrapped target has its own.  In general this fails (`C128_leak`). -/
theorem C128_own_settings_partial {buildDir : Option Str} {configs : List (Str × List (Str × Str))} {name : Str}
    {settings : List (Str × Str)} (hm : (name, settings) ∈ wrapperConfigurations buildDir configs)
    {k : Str} (hk : k ∈ [c!"IPHONEOS_DEPLOYMENT_TARGET", c!"BUNDLE_LOADER", c!"TEST_HOST"])
    {own : Option Str} (hsame : ∀ c ∈ configs, aget c.2 k = own) : aget settings k = own := by
  have h := (C128_settings hm).1 k hk
  cases own with
  | some v =>
    refine (h v).mpr ?_
    obtain ⟨c, hc, _⟩ := List.mem_map.mp hm
    have hne : configs ≠ [] := by rintro rfl; cases hc
    refine ⟨configs.dropLast, configs.getLast hne, [], (List.dropLast_append_getLast hne).symm,
      hsame _ (List.getLast_mem hne), by simp⟩
  | none =>
    cases hs : aget settings k with
    | none => rfl
    | some v => exact (lastSays_not_none ((h v).mp hs) hsame).elim

/-- **C128 (found by the proof).** The settings of one configuration get into the others. -/
theorem C128_leak : ∃ configs settings,
    (c!"Release", settings) ∈ wrapperConfigurations none configs ∧
    aget settings c!"TEST_HOST" = some c!"debug_app" ∧
    ∀ c ∈ configs, c.1 = c!"Release" → aget c.2 c!"TEST_HOST" = none :=
  ⟨[(c!"Debug", [(c!"TEST_HOST", c!"debug_app")]), (c!"Release", [])], [(c!"TEST_HOST", c!"debug_app")],
    by decide +kernel, by decide +kernel, by decide +kernel⟩

/-- **C128 (two of one name).** Two programs of one name in different files get one name in the wrapper. -/
theorem C128_same_name : ¬ (wrapperTargets c!"m.gyp" c!"s.gyp" none none [xnProgram c!"p", xnProgram c!"p"]).Nodup := by
  decide +kernel

/-- **C128 (files).** The target for indexing lists exactly the files of all targets, each once, in alphabetical order;
files that start with `$` are left out. -/
theorem C128_files (skipExcluded : Bool) (rel : Str → Str → Str) (ts : List (Str × XnSpec)) :
    (∀ f, f ∈ indexSources skipExcluded rel ts ↔
      ∃ t ∈ ts, ∃ g, FileOf skipExcluded t.2 g ∧ f = rel (dirname t.1) g) ∧
    (indexSources skipExcluded rel ts).Nodup ∧
    (indexSources skipExcluded rel ts).Pairwise fun a b => strLe a b = true := by
  have hfile : ∀ (s : XnSpec) g, g ∈ indexFiles skipExcluded s ↔ FileOf skipExcluded s g := by
    intro s g
    have hd : (!startsWith g c!"$") = true ↔ g.head? ≠ some '$' := by
      cases g with
      | nil => simp [startsWith]
      | cons c g =>
        simp only [startsWith, List.isPrefixOf, Bool.and_true, Bool.not_eq_true', beq_eq_false_iff_ne, List.head?_cons, ne_eq,
          Option.some.injEq]
        exact not_congr eq_comm
    simp only [indexFiles, FileOf, List.mem_filter, hd, List.mem_append, List.mem_flatMap]
    refine and_congr_left' ?_
    cases skipExcluded
    · simp only [Bool.false_eq_true, if_false, true_and, List.mem_append]
      constructor
      · rintro (((h | h) | (h | h)) | ⟨a, ha, h | h⟩)
        · exact .inl h
        · exact .inr (.inl h)
        · exact .inr (.inr (.inr (.inl h)))
        · exact .inr (.inr (.inr (.inr (.inl h))))
        · exact .inr (.inr (.inl ⟨a, ha, h⟩))
        · exact .inr (.inr (.inr (.inr (.inr ⟨a, ha, h⟩))))
      · rintro (h | h | ⟨a, ha, h⟩ | h | h | ⟨a, ha, h⟩)
        · exact .inl (.inl (.inl h))
        · exact .inl (.inl (.inr h))
        · exact .inr ⟨a, ha, .inl h⟩
        · exact .inl (.inr (.inl h))
        · exact .inl (.inr (.inr h))
        · exact .inr ⟨a, ha, .inr h⟩
    · simp only [if_true, List.not_mem_nil, or_false, reduceCtorEq, false_and, or_assoc]
  refine ⟨?_, nodup_pySorted (List.nodup_dedup _), strLe_pairwise_sorted _⟩
  intro f
  rw [indexSources, mem_pySorted, List.mem_dedup, List.mem_flatMap]
  constructor
  · rintro ⟨t, ht, h⟩
    obtain ⟨g, hg, rfl⟩ := List.mem_map.mp h
    exact ⟨t, ht, g, (hfile _ _).mp hg, rfl⟩
  · rintro ⟨t, ht, g, hg, rfl⟩
    exact ⟨t, ht, List.mem_map.mpr ⟨g, (hfile _ _).mpr hg, rfl⟩⟩

example : indexSources false (fun d f => d ++ c!"/" ++ f) [(c!"x/y.gyp:p", xnProgram c!"p"), (c!"x/z.gyp:l", xnLibrary c!"l")] =
    [c!"x/a.c", c!"x/b.c"] := by decide +kernel

end Gyp
