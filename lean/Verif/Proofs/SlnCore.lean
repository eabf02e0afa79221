import Verif.Proofs.SlnFacts
import Verif.Spec.SlnInput
import Mathlib.Data.List.TakeWhile
/-
For C86: what a solution file says, from the parts.
-/
namespace Gyp
open Spec

/-! ### Qualified names -/

theorem fileOf_append (file rest : Str) (h : ':' ∉ rest) : fileOf (file ++ ':' :: rest) = file := by
  unfold fileOf
  rw [List.reverse_append, List.reverse_cons, List.append_assoc,
    List.dropWhile_append_of_pos (by
      intro c hc
      simp only [ne_eq, decide_not, Bool.not_eq_eq_eq_not, Bool.not_true, decide_eq_false_iff_not]
      rintro rfl
      exact h (List.mem_reverse.mp hc))]
  simp

theorem splitOn_slashes (r : Str) (k : Nat) :
    (splitOn '/' (r ++ List.replicate k '/')).filter (· ≠ []) = (splitOn '/' r).filter (· ≠ []) := by
  induction k generalizing r with
  | zero => simp
  | succ k ih =>
    have : r ++ List.replicate (k + 1) '/' = (r ++ List.replicate k '/') ++ '/' :: [] := by
      rw [List.replicate_succ', List.append_assoc]
    rw [this, splitOn_append_sep, List.filter_append, ih]
    simp [splitOn]

theorem pathNames_dirname (file : Str) (hf : validName (basename file)) :
    pathNames (dirname file) = dirNames file := by
  unfold dirNames
  cases hs : rsplit1 '/' file with
  | none =>
    have hns := rsplit1_none_iff.mp hs
    have hd : dirname file = [] := by unfold dirname; rw [hs]
    have hb : basename file = file := by unfold basename; rw [hs]
    rw [hb] at hf
    rw [hd, splitOn_noSep hns]
    rw [show ([file].filter (· ≠ [])) = [file] by simp [hf.1]]
    simp [pathNames, endsWith, splitOn]
  | some x =>
    obtain ⟨a, n⟩ := x
    obtain ⟨rfl, hn⟩ := rsplit1_some hs
    have hb : basename (a ++ '/' :: n) = n := by unfold basename; rw [hs]
    rw [hb] at hf
    rw [splitOn_append_sep, splitOn_noSep hn, List.filter_append,
      show ([n].filter (· ≠ [])) = [n] by simp [hf.1], List.dropLast_concat]
    unfold dirname
    rw [hs]
    simp only
    have hsplit : ∀ s : Str, ∃ k, s = (s.reverse.dropWhile (· = '/')).reverse ++ List.replicate k '/' := by
      intro s
      refine ⟨(s.reverse.takeWhile (· = '/')).length, ?_⟩
      have h1 : s.reverse.takeWhile (· = '/') = List.replicate (s.reverse.takeWhile (· = '/')).length '/' := by
        apply List.eq_replicate_of_mem
        intro c hc
        have := List.all_takeWhile (p := (· = '/')) (l := s.reverse)
        simpa using List.all_eq_true.mp this c hc
      have h2 := List.takeWhile_append_dropWhile (p := (· = '/')) (l := s.reverse)
      have h3 := congrArg List.reverse h2
      rw [List.reverse_append, List.reverse_reverse] at h3
      conv_lhs => rw [← h3]
      congr 1
      rw [h1, List.reverse_replicate, List.length_replicate]
    have hq : (splitOn '/' (a ++ ['/'])).filter (· ≠ []) = (splitOn '/' a).filter (· ≠ []) :=
      splitOn_slashes a 1
    obtain ⟨k, hk⟩ := hsplit (a ++ ['/'])
    by_cases hall : (a ++ ['/']).all (· = '/') = true
    · rw [if_pos hall]
      have : (a ++ ['/']).reverse.dropWhile (· = '/') = [] := by
        rw [List.dropWhile_eq_nil_iff]
        intro c hc
        exact List.all_eq_true.mp hall c (List.mem_reverse.mp hc)
      rw [this] at hk
      unfold pathNames
      rw [if_pos (endsWith_append a _), ← hq, hk, List.reverse_nil, splitOn_slashes]
      simp [splitOn]
    · rw [if_neg hall]
      unfold pathNames
      have hne : endsWith ((a ++ ['/']).reverse.dropWhile (· = '/')).reverse ['/'] = false := by
        cases hd : (a ++ ['/']).reverse.dropWhile (· = '/') with
        | nil => rfl
        | cons c l =>
          have hc : ¬ (decide (c = '/') = true) := by
            have := List.head?_dropWhile_not (fun c => decide (c = '/')) (a ++ ['/']).reverse
            rw [hd] at this
            simpa using this
          cases he : endsWith (c :: l).reverse ['/'] with
          | false => rfl
          | true =>
            obtain ⟨b, hb⟩ := endsWith_slash he
            rw [List.reverse_cons] at hb
            have := (List.append_inj' hb rfl).2
            simp only [List.cons.injEq, and_true] at this
            exact absurd (by simpa using this) hc
      rw [if_neg (by rw [hne]; simp), ← hq]
      conv_rhs => rw [hk]
      rw [splitOn_slashes]

/-! ### The targets -/

theorem Spec.SlnNamed.buildFile {targets : List (Str × SlnTarget)} (hn : SlnNamed targets)
    {x : Str × SlnTarget} (hx : x ∈ targets) : BuildFile x.1 = some (fileOf x.1) := by
  obtain ⟨h1, h2, h3, h4, h5⟩ := hn.named x hx
  have hr : rsplit1 ':' x.1 = some (fileOf x.1, x.2.name ++ c!"#" ++ x.2.toolset) := by
    conv_lhs => rw [h1, List.append_assoc, List.append_assoc, List.append_assoc]
    exact (rsplit1_append (by simp [h2, h3])).trans (by simp)
  unfold BuildFile ParseQualifiedTarget
  rw [hr]
  simp only
  split <;> rfl

theorem Spec.SlnNamed.place {targets : List (Str × SlnTarget)} (hn : SlnNamed targets)
    {x : Str × SlnTarget} (hx : x ∈ targets) :
    projectPlace x.1 = (dirNames (fileOf x.1), shownName x.2 ++ c!".vcproj") := by
  obtain ⟨h1, h2, h3, h4, h5⟩ := hn.named x hx
  have hr : rsplit1 ':' x.1 = some (fileOf x.1, x.2.name ++ c!"#" ++ x.2.toolset) := by
    conv_lhs => rw [h1, List.append_assoc, List.append_assoc, List.append_assoc]
    exact (rsplit1_append (by simp [h2, h3])).trans (by simp)
  have hr2 : rsplit1 '#' (x.2.name ++ c!"#" ++ x.2.toolset) = some (x.2.name, x.2.toolset) := by
    rw [List.append_assoc]
    exact rsplit1_append h4
  have hp : ParseQualifiedTarget x.1 = (some (fileOf x.1), x.2.name, some x.2.toolset) := by
    unfold ParseQualifiedTarget
    rw [hr]
    simp only [hr2]
  have hhost : endsWith x.1 c!"#host" = true ↔ x.2.toolset = c!"host" := by
    constructor
    · intro h
      unfold endsWith at h
      rw [List.isSuffixOf_iff_suffix] at h
      obtain ⟨a, ha⟩ := h
      have e1 : rsplit1 '#' x.1 = some (fileOf x.1 ++ c!":" ++ x.2.name, x.2.toolset) := by
        conv_lhs => rw [h1, List.append_assoc]
        exact rsplit1_append h4
      have e2 : rsplit1 '#' x.1 = some (a, c!"host") := by
        rw [← ha]; exact rsplit1_append (by decide)
      rw [e1] at e2
      simp only [Option.some.injEq, Prod.mk.injEq] at e2
      exact e2.2
    · intro h
      rw [h1, h, List.append_assoc]
      exact endsWith_append _ _
  unfold projectPlace
  rw [hp]
  simp only [Option.getD_some]
  rw [pathNames_dirname _ h5]
  unfold shownName
  by_cases h : x.2.toolset = c!"host"
  · rw [if_pos h, if_pos (hhost.mpr h)]
  · rw [if_neg h, if_neg fun e => h (hhost.mp e)]

theorem Spec.SlnPlaces.noDir {targets : List (Str × SlnTarget)} (hp : SlnPlaces targets)
    {x : Str × SlnTarget} (hx : x ∈ targets) : ∀ f ∈ dirNames (fileOf x.1), ¬ endsWith f c!".vcproj" := by
  intro f hf h
  unfold endsWith at h
  rw [List.isSuffixOf_iff_suffix] at h
  obtain ⟨b, hb⟩ := h
  exact hp.dirs x hx f hf b hb.symm

theorem slnPlaces_apart {targets : List (Str × SlnTarget)} (hp : SlnPlaces targets)
    {x y : Str × SlnTarget} (hx : x ∈ targets) (hy : y ∈ targets)
    (h : (dirNames (fileOf x.1), shownName x.2) ≠ (dirNames (fileOf y.1), shownName y.2)) :
    ¬ (dirNames (fileOf x.1) ++ [shownName x.2 ++ c!".vcproj"]) <+:
      (dirNames (fileOf y.1) ++ [shownName y.2 ++ c!".vcproj"]) := by
  intro hpre
  rcases List.prefix_concat_iff.mp hpre with e | hpre
  · obtain ⟨e1, e2⟩ := List.append_inj' e rfl
    simp only [List.cons.injEq, and_true] at e2
    exact h (by rw [e1, List.append_cancel_right e2])
  · have : shownName x.2 ++ c!".vcproj" ∈ dirNames (fileOf y.1) :=
      hpre.subset (by simp)
    exact hp.dirs y hy _ this _ rfl

theorem apart_of_ne {targets : List (Str × SlnTarget)} (hn : SlnNamed targets) (hp : SlnPlaces targets)
    {x y : Str × SlnTarget} (hx : x ∈ targets) (hy : y ∈ targets) (h : x.1 ≠ y.1) :
    SlnApart ((projectPlace x.1).1 ++ [(projectPlace x.1).2]) ((projectPlace y.1).1 ++ [(projectPlace y.1).2]) := by
  rw [hn.place hx, hn.place hy]
  have hne : (dirNames (fileOf x.1), shownName x.2) ≠ (dirNames (fileOf y.1), shownName y.2) := by
    intro e
    have := (List.inj_on_of_nodup_map hp.apart) hx hy e
    exact h (by rw [this])
  exact ⟨slnPlaces_apart hp hx hy hne, slnPlaces_apart hp hy hx hne.symm⟩

theorem aget_target {targets : List (Str × SlnTarget)} (hk : (targets.map (·.1)).Nodup)
    {x : Str × SlnTarget} (hx : x ∈ targets) : aget targets x.1 = some x.2 := aget_of_mem hk hx

theorem mentions_iff {targets : List (Str × SlnTarget)} (hk : (targets.map (·.1)).Nodup) (a b : Str) :
    Targets.Mentions (targets.map fun t => (t.1, t.2.spec)) a b ↔ SlnNeeds targets a b := by
  have hget : ∀ s, Targets.get? (targets.map fun t => (t.1, t.2.spec)) a = some s ↔
      ∃ t, (a, t) ∈ targets ∧ t.spec = s := by
    intro s
    clear b
    induction targets with
    | nil => simp [Targets.get?]
    | cons x l ih =>
      simp only [List.map_cons, List.nodup_cons] at hk
      have ih := ih hk.2
      unfold Targets.get? at ih ⊢
      by_cases h : x.1 = a
      · simp only [List.map_cons, List.find?_cons, h, decide_true, Option.map_some, Option.some.injEq,
          List.mem_cons]
        constructor
        · intro e; exact ⟨x.2, Or.inl (by rw [← h]), e⟩
        · rintro ⟨t, e | hm, hs⟩
          · rw [← e] at *; exact hs
          · exact absurd (List.mem_map.mpr ⟨(a, t), hm, h.symm⟩) hk.1
      · simp only [List.map_cons, List.find?_cons, h, decide_false, List.mem_cons]
        rw [ih]
        constructor
        · rintro ⟨t, hm, hs⟩; exact ⟨t, Or.inr hm, hs⟩
        · rintro ⟨t, e | hm, hs⟩
          · exact absurd (by rw [← e]) h
          · exact ⟨t, hm, hs⟩
  unfold Targets.Mentions SlnNeeds
  constructor
  · rintro ⟨s, h1, h2⟩
    obtain ⟨t, ht, rfl⟩ := (hget s).mp h1
    exact ⟨t, ht, h2⟩
  · rintro ⟨t, ht, h2⟩
    exact ⟨t.spec, (hget _).mpr ⟨t, ht, rfl⟩, h2⟩

/-- The projects of a solution. -/
theorem allTargets_mem {targets : List (Str × SlnTarget)} (hn : SlnNamed targets) {file : Str}
    {projects : List Str}
    (h : AllTargets (targets.map (·.1)) (targets.map fun t => (t.1, t.2.spec)) file projects) :
    projects.Nodup ∧ (∀ q, q ∈ projects ↔ InSolution targets file q) ∧
      ∀ q ∈ projects, q ∈ targets.map (·.1) := by
  obtain ⟨deps, rfl, hd, hm⟩ := C62_all_targets _ _ _ _ h
  have hmen : (Targets.Mentions (targets.map fun t => (t.1, t.2.spec))) = SlnNeeds targets := by
    funext a b; exact propext (mentions_iff hn.keys a b)
  rw [hmen] at hm
  have hbf : ∀ x ∈ targets, (BuildFile x.1 = some file ↔ fileOf x.1 = file) := by
    intro x hx; rw [hn.buildFile hx]; simp
  have hmem : ∀ q, q ∈ List.filter (fun t => BuildFile t = some file) (targets.map (·.1)) ↔
      ∃ r ∈ targets, fileOf r.1 = file ∧ r.1 = q := by
    intro q
    simp only [List.mem_filter, List.mem_map, decide_eq_true_eq]
    constructor
    · rintro ⟨⟨r, hr, rfl⟩, h⟩; exact ⟨r, hr, (hbf r hr).mp h, rfl⟩
    · rintro ⟨r, hr, h, rfl⟩; exact ⟨⟨r, hr, rfl⟩, (hbf r hr).mpr h⟩
  have hiff : ∀ q, q ∈ List.filter (fun t => BuildFile t = some file) (targets.map (·.1)) ++ deps ↔
      InSolution targets file q := by
    intro q
    rw [List.mem_append, hm q, hmem q]
    unfold InSolution
    constructor
    · rintro (⟨r, hr, h1, rfl⟩ | ⟨-, r, hr, h1, h2⟩)
      · exact ⟨r, hr, h1, .refl⟩
      · obtain ⟨y, hy, rfl⟩ := List.mem_map.mp hr
        exact ⟨y, hy, (hbf y hy).mp h1, h2⟩
    · rintro ⟨r, hr, h1, h2⟩
      by_cases hq : ∃ r ∈ targets, fileOf r.1 = file ∧ r.1 = q
      · exact Or.inl hq
      · refine Or.inr ⟨fun ⟨hq1, hq2⟩ => hq ?_, r.1, List.mem_map.mpr ⟨r, hr, rfl⟩, (hbf r hr).mpr h1, h2⟩
        obtain ⟨y, hy, rfl⟩ := List.mem_map.mp hq1
        exact ⟨y, hy, (hbf y hy).mp hq2, rfl⟩
  refine ⟨?_, hiff, ?_⟩
  · rw [List.nodup_append]
    refine ⟨hn.keys.filter _, hd, fun a ha b hb e => ?_⟩
    subst e
    have h1 := (hm a).mp hb
    simp only [List.mem_filter, decide_eq_true_eq] at ha
    exact h1.1 ha
  · intro q hq
    obtain ⟨r, hr, -, h2⟩ := (hiff q).mp hq
    rcases Relation.ReflTransGen.cases_tail h2 with e | ⟨c, -, t, ht, hd⟩
    · rw [e]; exact List.mem_map.mpr ⟨r, hr, rfl⟩
    · exact hn.known _ ht q hd

end Gyp
