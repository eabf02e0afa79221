import Verif.Proofs.MakeOrderBase
/-
The texts of the objects, the products and the dependencies of a target.
-/
namespace Gyp
open Spec

variable {m : MkSelf} {t : MkOutputs} {v0 : MakeVars}

theorem allSources_eq (s : MkSpec) : allSources s = s.sources ++ extraSources s := by
  simp [allSources, extraSources]

theorem splitext_ref {R : List Str} (hR : ∀ n ∈ R, '.' ∉ n) {x : Str} (h : RefText R x) :
    RefText R (splitext x).1 := by
  unfold splitext
  cases e : rsplit1 '.' x with
  | none => exact h
  | some p =>
    obtain ⟨h1, -⟩ := rsplit1_some e
    dsimp only
    split
    · exact h
    · split
      · exact (h.cut (x := '.') (by decide) hR _ _ h1).1
      · exact h

theorem mem_splitext {x : Str} {c : Char} (h : c ∈ (splitext x).1) : c ∈ x := by
  unfold splitext at h
  cases e : rsplit1 '.' x with
  | none => rw [e] at h; exact h
  | some p =>
    obtain ⟨h1, -⟩ := rsplit1_some e
    rw [e] at h
    dsimp only at h
    split at h
    · exact h
    · split at h
      · rw [h1]; exact List.mem_append_left _ h
      · exact h

theorem local_noDot : ∀ n ∈ localVars, '.' ∉ n := by decide

theorem local_noDollar : ∀ n ∈ localVars, '$' ∉ n := by decide

theorem objTarget_file {s : Str} (h : FileText s) : FileText (objTarget s) := by
  refine ⟨by simp [objTarget], ?_, ?_⟩
  · exact MkClean.append (fun c hc => h.2.1 c (mem_splitext hc)) (by unfold MkClean; decide)
  · exact (splitext_ref local_noDot h.2.2).append (.plain (by decide))

theorem mem_replaceStr {old new s : Str} {c : Char} (h : c ∈ replaceStr old new s) :
    c ∈ new ∨ c ∈ s := by
  induction hn : s.length using Nat.strongRecOn generalizing s with
  | ind n ih =>
    cases s with
    | nil => rw [replaceStr] at h; cases h
    | cons x xs =>
      rw [replaceStr] at h
      split at h
      · rename_i hc
        rcases List.mem_append.mp h with h | h
        · exact Or.inl h
        · have : 0 < old.length := List.length_pos_iff.mpr hc.2
          rcases ih _ (by rw [← hn, List.length_drop, List.length_cons]; omega) h rfl with h | h
          · exact Or.inl h
          · exact Or.inr (List.mem_of_mem_drop h)
      · rcases List.mem_cons.mp h with h | h
        · exact Or.inr (by simp [h])
        · rcases ih _ (by rw [← hn]; simp) h rfl with h | h
          · exact Or.inl h
          · exact Or.inr (by simp [h])

theorem objDir_ref (ok : TargetOk m t) :
    RefText localVars (c!"$(obj)." ++ m.spec.toolset ++ c!"/$(TARGET)/") ∧
      MkClean (c!"$(obj)." ++ m.spec.toolset ++ c!"/$(TARGET)/") := by
  constructor
  · refine RefText.append (RefText.append ?_ (.plain ok.toolset.2.2)) ?_
    · exact .ref (n := c!"obj") (s := c!".") (by simp [localVars, headerVars]) (by decide)
        (.char (by decide) .nil)
    · exact .char (by decide) (.ref (n := c!"TARGET") (s := c!"/") (by simp [localVars]) (by decide)
        (.char (by decide) .nil))
  · exact ((by unfold MkClean; decide : MkClean c!"$(obj).").append ok.toolset.2.1).append
      (by unfold MkClean; decide)

theorem Objectify_cases (m : MkSelf) (x : Str) :
    ∃ y, (hasSub c!"$(" x = false ∧ y = x ∨ hasSub c!"$(" x = true ∧
        y = replaceStr c!"$(obj)/" (c!"$(obj)." ++ m.spec.toolset ++ c!"/$(TARGET)/") x) ∧
      (hasSub c!"$(obj)" y = true ∧ Objectify m x = y ∨ hasSub c!"$(obj)" y = false ∧
        Objectify m x = c!"$(obj)." ++ m.spec.toolset ++ c!"/$(TARGET)/" ++ y) := by
  unfold Objectify
  refine ⟨if hasSub c!"$(" x then
      replaceStr c!"$(obj)/" (c!"$(obj)." ++ m.spec.toolset ++ c!"/$(TARGET)/") x else x, ?_, ?_⟩
  · cases h : hasSub c!"$(" x
    · exact Or.inl ⟨rfl, rfl⟩
    · exact Or.inr ⟨rfl, rfl⟩
  · dsimp only
    generalize (if hasSub c!"$(" x then
      replaceStr c!"$(obj)/" (c!"$(obj)." ++ m.spec.toolset ++ c!"/$(TARGET)/") x else x) = y
    cases h : hasSub c!"$(obj)" y
    · exact Or.inr ⟨rfl, rfl⟩
    · exact Or.inl ⟨rfl, rfl⟩

theorem Objectify_ref (ok : TargetOk m t) {x : Str} (hx : RefText localVars x ∧ MkClean x) :
    RefText localVars (Objectify m x) ∧ MkClean (Objectify m x) := by
  obtain ⟨d1, d2⟩ := objDir_ref ok
  obtain ⟨y, hy, ho⟩ := Objectify_cases m x
  have h2 : RefText localVars y ∧ MkClean y := by
    rcases hy with ⟨-, rfl⟩ | ⟨-, rfl⟩
    · exact hx
    · refine ⟨RefText.replaceDir local_noDollar d1 x.length (Nat.le_refl _) hx.1, ?_⟩
      intro c hc
      rcases mem_replaceStr hc with h | h
      · exact d2 c h
      · exact hx.2 c h
  rcases ho with ⟨-, ho⟩ | ⟨-, ho⟩ <;> rw [ho]
  · exact h2
  · exact ⟨d1.append h2.1, d2.append h2.2⟩

theorem objectOf_ref (ok : TargetOk m t) {s : Str} (hs : FileText s) :
    RefText localVars (objectOf m s) ∧ MkClean (objectOf m s) ∧ objectOf m s ≠ [] := by
  obtain ⟨h1, h2, h3, -⟩ := absolutify_file ok (objTarget_file hs)
  obtain ⟨o1, o2⟩ := Objectify_ref ok ⟨h1, h2⟩
  refine ⟨o1, o2, ?_⟩
  unfold objectOf
  obtain ⟨y, -, ⟨h, ho⟩ | ⟨h, ho⟩⟩ := Objectify_cases m (Absolutify m (objTarget s)) <;> rw [ho]
  · intro e
    obtain ⟨a, b, hab⟩ := (hasSub_iff _ _).mp h
    rw [e] at hab
    simp at hab
  · simp

theorem source_file (ok : TargetOk m t) : ∀ s ∈ m.spec.sources ++ extraSources m.spec, FileText s := by
  intro s hs
  rcases List.mem_append.mp hs with hs | hs
  · exact ok.sources s hs
  · rcases List.mem_append.mp hs with hs | hs
    · obtain ⟨a, ha, hs⟩ := List.mem_flatMap.mp hs
      exact ok.actions a (List.mem_filter.mp ha).1 s (List.mem_append_right _ hs)
    · obtain ⟨r, hr, hs⟩ := List.mem_flatMap.mp hs
      exact ruleFiles ok (List.mem_filter.mp hr).1 s hs

/-- The name of the object of a source. -/
def objectFile (m : MkSelf) (s : Str) : Str := expand (ownVars m.spec) (objectOf m s)

theorem objectFile_clean (ok : TargetOk m t) {s : Str} (hs : FileText s) :
    MkClean (objectFile m s) ∧ objectFile m s ≠ [] := by
  obtain ⟨h1, h2, h3⟩ := objectOf_ref ok hs
  obtain ⟨e1, e2⟩ := expand_own ok.toolset ok.name h1 h2
  exact ⟨e1, e2 h3⟩

/-- The list of objects, from where it is set to the end. -/
theorem sources_split (p : MkParts m t) (ok : TargetOk m t) (hf : Fresh v0)
    (hne : m.spec.sources ++ extraSources m.spec ≠ []) :
    ∃ pre r1 r2 post, p.sources = pre ++ r1 ++ r2 ++ post ∧
      orderRule [c!"$(OBJS)"] p.deps
          c!"Make sure our dependencies are built before any of us." = some r1 ∧
      orderRule [c!"$(OBJS)"] (extraOutputs m)
          c!"Make sure our actions/rules run before any of us." = some r2 ∧
      (∀ n, ¬ Sets (r1 ++ r2 ++ post) n) ∧
      listValue (varsAfter (p.before v0) pre) c!"OBJS" =
        ((m.spec.sources ++ extraSources m.spec).filter (Compilable m.flavor)).map (objectFile m) ∧
      refValue (varsAfter (p.before v0) pre) c!"OBJS" = joinWith [' ']
        (((m.spec.sources ++ extraSources m.spec).filter (Compilable m.flavor)).map
          (objectFile m)) := by
  rcases p.hsources with ⟨h, -⟩ | h
  · exact absurd h hne
  have hloc := parts_sources_local p
  obtain ⟨r1, r2, e1, e2, -, hls⟩ := WriteSources_some h
  have hfile := source_file ok
  generalize m.spec.sources ++ extraSources m.spec = srcs at h hne hls hfile ⊢
  have hq : (objectsOf m srcs).map QuoteIfNecessary = objectsOf m srcs := by
    rw [List.map_congr_left (g := id), List.map_id]
    intro x hx
    obtain ⟨s, hs, rfl⟩ := List.mem_map.mp hx
    exact noQuote (objectOf_ref ok (hfile s (List.mem_filter.mp hs).1)).2.1
  rw [hq] at hls
  refine ⟨m.spec.configs.flatMap (configVars m) ++ [.list c!"OBJS" (objectsOf m srcs),
         .text c!"# Add to the list of files we specially track dependencies for.",
         .add c!"all_deps" [c!"$(OBJS)"], .text []], r1, r2, (if objectsOf m srcs = [] then [] else objectVars) ++ [.text []], ?_, e1, e2,
    ?_, ?_⟩
  · rw [hls]; simp only [List.append_assoc]
  · intro n hn
    rcases Sets.append.mp hn with hn | ⟨l, hl, he⟩
    · rcases Sets.append.mp hn with hn | hn
      · rcases orderRule_some e1 with ⟨-, rfl⟩ | rfl
        · exact nil_sets n hn
        · exact sets_rule hn
      · rcases orderRule_some e2 with ⟨-, rfl⟩ | rfl
        · exact nil_sets n hn
        · exact sets_rule hn
    · rcases List.mem_append.mp hl with hl | hl
      · split at hl
        · cases hl
        · simp only [objectVars, List.mem_cons, List.not_mem_nil, or_false] at hl
          rcases hl with rfl | rfl | rfl | rfl <;> cases he
      · simp only [List.mem_cons, List.not_mem_nil, or_false] at hl
        subst hl; cases he
  · have hlive : Live m.spec (varsAfter (p.before v0) (m.spec.configs.flatMap (configVars m))) :=
      (parts_before p ok hf).1.sets fun n hn hs => hloc n hn (by
        rw [hls]
        simp only [List.append_assoc]
        exact Sets.append.mpr (Or.inl hs))
    have hg : ∀ x ∈ objectsOf m srcs, RefText localVars x ∧ MkClean x ∧ x ≠ [] ∧
        expand (ownVars m.spec) x = expand (ownVars m.spec) x := by
      intro x hx
      obtain ⟨s, hs, rfl⟩ := List.mem_map.mp hx
      obtain ⟨h1, h2, h3⟩ := objectOf_ref ok (hfile s (List.mem_filter.mp hs).1)
      exact ⟨h1, h2, h3, rfl⟩
    have hval : refValue (varsAfter (p.before v0) (m.spec.configs.flatMap (configVars m) ++
        [.list c!"OBJS" (objectsOf m srcs),
         .text c!"# Add to the list of files we specially track dependencies for.",
         .add c!"all_deps" [c!"$(OBJS)"], .text []])) c!"OBJS" =
        joinWith [' '] ((objectsOf m srcs).map (expand (ownVars m.spec))) := by
      refine refValue_files (m := m) hlive hg (aget_set rfl ?_)
      rintro ⟨l, hl, he⟩
      simp only [List.mem_cons, List.not_mem_nil, or_false] at hl
      rcases hl with rfl | rfl | rfl <;> cases he
    have hobj : (objectsOf m srcs).map (expand (ownVars m.spec)) =
        (srcs.filter (Compilable m.flavor)).map (objectFile m) := by
      unfold objectsOf
      rw [List.map_map]
      rfl
    rw [← hobj]
    refine ⟨?_, hval⟩
    unfold listValue
    rw [hval, names_files ok hg]

theorem objs_value (p : MkParts m t) (ok : TargetOk m t) (hf : Fresh v0)
    (hne : m.spec.sources ++ extraSources m.spec ≠ []) :
    listValue (varsAfter v0 p.lines) c!"OBJS" =
      ((m.spec.sources ++ extraSources m.spec).filter (Compilable m.flavor)).map (objectFile m) ∧
    listValue (p.late v0) c!"OBJS" =
      ((m.spec.sources ++ extraSources m.spec).filter (Compilable m.flavor)).map (objectFile m) ∧
    refValue (p.late v0) c!"OBJS" = joinWith [' ']
      (((m.spec.sources ++ extraSources m.spec).filter (Compilable m.flavor)).map
        (objectFile m)) := by
  obtain ⟨pre, r1, r2, post, hsplit, -, -, hs, hv, hv2⟩ := sources_split p ok hf hne
  have haget : aget (p.late v0) c!"OBJS" = aget (varsAfter (p.before v0) pre) c!"OBJS" := by
    unfold MkParts.late
    rw [varsAfter_append, not_sets_aget targetSuffixRules_sets, hsplit, List.append_assoc,
      List.append_assoc, varsAfter_append, not_sets_aget (by simpa using hs _)]
  have hlate : listValue (p.late v0) c!"OBJS" =
      ((m.spec.sources ++ extraSources m.spec).filter (Compilable m.flavor)).map (objectFile m) := by
    rw [← hv]
    exact listValue_stable haget
  refine ⟨?_, hlate, by rw [← hv2]; unfold refValue; rw [haget]⟩
  rw [← hlate]
  refine listValue_stable ?_
  rw [parts_vars, not_sets_aget]
  intro hs
  exact head_in (l := ['O']) ⟨'O', by simp, rfl⟩ (WriteTarget_head p.htarget hs) (by decide)

/-! ### Dependencies -/

theorem mem_uniquer {l : List Str} {x : Str} : x ∈ uniquer id l ↔ x ∈ l := by
  rw [uniquer_eq]
  constructor
  · exact fun h => (firsts_sublist id l).subset h
  · intro h
    obtain ⟨y, hy, he⟩ := mem_firsts id l x h
    have : y = x := he
    exact this ▸ hy

theorem mem_depOutputs {t : MkOutputs} {ds l : List Str} (h : depOutputs t ds = some l) {x : Str} :
    x ∈ l ↔ x ≠ [] ∧ ∃ d ∈ ds, aget t.outputs d = some x := by
  induction ds generalizing l with
  | nil => injection h with h; subst h; simp
  | cons d ds ih =>
    unfold depOutputs at h
    split at h
    · rename_i o l' e1 e2
      injection h with h
      subst h
      have := ih e2
      by_cases ho : o = []
      · rw [if_pos ho, this]
        constructor
        · rintro ⟨h1, d', h2, h3⟩
          exact ⟨h1, d', by simp [h2], h3⟩
        · rintro ⟨h1, d', h2, h3⟩
          rcases List.mem_cons.mp h2 with rfl | h2
          · rw [e1, ho] at h3
            injection h3 with h3
            exact absurd h3.symm h1
          · exact ⟨h1, d', h2, h3⟩
      · rw [if_neg ho, List.mem_cons, this]
        constructor
        · rintro (rfl | ⟨h1, d', h2, h3⟩)
          · exact ⟨ho, d, by simp, e1⟩
          · exact ⟨h1, d', by simp [h2], h3⟩
        · rintro ⟨h1, d', h2, h3⟩
          rcases List.mem_cons.mp h2 with rfl | h2
          · rw [e1] at h3
            injection h3 with h3
            exact Or.inl h3.symm
          · exact Or.inr ⟨h1, d', h2, h3⟩
    · cases h

theorem mem_linkDeps {t : MkOutputs} {ds : List Str} {x : Str} :
    x ∈ ds.filterMap (aget t.linkDeps) ↔ ∃ d ∈ ds, aget t.linkDeps d = some x := List.mem_filterMap

theorem mem_deps {s : MkSpec} {deps link : List Str} (h : ComputeDeps t s = some (deps, link))
    {x : Str} : (x ∈ deps ↔ DependencyFile t s x) ∧
      (x ∈ link ↔ ∃ d ∈ s.dependencies, aget t.linkDeps d = some x) := by
  unfold ComputeDeps at h
  split at h
  · cases h
  · rename_i l hl
    dsimp only at h
    injection h with h
    injection h with h1 h2
    subst h1
    subst h2
    rw [mem_uniquer, mem_uniquer, List.mem_append, mem_linkDeps, mem_depOutputs hl]
    refine ⟨?_, Iff.rfl⟩
    unfold DependencyFile
    constructor
    · rintro (⟨h1, d, h2, h3⟩ | ⟨d, h1, h2⟩)
      · exact ⟨d, h2, Or.inl ⟨h1, h3⟩⟩
      · exact ⟨d, h1, Or.inr h2⟩
    · rintro ⟨d, h1, ⟨h2, h3⟩ | h2⟩
      · exact Or.inl ⟨h2, d, h1, h3⟩
      · exact Or.inr ⟨d, h1, h2⟩

theorem mem_of_aget {α : Type} {l : List (Str × α)} {k : Str} {x : α} (h : aget l k = some x) :
    (k, x) ∈ l := by
  induction l with
  | nil => cases h
  | cons e l ih =>
    obtain ⟨k', y⟩ := e
    simp only [aget] at h
    split at h
    · rename_i hk
      injection h with h
      subst h hk
      simp
    · exact List.mem_cons_of_mem _ (ih h)

theorem dependency_text (ok : TargetOk m t) {x : Str} (h : DependencyFile t m.spec x) :
    DepText x := by
  obtain ⟨d, -, ⟨hne, h⟩ | h⟩ := h
  · rcases ok.outputs _ (mem_of_aget h) with h | h
    · exact absurd h hne
    · exact h
  · exact ok.linkDeps _ (mem_of_aget h)

/-! ### The product -/

theorem word_clean {s : Str} (h : MkWord s) : RefText localVars s ∧ MkClean s :=
  ⟨.plain h.2.2, h.2.1⟩

theorem text_append {R : List Str} {a b : Str} (ha : RefText R a ∧ MkClean a)
    (hb : RefText R b ∧ MkClean b) : RefText R (a ++ b) ∧ MkClean (a ++ b) :=
  ⟨ha.1.append hb.1, ha.2.append hb.2⟩

theorem text_drop {s : Str} {k : Nat} (hs : MkClean s) (hd : '$' ∉ s) {R : List Str} :
    RefText R (s.drop k) ∧ MkClean (s.drop k) :=
  ⟨.plain fun h => hd (List.mem_of_mem_drop h), fun c hc => hs c (List.mem_of_mem_drop hc)⟩

theorem basename_text {R : List Str} (hname : MkWord m.spec.targetName)
    (hp : ∀ x ∈ m.spec.productPrefix.toList ++ m.spec.productName.toList ++ [m.spec.productExtension],
      MkClean x ∧ RefText R x) :
    RefText R (ComputeOutputBasename m) ∧ MkClean (ComputeOutputBasename m) := by
  have lit : ∀ x : Str, '$' ∉ x ∧ (∀ c ∈ x, c ∉ specialChars) → RefText R x ∧ MkClean x :=
    fun x hx => ⟨.plain hx.1, hx.2⟩
  have hT : RefText R m.spec.targetName ∧ MkClean m.spec.targetName := ⟨.plain hname.2.2, hname.2.1⟩
  have hD : RefText R (dropLib m.spec.targetName) ∧ MkClean (dropLib m.spec.targetName) := by
    unfold dropLib
    split
    · exact text_drop hname.2.1 hname.2.2
    · exact hT
  have fin : ∀ pre target ext : Str, RefText R pre ∧ MkClean pre → RefText R target ∧ MkClean target →
      RefText R ext ∧ MkClean ext → RefText R (m.spec.productPrefix.getD pre ++
        m.spec.productName.getD target ++
        (if m.spec.productExtension = [] then ext else c!"." ++ m.spec.productExtension)) ∧
      MkClean (m.spec.productPrefix.getD pre ++ m.spec.productName.getD target ++
        (if m.spec.productExtension = [] then ext else c!"." ++ m.spec.productExtension)) := by
    intro pre target ext h1 h2 h3
    refine text_append (text_append ?_ ?_) ?_
    · cases e : m.spec.productPrefix with
      | none => exact h1
      | some x => have := hp x (by simp [e]); exact ⟨this.2, this.1⟩
    · cases e : m.spec.productName with
      | none => exact h2
      | some x => have := hp x (by simp [e]); exact ⟨this.2, this.1⟩
    · split
      · exact h3
      · have := hp m.spec.productExtension (by simp)
        exact text_append (lit _ (by decide)) ⟨this.2, this.1⟩
  unfold ComputeOutputBasename
  dsimp only
  by_cases h1 : m.spec.type = c!"static_library"
  · rw [if_pos h1]
    exact fin c!"lib" _ c!".a" (lit _ (by decide)) hD (lit _ (by decide))
  rw [if_neg h1]
  by_cases h2 : m.spec.type = c!"loadable_module" ∨ m.spec.type = c!"shared_library"
  · rw [if_pos h2]
    refine fin c!"lib" (dropLib m.spec.targetName)
      (if m.flavor = c!"aix" then c!".a" else if m.flavor = c!"zos" then c!".x" else c!".so")
      (lit _ (by decide)) hD ?_
    split
    · exact lit _ (by decide)
    · split
      · exact lit _ (by decide)
      · exact lit _ (by decide)
  rw [if_neg h2]
  by_cases h3 : m.spec.type = c!"none"
  · rw [if_pos h3]
    exact fin [] _ [] (lit _ (by decide)) (text_append hT (lit _ (by decide))) (lit _ (by decide))
  · rw [if_neg h3]
    exact fin [] _ [] (lit _ (by decide)) hT (lit _ (by decide))

theorem output_text {R : List Str} (hR : ∀ n ∈ headerVars, n ∈ R) (hname : MkWord m.spec.targetName)
    (htool : MkWord m.spec.toolset) (hpath : MkClean m.path ∧ '$' ∉ m.path)
    (hp : ∀ x ∈ m.spec.productDir.toList ++ m.spec.productPrefix.toList ++
      m.spec.productName.toList ++ [m.spec.productExtension], MkClean x ∧ RefText R x)
    (hdir : m.spec.productDir ≠ some []) :
    RefText R (ComputeOutput m) ∧ MkClean (ComputeOutput m) ∧ ComputeOutput m ≠ [] := by
  have hb := basename_text (R := R) hname fun x hx => hp x (by
    simp only [List.mem_append] at hx ⊢; tauto)
  have hdirOk : ∀ d : Str, (RefText R d ∧ MkClean d ∧ d ≠ []) →
      RefText R (pathJoin d (ComputeOutputBasename m)) ∧
      MkClean (pathJoin d (ComputeOutputBasename m)) ∧ pathJoin d (ComputeOutputBasename m) ≠ [] := by
    intro d hd
    refine ⟨hd.1.pathJoin hb.1, hd.2.1.pathJoin hb.2, ?_⟩
    unfold pathJoin
    split
    · rename_i h
      intro e; rw [e] at h; cases h
    · split
      · simp [hd.2.2]
      · simp
  unfold ComputeOutput
  dsimp only
  cases e : m.spec.productDir with
  | some d =>
    have := hp d (by simp [e])
    exact hdirOk d ⟨this.2, this.1, fun h => hdir (by rw [e, h])⟩
  | none =>
    refine hdirOk _ ?_
    show RefText R (if m.spec.type = c!"executable" then c!"$(builddir)" else _) ∧ _
    split
    · refine ⟨?_, by unfold MkClean; decide, by decide⟩
      exact .ref (n := c!"builddir") (s := []) (hR _ (by decide)) (by decide) .nil
    · refine ⟨RefText.pathJoin (RefText.append ?_ (.plain htool.2.2)) (.plain hpath.2),
        MkClean.pathJoin (MkClean.append (by unfold MkClean; decide) htool.2.1) hpath.1, ?_⟩
      · exact .ref (n := c!"obj") (s := c!".") (hR _ (by decide)) (by decide) (.char (by decide) .nil)
      · show pathJoin (c!"$(obj)." ++ m.spec.toolset) m.path ≠ []
        unfold pathJoin
        split
        · rename_i h
          intro e'; rw [e'] at h; cases h
        · split
          · simp
          · simp

theorem output_ok (ok : TargetOk m t) : RefText localVars (ComputeOutput m) ∧
    MkClean (ComputeOutput m) ∧ ComputeOutput m ≠ [] ∧
    expand (ownVars m.spec) (ComputeOutput m) = productFile m := by
  obtain ⟨h1, h2, h3⟩ := output_text (R := localVars) (fun n hn => by simp [localVars, hn]) ok.name
    ok.toolset ok.path ok.product ok.productDir
  exact ⟨h1, h2, h3, rfl⟩

end Gyp
