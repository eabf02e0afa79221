import Verif.Proofs.MakeValues
/-
The variables of the whole makefile of a target.
-/
namespace Gyp
open Spec

variable {m : MkSelf} {t : MkOutputs}

theorem RuleAt.stable {v0 v : MakeVars} {lines : List MkLine} {a : RuleArgs}
    (h : RuleAt v0 lines a v) {n : Str} (hn : ¬ Sets lines n) : aget v n = aget v0 n := by
  obtain ⟨pre, post, rfl, rfl⟩ := h
  exact not_sets_aget fun hs => hn (Sets.append.mpr (Or.inl hs))

theorem RuleAt.live {v0 v : MakeVars} {lines : List MkLine} {a : RuleArgs}
    (h : RuleAt v0 lines a v) {s : MkSpec} (hv : Live s v0) (hn : ∀ n ∈ localVars, ¬ Sets lines n) :
    Live s v := fun n hl => by rw [h.stable (hn n hl), hv n hl]

theorem RuleAt.text {v0 v : MakeVars} {lines : List MkLine} {a : RuleArgs} {l : MkLine}
    (h : RuleAt (addVar v0 l) lines a v) : RuleAt v0 (l :: lines) a v := by
  obtain ⟨pre, post, rfl, rfl⟩ := h
  exact ⟨l :: pre, post, rfl, rfl⟩

/-! ### Copies -/

theorem copies_local {cs : List MkCopy} {ls : List MkLine} (h : WriteCopies m cs = some ls) :
    ∀ n ∈ localVars, ¬ Sets ls n := fun n hn hs => by
  rw [WriteCopies_sets h hs] at hn
  exact copiesVar_local m hn

theorem copies_value (ok : TargetOk m t) {v : MakeVars} (hv : Live m.spec v) {ls : List MkLine}
    (h : WriteCopies m m.spec.copies = some ls) :
    listValue (varsAfter v ls) (copiesVar m) =
      m.spec.copies.flatMap fun c => c.files.map (copiedName m c) := by
  have hloc := copies_local h
  have hls := WriteCopies_some h
  have hone : ∀ e ∈ allCopies m m.spec.copies, RefText localVars e.2 ∧ MkClean e.2 ∧ e.2 ≠ [] := by
    intro e he
    obtain ⟨c, hc, he⟩ := List.mem_flatMap.mp he
    obtain ⟨f, hf, rfl⟩ := List.mem_map.mp he
    obtain ⟨⟨d, hd, h1, -⟩, -⟩ := copy_file ok hc hf
    obtain ⟨s1, s2, s3, -⟩ := sourceify_file ok hd
    rw [h1]
    exact ⟨s1, s2, s3⟩
  have hq : ((allCopies m m.spec.copies).map fun e => QuoteSpaces e.2) =
      (allCopies m m.spec.copies).map (·.2) :=
    List.map_congr_left fun e he => (hone e he).2.1.quote _
  rw [hq] at hls
  have key : listValue (varsAfter v ls) (copiesVar m) =
      ((allCopies m m.spec.copies).map (·.2)).map (expand (ownVars m.spec)) := by
    generalize hpre : [MkLine.text c!"### Generated for copy rule."] ++
      ((allCopies m m.spec.copies).flatMap fun e =>
        [MkLine.rule (doCmdRule m [e.2] [e.1] c!"copy" none),
        .add c!"all_deps" ([e.2].map (QuoteSpaces · c!"?"))]) = pre at hls
    have hlive : Live m.spec (varsAfter v pre) :=
      hv.sets fun n hn hs => hloc n hn (by rw [hls]; exact Sets.append.mpr (Or.inl hs))
    refine listValue_files ok (v := varsAfter v pre) hlive (g := expand (ownVars m.spec)) ?_ ?_
    · intro x hx
      obtain ⟨e, he, rfl⟩ := List.mem_map.mp hx
      obtain ⟨h1, h2, h3⟩ := hone e he
      exact ⟨h1, h2, h3, rfl⟩
    · rw [hls]
      refine aget_set rfl ?_
      rintro ⟨l, hl, he⟩
      simp only [List.mem_cons, List.not_mem_nil, or_false] at hl
      subst hl; cases he
  rw [key]
  unfold allCopies
  rw [List.map_flatMap, List.map_flatMap]
  refine List.flatMap_congr fun c hc => ?_
  rw [List.map_map, List.map_map]
  refine List.map_congr_left fun f hf => ?_
  obtain ⟨⟨d, hd, h1, h2⟩, -⟩ := copy_file ok hc hf
  show expand _ (copyPaths m c.destination f).2 = _
  rw [h1, (sourceify_file ok hd).2.2.2, h2]

/-! ### The makefile -/

/-- The lists of what actions, rules and copies make have their values. -/
structure Extra (m : MkSelf) (v : MakeVars) : Prop where
  actions : ∀ a ∈ m.spec.actions, listValue v (actionOutputs m a) = a.outputs.map (fileName m)
  rules : ∀ r ∈ m.spec.rules, listValue v (ruleOutputsVar m r) =
    (r.sources.flatMap fun s => (ruleOutputs r s).getD []).map (fileName m)
  copies : m.spec.copies ≠ [] → listValue v (copiesVar m) =
    m.spec.copies.flatMap fun c => c.files.map (copiedName m c)

theorem listValue_stable {v v' : MakeVars} {n : Str} (h : aget v' n = aget v n) :
    listValue v' n = listValue v n := by
  unfold listValue refValue
  rw [h]

/-- The variables `Extra` is about. -/
def IsExtra (m : MkSelf) (n : Str) : Prop :=
  (∃ a ∈ m.spec.actions, n = actionOutputs m a) ∨ (∃ r ∈ m.spec.rules, n = ruleOutputsVar m r) ∨
    n = copiesVar m

theorem Extra.stable {v v' : MakeVars} (h : Extra m v)
    (hn : ∀ n, IsExtra m n → aget v' n = aget v n) : Extra m v' := by
  refine ⟨fun a ha => ?_, fun r hr => ?_, fun hc => ?_⟩
  · rw [listValue_stable (hn _ (Or.inl ⟨a, ha, rfl⟩)), h.actions a ha]
  · rw [listValue_stable (hn _ (Or.inr (Or.inl ⟨r, hr, rfl⟩))), h.rules r hr]
  · rw [listValue_stable (hn _ (Or.inr (Or.inr rfl))), h.copies hc]

/-- The first two assignments. -/
def headLines (s : MkSpec) : List MkLine :=
  [.set c!"TOOLSET" s.toolset, .set c!"TARGET" s.targetName]

variable {v0 : MakeVars}

theorem live_head (ok : TargetOk m t) (hf : Fresh v0) :
    Live m.spec (varsAfter v0 (headLines m.spec)) := by
  have h1 : varsAfter v0 (headLines m.spec) =
      (c!"TARGET", m.spec.targetName) :: (c!"TOOLSET", m.spec.toolset) :: v0 := by
    show (c!"TARGET", expand _ m.spec.targetName) :: (c!"TOOLSET", expand _ m.spec.toolset) :: v0 = _
    rw [expand_plain _ ok.name.2.2, expand_plain _ ok.toolset.2.2]
  rw [h1]
  intro n hn
  simp only [localVars, List.mem_cons] at hn
  rcases hn with rfl | rfl | hn
  · rfl
  · rfl
  · have hne : n ≠ c!"TARGET" ∧ n ≠ c!"TOOLSET" := by
      revert n; decide
    simp only [aget, ownVars, Ne.symm hne.1, Ne.symm hne.2, if_false]
    exact hf n hn

/-- The variables after the sections for actions, rules and copies. -/
def MkParts.before (p : MkParts m t) (v0 : MakeVars) : MakeVars :=
  varsAfter v0 (headLines m.spec ++ p.actions ++ p.rules ++ p.copies)

theorem parts_actions_local (p : MkParts m t) : ∀ n ∈ localVars, ¬ Sets p.actions n := by
  rcases p.hactions with ⟨-, h⟩ | h
  · rw [h]; exact fun n _ => nil_sets n
  · exact actions_local h

theorem rules_local {rs : List MkRule} {ls : List MkLine} (h : WriteRules m rs = some ls) :
    ∀ n ∈ localVars, ¬ Sets ls n := fun _ hn hs =>
  head_in (local_head hn) (WriteRules_head h hs) (by decide)

theorem parts_rules_local (p : MkParts m t) : ∀ n ∈ localVars, ¬ Sets p.rules n := by
  rcases p.hrules with ⟨-, h⟩ | h
  · rw [h]; exact fun n _ => nil_sets n
  · exact rules_local h

theorem parts_copies_local (p : MkParts m t) : ∀ n ∈ localVars, ¬ Sets p.copies n := by
  rcases p.hcopies with ⟨-, h⟩ | h
  · rw [h]; exact fun n _ => nil_sets n
  · exact copies_local h

theorem parts_sources_local (p : MkParts m t) : ∀ n ∈ localVars, ¬ Sets p.sources n := by
  rcases p.hsources with ⟨-, h⟩ | h
  · rw [h]; exact fun n _ => nil_sets n
  · exact fun n hn hs => head_in (local_head hn) (WriteSources_head h hs) (by decide)

theorem parts_target_local (p : MkParts m t) : ∀ n ∈ localVars, ¬ Sets p.target n :=
  fun _ hn hs => head_in (local_head hn) (WriteTarget_head p.htarget hs) (by decide)

theorem outputs_last {n : Str} (h : (∃ a, n = actionOutputs m a) ∨ ∃ r, n = ruleOutputsVar m r) :
    ∃ q, n = q ++ c!"_outputs" := by
  rcases h with ⟨a, rfl⟩ | ⟨r, rfl⟩
  · exact ⟨_, rfl⟩
  · exact ⟨_, rfl⟩

theorem copies_ne_outputs {n : Str} (h : ∃ q, n = q ++ c!"_outputs") : n ≠ copiesVar m := by
  obtain ⟨q, rfl⟩ := h
  obtain ⟨q', hq⟩ := copiesVar_end m
  rw [hq]
  intro e
  have := congrArg (fun l => (l.reverse).take 3) e
  simp at this

theorem parts_before (p : MkParts m t) (ok : TargetOk m t) (hf : Fresh v0) :
    Live m.spec (p.before v0) ∧ Extra m (p.before v0) := by
  unfold MkParts.before
  rw [varsAfter_append, varsAfter_append, varsAfter_append]
  have hH := live_head ok hf
  generalize varsAfter v0 (headLines m.spec) = vH at hH
  have hA := hH.sets (parts_actions_local p)
  have hR := hA.sets (parts_rules_local p)
  have hC := hR.sets (parts_copies_local p)
  refine ⟨hC, ?_⟩
  have nocopy : ∀ n, ((∃ a, n = actionOutputs m a) ∨ ∃ r, n = ruleOutputsVar m r) →
      ¬ Sets p.copies n := by
    intro n hn hs
    rcases p.hcopies with ⟨-, h⟩ | h
    · rw [h] at hs; exact nil_sets n hs
    · exact copies_ne_outputs (m := m) (outputs_last hn) (WriteCopies_sets h hs)
  have textSets : ∀ (l : List MkLine) (n : Str), (∀ x ∈ l, ∃ s, x = MkLine.text s) → ¬ Sets l n := by
    rintro l n hl ⟨x, hx, he⟩
    obtain ⟨s, rfl⟩ := hl x hx
    cases he
  constructor
  · intro a ha
    rw [listValue_stable (not_sets_aget (nocopy _ (Or.inl ⟨a, rfl⟩)))]
    rw [listValue_stable (not_sets_aget ?_)]
    · rcases p.hactions with ⟨h, -⟩ | h
      · rw [h] at ha; cases ha
      · obtain ⟨parts, hp, hl⟩ := WriteActions_some h
        rw [hl, varsAfter_append]
        exact (actions_values ok m.spec.actions (fun _ h => h) ok.actionNames parts hp vH hH).2 a ha
    · intro hs
      rcases p.hrules with ⟨-, h⟩ | h
      · rw [h] at hs; exact nil_sets _ hs
      · exact head_in (l := ['a']) ⟨'a', by simp, rfl⟩ (WriteRules_head h hs) (by decide)
  · intro r hr
    rw [listValue_stable (not_sets_aget (nocopy _ (Or.inr ⟨r, rfl⟩)))]
    rcases p.hrules with ⟨h, -⟩ | h
    · rw [h] at hr; cases hr
    · obtain ⟨parts, hp, hl⟩ := WriteRules_some h
      rw [hl, varsAfter_append]
      exact (rules_values ok m.spec.rules (fun _ h => h) ok.ruleNames parts hp _ hA).2 r hr
  · intro hc
    rcases p.hcopies with ⟨h, -⟩ | h
    · exact absurd h hc
    · exact copies_value ok hR h

theorem extra_head {n : Str} (h : (∃ a ∈ m.spec.actions, n = actionOutputs m a) ∨
    ∃ r ∈ m.spec.rules, n = ruleOutputsVar m r) : ∃ x ∈ ['a', 'r'], n.head? = some x := by
  rcases h with ⟨a, -, rfl⟩ | ⟨r, -, rfl⟩
  · exact ⟨'a', by simp, rfl⟩
  · exact ⟨'r', by simp, rfl⟩

theorem copiesVar_config (ok : TargetOk m t) {c : MkConfig} (hc : c ∈ m.spec.configs) :
    copiesVar m ∉ configNames c := by
  intro h
  have hk := ok.configNames c hc
  simp only [configNames, List.mem_cons, List.not_mem_nil, or_false] at h hk
  rcases h with h | h | h | h | h | h
  · exact hk c!"DEFS_" (by simp) h.symm
  · exact hk c!"CFLAGS_" (by simp) h.symm
  · exact hk c!"CFLAGS_C_" (by simp) h.symm
  · exact hk c!"CFLAGS_CC_" (by simp) h.symm
  · exact hk c!"INCS_" (by simp) h.symm
  · exact hk c!"LDFLAGS_" (by simp) h.symm

theorem sources_extra (ok : TargetOk m t) (p : MkParts m t) {n : Str} (hn : IsExtra m n) :
    ¬ Sets p.sources n := by
  rcases p.hsources with ⟨-, h⟩ | h
  · rw [h]; exact nil_sets n
  · intro hs
    rcases hn with hn | hn | hn
    · exact head_in (extra_head (Or.inl hn)) (WriteSources_head h hs) (by decide)
    · exact head_in (extra_head (Or.inr hn)) (WriteSources_head h hs) (by decide)
    · subst hn
      rcases WriteSources_sets h hs with e | ⟨c, hc, e⟩
      · exact last_ne (copiesVar_last m) (b := c!"OBJS") rfl (by decide) e
      · exact copiesVar_config ok hc e

theorem target_extra (ok : TargetOk m t) (p : MkParts m t) {n : Str} (hn : IsExtra m n) :
    ¬ Sets p.target n := by
  intro hs
  rcases hn with hn | hn | hn
  · exact head_in (extra_head (Or.inl hn)) (WriteTarget_head p.htarget hs) (by decide)
  · exact head_in (extra_head (Or.inr hn)) (WriteTarget_head p.htarget hs) (by decide)
  · subst hn
    rcases WriteTarget_sets p.htarget hs with e | ⟨c, hc, e⟩
    · exact last_ne (copiesVar_last m) (b := c!"LIBS") rfl (by decide) e
    · exact copiesVar_config ok hc (by rw [e]; simp [configNames])

/-- The variables before the section for the target. -/
def MkParts.late (p : MkParts m t) (v0 : MakeVars) : MakeVars :=
  varsAfter (p.before v0) (p.sources ++
    targetSuffixRules m (m.spec.sources ++ extraSources m.spec))

theorem parts_late (p : MkParts m t) (ok : TargetOk m t) (hf : Fresh v0) :
    Live m.spec (p.late v0) ∧ Extra m (p.late v0) := by
  obtain ⟨h1, h2⟩ := parts_before p ok hf
  unfold MkParts.late
  rw [varsAfter_append]
  refine ⟨(h1.sets (parts_sources_local p)).sets fun n _ => targetSuffixRules_sets, ?_⟩
  refine h2.stable fun n hn => ?_
  rw [not_sets_aget targetSuffixRules_sets, not_sets_aget (sources_extra ok p hn)]

theorem parts_lines (p : MkParts m t) : p.lines =
    (headLines m.spec ++ p.actions ++ p.rules ++ p.copies) ++ (p.sources ++
      targetSuffixRules m (m.spec.sources ++ extraSources m.spec)) ++ p.target := by
  simp [MkParts.lines, headLines]

theorem parts_vars (p : MkParts m t) : varsAfter v0 p.lines = varsAfter (p.late v0) p.target := by
  rw [parts_lines, varsAfter_append, varsAfter_append]; rfl

theorem RuleAt.inTarget (p : MkParts m t) {a : RuleArgs} {v : MakeVars}
    (h : RuleAt (p.late v0) p.target a v) : RuleAt v0 p.lines a v := by
  rw [parts_lines]
  refine RuleAt.right ?_
  rw [varsAfter_append]
  exact h

theorem RuleAt.inSources (p : MkParts m t) {a : RuleArgs} {v : MakeVars}
    (h : RuleAt (p.before v0) p.sources a v) : RuleAt v0 p.lines a v := by
  rw [parts_lines]
  refine RuleAt.left (RuleAt.right (RuleAt.left ?_ _)) _
  exact h

end Gyp
