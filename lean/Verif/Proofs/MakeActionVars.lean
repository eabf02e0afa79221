import Verif.Proofs.MakeActions
/-
The variables that the commands of actions and rules refer to have their values.
-/
namespace Gyp
open Spec

variable {m : MkSelf} {t : MkOutputs} {v0 : MakeVars}

/-! ### The directories -/

/-- The two directories that are absolute in commands. -/
def dirVars : List Str := [c!"obj", c!"builddir"]

theorem dir_text {first n x : Str} {l : List MkLine}
    (h : l = [.setFor first c!"obj" c!"$(abs_obj)", .setFor first c!"builddir" c!"$(abs_builddir)"]) {f : Str}
    (hx : .setFor f n x ∈ l) : x = c!"$(" ++ (c!"abs_" ++ n) ++ c!")" := by
  subst h
  simp only [List.mem_cons, List.not_mem_nil, or_false, MkLine.setFor.injEq] at hx
  rcases hx with ⟨-, rfl, rfl⟩ | ⟨-, rfl, rfl⟩ <;> rfl

theorem actions_dirs {as : List MkAction} {ls : List MkLine} (h : WriteActions m as = some ls) {f n x : Str}
    (hx : .setFor f n x ∈ ls) : x = c!"$(" ++ (c!"abs_" ++ n) ++ c!")" := by
  obtain ⟨parts, h1, rfl⟩ := WriteActions_some h
  rcases List.mem_append.mp hx with hx | hx
  · obtain ⟨p, hp, hx⟩ := List.mem_flatten.mp hx
    have : some p ∈ as.map (writeAction m) := by rw [h1]; exact List.mem_map.mpr ⟨p, hp, rfl⟩
    obtain ⟨a, -, ha⟩ := List.mem_map.mp this
    obtain ⟨first, -, rfl⟩ := writeAction_some ha
    refine dir_text (first := QuoteSpaces first) rfl (f := f) ?_
    simpa using hx
  · simp at hx

theorem ruleSources_dirs {r : MkRule} {count : Nat} {ss : List Str} {ls : List MkLine} {o : List Str}
    (h : writeRuleSources m r count ss = some (ls, o)) {f n x : Str}
    (hx : .setFor f n x ∈ ls) : x = c!"$(" ++ (c!"abs_" ++ n) ++ c!")" := by
  induction ss generalizing count ls o with
  | nil =>
    simp only [writeRuleSources, Option.some.injEq, Prod.mk.injEq] at h
    rw [← h.1] at hx
    cases hx
  | cons s ss ih =>
    rw [writeRuleSources] at h
    split at h
    · rename_i a oa b ob h1 h2
      simp only [Option.some.injEq, Prod.mk.injEq] at h
      rw [← h.1] at hx
      rcases List.mem_append.mp hx with hx | hx
      · obtain ⟨outs, action, first, -, -, -, -, rfl⟩ := writeRuleSource_some h1
        refine dir_text (first := first) rfl (f := f) ?_
        simpa using hx
      · exact ih h2 hx
    · cases h

theorem rules_dirs {rs : List MkRule} {ls : List MkLine} (h : WriteRules m rs = some ls) {f n x : Str}
    (hx : .setFor f n x ∈ ls) : x = c!"$(" ++ (c!"abs_" ++ n) ++ c!")" := by
  obtain ⟨parts, h1, rfl⟩ := WriteRules_some h
  rcases List.mem_append.mp hx with hx | hx
  · obtain ⟨p, hp, hx⟩ := List.mem_flatten.mp hx
    have : some p ∈ rs.map (writeRule m) := by rw [h1]; exact List.mem_map.mpr ⟨p, hp, rfl⟩
    obtain ⟨r, -, hr⟩ := List.mem_map.mp this
    obtain ⟨l, outputs, e, rfl⟩ := writeRule_some hr
    exact ruleSources_dirs e (f := f) (by simpa using hx)
  · simp at hx

theorem lines_dirs (p : MkParts m t) {f n x : Str} (hn : n ∈ dirVars) (hx : .setFor f n x ∈ p.lines) :
    x = c!"$(" ++ (c!"abs_" ++ n) ++ c!")" := by
  have hd : ∀ n ∈ dirVars, n ∉ [c!"TOOLSET", c!"GYP_CFLAGS", c!"GYP_CXXFLAGS"] := by decide
  have hd2 : ∀ n ∈ dirVars, n ∉ [c!"GYP_LDFLAGS", c!"LIBS", c!"LD_INPUTS"] := by decide
  rw [lines_front] at hx
  unfold MkParts.front at hx
  rcases List.mem_append.mp hx with hx | hx
  · rcases List.mem_append.mp hx with hx | hx
    · rcases List.mem_append.mp hx with hx | hx
      · unfold MkParts.start at hx
        rcases List.mem_append.mp hx with hx | hx
        · rcases List.mem_append.mp hx with hx | hx
          · rcases List.mem_append.mp hx with hx | hx
            · simp [headLines] at hx
            · rcases p.hactions with ⟨-, h⟩ | h
              · rw [h] at hx; cases hx
              · exact actions_dirs h hx
          · rcases p.hrules with ⟨-, h⟩ | h
            · rw [h] at hx; cases hx
            · exact rules_dirs h hx
        · rcases p.hcopies with ⟨-, h⟩ | h
          · rw [h] at hx; cases hx
          · exact absurd (copies_locals h [] _ _ _ hx) (by simp)
      · exact absurd (sources_locals p _ _ _ hx) (hd n hn)
    · exact absurd (targetSuffix_locals _ [] _ _ _ hx) (by simp)
  · exact absurd (target_locals p.htarget _ _ _ hx) (hd2 n hn)

/-- The absolute directories are set by the common header only. -/
theorem abs_unset (p : MkParts m t) {n : Str} (hn : n ∈ dirVars) : ¬ Sets p.lines (c!"abs_" ++ n) := by
  have ha : ∃ x ∈ ['a'], (c!"abs_" ++ n).head? = some x := ⟨'a', by simp, rfl⟩
  intro hs
  rw [lines_front] at hs
  unfold MkParts.front MkParts.start at hs
  rcases Sets.append.mp hs with hs | hs
  · rcases Sets.append.mp hs with hs | hs
    · rcases Sets.append.mp hs with hs | hs
      · rcases Sets.append.mp hs with hs | hs
        · rcases Sets.append.mp hs with hs | hs
          · rcases Sets.append.mp hs with hs | hs
            · obtain ⟨l, hl, he⟩ := hs
              simp only [headLines, List.mem_cons, List.not_mem_nil, or_false] at hl
              rcases hl with rfl | rfl <;> simp [setsVar] at he
            · rcases p.hactions with ⟨-, h⟩ | h
              · rw [h] at hs; exact nil_sets _ hs
              · obtain ⟨a, -, e | e | e⟩ := WriteActions_sets h hs
                · injection e with e; revert e; decide
                · injection e with e; revert e; decide
                · unfold actionOutputs at e
                  injection e with _ e
                  injection e with e _
                  revert e; decide
          · rcases p.hrules with ⟨-, h⟩ | h
            · rw [h] at hs; exact nil_sets _ hs
            · exact head_in (WriteRules_head h hs) ha (by decide)
        · rcases p.hcopies with ⟨-, h⟩ | h
          · rw [h] at hs; exact nil_sets _ hs
          · have e := WriteCopies_sets h hs
            have h1 := copiesVar_last m
            rw [← e] at h1
            have hd : ∀ n ∈ dirVars, (c!"abs_" ++ n).getLast? ≠ some 's' := by decide
            exact hd n hn h1
      · rcases p.hsources with ⟨-, h⟩ | h
        · rw [h] at hs; exact nil_sets _ hs
        · exact head_in (WriteSources_head h hs) ha (by decide)
    · exact targetSuffixRules_sets hs
  · exact head_in (WriteTarget_head p.htarget hs) ha (by decide)

/-- All variables of a name for single targets have the value of one global variable. -/
theorem localValues_same {v : MakeVars} {ls : List MkLine} {n g : Str} (hg : NameText g) (hs : ¬ Sets ls g)
    (hT : n ≠ c!"TOOLSET")
    (hf : ∀ t x, .setFor t n x ∈ ls → x = c!"$(" ++ g ++ c!")") {e : Str × Str × Str}
    (he : e ∈ localValues v ls) (hn : e.2.1 = n) : e.2.2 = valueOf v g := by
  induction ls generalizing v with
  | nil => cases he
  | cons l ls ih =>
    have hs' : ¬ Sets ls g := fun ⟨x, hx, h⟩ => hs ⟨x, List.mem_cons_of_mem _ hx, h⟩
    have hl : setsVar l ≠ some g := fun h => hs ⟨l, List.mem_cons_self .., h⟩
    have hv : valueOf (putVar v l) g = valueOf v g := by
      unfold valueOf
      rw [aget_putVar hl]
    have rest : e ∈ localValues (putVar v l) ls → e.2.2 = valueOf v g := fun h => by
      rw [ih hs' (fun t x hx => hf t x (List.mem_cons_of_mem _ hx)) h, hv]
    cases l with
    | setFor t n' x =>
      rcases List.mem_append.mp he with h | h
      · obtain ⟨y, -, rfl⟩ := List.mem_map.mp h
        dsimp only at hn ⊢
        subst hn
        rw [hf t x (List.mem_cons_self ..)]
        unfold real
        rw [deep_ref _ hg]
        rfl
      · exact rest h
    | rule a =>
      rcases List.mem_append.mp he with h | h
      · obtain ⟨i, -, hi⟩ := List.mem_flatMap.mp h
        cases i with
        | rule => cases hi
        | setVar ts text =>
          simp only [ruleLocals] at hi
          split at hi
          · obtain ⟨y, -, rfl⟩ := List.mem_map.mp hi
            exact absurd hn.symm hT
          · cases hi
      · exact rest h
    | text => exact rest he
    | set => exact rest he
    | setLater => exact rest he
    | list => exact rest he
    | add => exact rest he
    | pattern => exact rest he

/-! ### Where statements of actions and rules are -/

theorem at_line (p : MkParts m t) (ok : TargetOk m t) {l : MkLine} (h : l ∈ p.actions ∨ l ∈ p.rules) :
    ∃ pre post, p.lines = pre ++ l :: post ∧ Seen m v0 (valuesAfter v0 pre) := by
  have h0 : Seen m v0 (valuesAfter v0 (headLines m.spec)) := by
    rw [seen_head ok.toolset ok.name]; exact fun n _ => rfl
  rcases h with h | h
  · obtain ⟨b, c, hbc⟩ := List.append_of_mem h
    refine ⟨headLines m.spec ++ b, c ++ p.rules ++ p.copies ++ p.sources ++
      targetSuffixRules m (m.spec.sources ++ extraSources m.spec) ++ p.target, ?_, ?_⟩
    · simp [MkParts.lines, headLines, hbc]
    · rw [valuesAfter_append]
      refine h0.sets fun n hn hs => (parts_sets p hn).1 ?_
      rw [hbc]; exact Sets.append.mpr (Or.inl hs)
  · obtain ⟨b, c, hbc⟩ := List.append_of_mem h
    refine ⟨headLines m.spec ++ p.actions ++ b, c ++ p.copies ++ p.sources ++
      targetSuffixRules m (m.spec.sources ++ extraSources m.spec) ++ p.target, ?_, ?_⟩
    · simp [MkParts.lines, headLines, hbc]
    · rw [valuesAfter_append, valuesAfter_append]
      refine (h0.sets fun n hn => (parts_sets p hn).1).sets fun n hn hs => (parts_sets p hn).2.1 ?_
      rw [hbc]; exact Sets.append.mpr (Or.inl hs)

theorem file_names (ok : TargetOk m t) {build : Str} (hh : HeaderOk v0 build) {v : MakeVars} (hv : Seen m v0 v)
    {f : Str} (hf : FileText f) : Spec.names (real v (Absolutify m f)) = [expand v0 (fileName m f)] := by
  obtain ⟨h1, h2, h3, h4⟩ := absolutify_file ok hf
  have e : real v (Absolutify m f) = expand (seenVars m v0) (Absolutify m f) := by
    unfold real
    rw [hv.stands (standsFor_ref hh ok.toolset ok.name h1)]
    rfl
  have hc := expand_seen_clean hh ok.toolset ok.name h1 h2
  rw [e, names_clean hc.1 (hc.2 h3), expand_two ok.toolset ok.name h1, h4]

theorem file_quote (ok : TargetOk m t) {f : Str} (hf : FileText f) :
    QuoteSpaces (Absolutify m f) = Absolutify m f := replaceChar_absent (absolutify_file ok hf).2.1.blank

/-- The directories are absolute for a file. -/
theorem dir_value (p : MkParts m t) (ok : TargetOk m t) {build : Str} (hh : HeaderOk v0 build) {f : Str}
    (hf : FileText f) {n x : Str} (hn : n ∈ dirVars)
    (h : .setFor (Absolutify m f) n x ∈ p.actions ∨ .setFor (Absolutify m f) n x ∈ p.rules) :
    localValue (localValues v0 p.lines) (expand v0 (fileName m f)) n = some (valueOf v0 (c!"abs_" ++ n)) := by
  have hx : x = c!"$(" ++ (c!"abs_" ++ n) ++ c!")" := lines_dirs p (f := Absolutify m f) hn (by
    rcases h with h | h <;> simp [MkParts.lines, h])
  have hname : ∀ n ∈ dirVars, NameText (c!"abs_" ++ n) := by unfold NameText; decide
  have hT : ∀ n ∈ dirVars, n ≠ c!"TOOLSET" := by decide
  obtain ⟨pre, post, hl, hs⟩ := at_line (v0 := v0) p ok h
  refine localValue_all ?_ fun e he hen => localValues_same (hname n hn) (abs_unset p hn) (hT n hn)
    (fun t x hx => lines_dirs p hn hx) he hen
  rw [hl, localValues_append]
  refine List.mem_append_right _ ?_
  rw [localValues]
  refine List.mem_append_left _ (List.mem_map.mpr ⟨expand v0 (fileName m f), ?_, ?_⟩)
  · rw [file_names ok hh hs hf]; simp
  · have : real (valuesAfter v0 pre) x = valueOf v0 (c!"abs_" ++ n) := by
      rw [hx]
      unfold real
      rw [deep_ref _ (hname n hn)]
      show valueOf _ _ = _
      unfold valueOf
      rw [aget_valuesAfter]
      intro hs
      apply abs_unset p hn
      rw [hl]
      exact Sets.append.mpr (Or.inl hs)
    rw [this]

/-! ### The toolset -/

theorem before_items {a : RuleArgs} (ok : a.Ok) (hord : a.orderOnly = false) {acts : List Str}
    (hacts : a.actions = some acts) (hdig : MkWord a.digest) : ∃ rest, itemsOf (.rule a) = before a ++ rest := by
  match houts : a.outputs with
  | [] => exact absurd houts ok.some_output
  | [o] => exact ⟨_, itemsOf_read (C63_one_output a ok o houts hord)⟩
  | o1 :: o2 :: os =>
    exact ⟨_, itemsOf_read (C63_several_outputs a ok o1 o2 os houts hord acts hacts
      (hdig.2.1.ruleName hdig.1) hdig.2.1.blank)⟩

/-- The toolset of the first output of a rule. -/
theorem first_toolset (p : MkParts m t) (ok : TargetOk m t) {build : Str} (hh : HeaderOk v0 build) {f : Str}
    (hf : FileText f) {a : RuleArgs} (aok : a.Ok) (hord : a.orderOnly = false) {acts : List Str}
    (hacts : a.actions = some acts) (hne : acts ≠ []) (hdig : MkWord a.digest) (ho : a.outputs.head? = some (Absolutify m f))
    (h : .rule a ∈ p.actions ∨ .rule a ∈ p.rules) :
    localValue (localValues v0 p.lines) (expand v0 (fileName m f)) c!"TOOLSET" = some m.spec.toolset := by
  refine localValue_all ?_ fun e he hen => toolset_value p ok he hen
  obtain ⟨pre, post, hl, hs⟩ := at_line (v0 := v0) p ok h
  obtain ⟨rest, hit⟩ := before_items aok hord hacts hdig
  rw [hl, localValues_append]
  refine List.mem_append_right _ ?_
  rw [localValues, hit]
  refine List.mem_append_left _ (List.mem_flatMap.mpr ⟨.setVar (a.outputs.take 1) c!" TOOLSET := $(TOOLSET)", ?_, ?_⟩)
  · refine List.mem_append_left _ (List.mem_append_right _ ?_)
    have : hasActions a.actions = true := by
      rw [hacts]
      cases acts with
      | nil => exact absurd rfl hne
      | cons => rfl
    rw [if_pos this]
    simp
  · rw [ruleLocals, if_pos rfl]
    refine List.mem_map.mpr ⟨expand v0 (fileName m f), ?_, ?_⟩
    · cases houts : a.outputs with
      | nil => rw [houts] at ho; cases ho
      | cons o os =>
        rw [houts] at ho
        injection ho with ho
        subst ho
        show _ ∈ ([Absolutify m f] : List Str).flatMap _
        rw [List.flatMap_cons, List.flatMap_nil, List.append_nil, replaceChar_absent (absolutify_file ok hf).2.1.blank,
          file_names ok hh hs hf]
        simp
    · unfold valueOf
      rw [hs _ (by decide)]
      rfl

end Gyp
