import Verif.Proofs.MakeSections
/-
The values of the variables at every place of the makefile of a target.
-/
namespace Gyp
open Spec

/-! ### Rules where they stand -/

/-- A rule of a makefile and the variables at its place. -/
def RuleAt (v0 : MakeVars) (lines : List MkLine) (a : RuleArgs) (v : MakeVars) : Prop :=
  ∃ pre post, lines = pre ++ .rule a :: post ∧ v = varsAfter v0 pre

theorem RuleAt.left {v0 : MakeVars} {x : List MkLine} {a : RuleArgs} {v : MakeVars}
    (h : RuleAt v0 x a v) (y : List MkLine) : RuleAt v0 (x ++ y) a v := by
  obtain ⟨pre, post, rfl, rfl⟩ := h
  exact ⟨pre, post ++ y, by simp, rfl⟩

theorem RuleAt.right {v0 : MakeVars} {x y : List MkLine} {a : RuleArgs} {v : MakeVars}
    (h : RuleAt (varsAfter v0 x) y a v) : RuleAt v0 (x ++ y) a v := by
  obtain ⟨pre, post, rfl, rfl⟩ := h
  exact ⟨x ++ pre, post, by simp, by rw [varsAfter_append]⟩

theorem RuleAt.head {v0 : MakeVars} (a : RuleArgs) (y : List MkLine) :
    RuleAt v0 (.rule a :: y) a v0 := ⟨[], y, rfl, rfl⟩

theorem RuleAt.item {v0 v : MakeVars} {lines : List MkLine} {a : RuleArgs}
    (h : RuleAt v0 lines a v) {i : MakeItem} (hi : i ∈ itemsOf (.rule a)) :
    expandItem v i ∈ rulesFrom v0 lines := by
  obtain ⟨pre, post, rfl, rfl⟩ := h
  rw [rulesFrom_append, rulesFrom]
  exact List.mem_append_right _ (List.mem_append_left _ (List.mem_map_of_mem hi))

theorem itemsOf_read {a : RuleArgs} {items : List MakeItem}
    (h : ∃ lines, WriteMakeRule a = some lines ∧ readMakefile (writeLines lines) = some items) :
    itemsOf (.rule a) = items := by
  obtain ⟨lines, h1, h2⟩ := h
  simp only [itemsOf, h1, h2, Option.getD_some]

theorem mem_words {v : MakeVars} {l : List Str} {o x : Str} (ho : o ∈ l) (hx : x ∈ wordsOf v o) :
    x ∈ l.flatMap (wordsOf v) := List.mem_flatMap.mpr ⟨o, ho, hx⟩

/-- An order-only rule. -/
theorem RuleAt.order {v0 v : MakeVars} {lines : List MkLine} {a : RuleArgs}
    (h : RuleAt v0 lines a v) (ok : a.Ok) (hord : a.orderOnly = true) {o i x y : Str}
    (ho : o ∈ a.outputs) (hi : i ∈ a.inputs) (hx : x ∈ wordsOf v o) (hy : y ∈ wordsOf v i) :
    WaitsFor (rulesFrom v0 lines) x y := by
  have hit := itemsOf_read (C63_order_only a ok hord)
  have := h.item (i := .rule a.outputs [] (a.inputs ++ forceNames a.force) (a.actions.getD []))
    (by rw [hit]; simp)
  exact ⟨_, _, _, _, this, mem_words ho hx, Or.inr (mem_words (List.mem_append_left _ hi) hy)⟩

/-- A rule with one output. -/
theorem RuleAt.one {v0 v : MakeVars} {lines : List MkLine} {a : RuleArgs}
    (h : RuleAt v0 lines a v) (ok : a.Ok) (hord : a.orderOnly = false) {o i x y : Str}
    (ho : a.outputs = [o]) (hi : i ∈ a.inputs) (hx : x ∈ wordsOf v o) (hy : y ∈ wordsOf v i) :
    MadeFrom (rulesFrom v0 lines) x y := by
  have hit := itemsOf_read (C63_one_output a ok o ho hord)
  have := h.item (i := .rule [o] (a.inputs ++ forceNames a.force) [] (a.actions.getD []))
    (by rw [hit]; simp)
  exact ⟨_, _, _, _, this, mem_words (by simp) hx, mem_words (List.mem_append_left _ hi) hy⟩

theorem RuleAt.recipe {v0 v : MakeVars} {lines : List MkLine} {a : RuleArgs}
    (h : RuleAt v0 lines a v) (ok : a.Ok) (hord : a.orderOnly = false) {o x : Str}
    (ho : a.outputs = [o]) (hx : x ∈ wordsOf v o) :
    HasRecipe (rulesFrom v0 lines) x (a.actions.getD []) := by
  have hit := itemsOf_read (C63_one_output a ok o ho hord)
  have := h.item (i := .rule [o] (a.inputs ++ forceNames a.force) [] (a.actions.getD []))
    (by rw [hit]; simp)
  exact ⟨_, _, _, this, mem_words (by simp) hx⟩

/-- A rule with actions, whatever the number of outputs: the inputs come first, directly or
through an intermediate file. -/
theorem RuleAt.made {v0 v : MakeVars} {lines : List MkLine} {a : RuleArgs}
    (h : RuleAt v0 lines a v) (ok : a.Ok) (hord : a.orderOnly = false) {acts : List Str}
    (hacts : a.actions = some acts) (hdig : MkWord a.digest) {o i x y : Str}
    (ho : o ∈ a.outputs) (hi : i ∈ a.inputs) (hx : x ∈ wordsOf v o) (hy : y ∈ wordsOf v i) :
    Relation.TransGen (MadeFrom (rulesFrom v0 lines)) x y := by
  match houts : a.outputs with
  | [] => rw [houts] at ho; cases ho
  | [o1] =>
    rw [houts, List.mem_singleton] at ho
    subst ho
    exact .single (h.one ok hord houts hi hx hy)
  | o1 :: o2 :: os =>
    have hc : MkClean (a.digest ++ c!".intermediate") := hdig.2.1.append (by unfold MkClean; decide)
    have hd : '$' ∉ a.digest ++ c!".intermediate" := by
      rw [List.mem_append, not_or]; exact ⟨hdig.2.2, by decide⟩
    have hw : wordsOf v (a.digest ++ c!".intermediate") = [a.digest ++ c!".intermediate"] :=
      wordsOf_one hc (expand_plain _ hd) hc (by simp)
    have hit := itemsOf_read (C63_several_outputs a ok o1 o2 os houts hord acts hacts
      (hdig.2.1.ruleName hdig.1) hdig.2.1.blank)
    have h1 := h.item (i := .rule a.outputs [a.digest ++ c!".intermediate"] [] [c!"@:"])
      (by rw [hit]; simp)
    have h2 := h.item (i := .rule [a.digest ++ c!".intermediate"] (a.inputs ++ forceNames a.force) []
          (c!"$(call do_cmd,touch)" :: acts)) (by rw [hit]; simp)
    refine .tail (.single (b := a.digest ++ c!".intermediate") ?_) ?_
    · exact ⟨_, _, _, _, h1, mem_words ho hx, mem_words (List.mem_singleton.mpr rfl)
        (by rw [hw]; simp)⟩
    · exact ⟨_, _, _, _, h2, mem_words (List.mem_singleton.mpr rfl) (by rw [hw]; simp),
        mem_words (List.mem_append_left _ hi) hy⟩

/-- The command of a rule with actions: the recipe of the output, or the last lines of the recipe
of the intermediate file that the output is made from. -/
theorem RuleAt.command {v0 v : MakeVars} {lines : List MkLine} {a : RuleArgs}
    (h : RuleAt v0 lines a v) (ok : a.Ok) (hord : a.orderOnly = false) {acts : List Str}
    (hacts : a.actions = some acts) (hdig : MkWord a.digest) {o x : Str}
    (ho : o ∈ a.outputs) (hx : x ∈ wordsOf v o) :
    HasRecipe (rulesFrom v0 lines) x acts ∨
      ∃ y, MadeFrom (rulesFrom v0 lines) x y ∧
        HasRecipe (rulesFrom v0 lines) y (c!"$(call do_cmd,touch)" :: acts) := by
  match houts : a.outputs with
  | [] => rw [houts] at ho; cases ho
  | [o1] =>
    rw [houts, List.mem_singleton] at ho
    subst ho
    have := h.recipe ok hord houts hx
    rw [hacts] at this
    exact Or.inl this
  | o1 :: o2 :: os =>
    have hc : MkClean (a.digest ++ c!".intermediate") := hdig.2.1.append (by unfold MkClean; decide)
    have hd : '$' ∉ a.digest ++ c!".intermediate" := by
      rw [List.mem_append, not_or]; exact ⟨hdig.2.2, by decide⟩
    have hw : wordsOf v (a.digest ++ c!".intermediate") = [a.digest ++ c!".intermediate"] :=
      wordsOf_one hc (expand_plain _ hd) hc (by simp)
    have hit := itemsOf_read (C63_several_outputs a ok o1 o2 os houts hord acts hacts
      (hdig.2.1.ruleName hdig.1) hdig.2.1.blank)
    have h1 := h.item (i := .rule a.outputs [a.digest ++ c!".intermediate"] [] [c!"@:"])
      (by rw [hit]; simp)
    have h2 := h.item (i := .rule [a.digest ++ c!".intermediate"] (a.inputs ++ forceNames a.force) []
          (c!"$(call do_cmd,touch)" :: acts)) (by rw [hit]; simp)
    refine Or.inr ⟨a.digest ++ c!".intermediate", ?_, ?_⟩
    · exact ⟨_, _, _, _, h1, mem_words ho hx, mem_words (List.mem_singleton.mpr rfl)
        (by rw [hw]; simp)⟩
    · exact ⟨_, _, _, h2, mem_words (List.mem_singleton.mpr rfl) (by rw [hw]; simp)⟩

/-! ### Values of the variables of the beginning -/

/-- The variables of the beginning have the values of the target, those of the header none. -/
def Live (s : MkSpec) (v : MakeVars) : Prop := ∀ n ∈ localVars, aget v n = aget (ownVars s) n

theorem Live.expand {s : MkSpec} {v : MakeVars} (h : Live s v) {x : Str} (hx : RefText localVars x) :
    expand v x = expand (ownVars s) x := expand_congr h hx

theorem Live.header {s : MkSpec} {v : MakeVars} (h : Live s v) {x : Str}
    (hx : RefText headerVars x) : Spec.expand v x = x := by
  refine expand_stable v (fun n hn => ?_) hx
  rw [h n (by simp [localVars, hn])]
  simp only [headerVars, List.mem_cons, List.not_mem_nil, or_false] at hn
  rcases hn with rfl | rfl | rfl <;> rfl

theorem Live.sets {s : MkSpec} {v : MakeVars} (h : Live s v) {ls : List MkLine}
    (hs : ∀ n ∈ localVars, ¬ Sets ls n) : Live s (varsAfter v ls) := by
  intro n hn
  rw [not_sets_aget (hs n hn), h n hn]

theorem refValue_own {s : MkSpec} {n : Str} (hn : n ∈ localVars) (ht : MkWord s.toolset)
    (hg : MkWord s.targetName) : MkClean (refValue (ownVars s) n) ∧ refValue (ownVars s) n ≠ [] := by
  simp only [localVars, headerVars, List.mem_cons, List.not_mem_nil, or_false] at hn
  rcases hn with rfl | rfl | rfl | rfl | rfl
  · exact ⟨ht.2.1, ht.1⟩
  · exact ⟨hg.2.1, hg.1⟩
  · rw [show refValue (ownVars s) c!"obj" = c!"$(obj)" from rfl]
    exact ⟨by unfold MkClean; decide, by decide⟩
  · rw [show refValue (ownVars s) c!"builddir" = c!"$(builddir)" from rfl]
    exact ⟨by unfold MkClean; decide, by decide⟩
  · rw [show refValue (ownVars s) c!"srcdir" = c!"$(srcdir)" from rfl]
    exact ⟨by unfold MkClean; decide, by decide⟩

theorem expand_own {s : MkSpec} (ht : MkWord s.toolset) (hg : MkWord s.targetName) {x : Str}
    (hx : RefText localVars x) (hc : MkClean x) :
    MkClean (expand (ownVars s) x) ∧ (x ≠ [] → expand (ownVars s) x ≠ []) := by
  unfold expand
  induction hx with
  | nil => exact ⟨by simp [expandFrom, MkClean], fun h => absurd rfl h⟩
  | @char c x h _ ih =>
    rw [expandFrom_char _ h]
    refine ⟨?_, fun _ => by simp⟩
    intro d hd
    rcases List.mem_cons.mp hd with rfl | hd
    · exact hc _ (by simp)
    · exact (ih fun e he => hc e (by simp [he])).1 d hd
  | @ref n x h1 h2 _ ih =>
    rw [expandFrom_ref _ _ _ h2]
    obtain ⟨r1, r2⟩ := refValue_own h1 ht hg
    refine ⟨r1.append (ih fun e he => hc e (by simp [he])).1, fun _ => ?_⟩
    simp [r2]

/-! ### Files -/

theorem _root_.Gyp.Spec.RefText.dollar {R : List Str} {x : Str} (h : RefText R x) :
    hasSub c!"$(" x = true ↔ '$' ∈ x := by
  constructor
  · intro hs
    obtain ⟨a, b, rfl⟩ := (hasSub_iff _ _).mp hs
    simp
  · intro hd
    by_contra hs
    exact h.noSub (by simpa using hs) hd

theorem rstrip_dollar {x : Str} : '$' ∈ rstripSlash x ↔ '$' ∈ x := by
  constructor
  · exact mem_rstrip
  · intro h
    obtain ⟨k, hk⟩ := rstripSlash_spec x
    rw [hk] at h
    rcases List.mem_append.mp h with h | h
    · exact h
    · exact absurd (List.eq_of_mem_replicate h) (by decide)

theorem normpath_join_dollar {a b : Str} (ha : '$' ∉ a) (hb : '$' ∉ b) :
    '$' ∉ normpath (pathJoin a b) := by
  intro h
  rcases mem_normpath h with h | h | h
  · rcases mem_pathJoin h with h | h | h
    · exact ha h
    · exact hb h
    · exact absurd h (by decide)
  · exact absurd h (by decide)
  · exact absurd h (by decide)

variable {m : MkSelf} {t : MkOutputs}

/-- What `Absolutify` makes of a name becomes the file. -/
theorem absolutify_file (ok : TargetOk m t) {f : Str} (hf : FileText f) :
    RefText localVars (Absolutify m f) ∧ MkClean (Absolutify m f) ∧ Absolutify m f ≠ [] ∧
      expand (ownVars m.spec) (Absolutify m f) = fileName m f := by
  refine ⟨hf.2.2.absolutify ok.path.2, MkClean.absolutify ok.path.1 hf.2.1, ?_, ?_⟩
  · unfold Absolutify
    split
    · rename_i h
      have := rstrip_dollar.mpr (hf.2.2.dollar.mp h)
      intro e; rw [e] at this; cases this
    · exact normpath_ne_nil _
  · unfold Absolutify fileName
    by_cases h : '$' ∈ f
    · rw [if_pos (hf.2.2.dollar.mpr h), if_pos h]
    · rw [if_neg (by rw [hf.2.2.dollar]; exact h), if_neg h,
        expand_plain _ (normpath_join_dollar ok.path.2 h)]

theorem fileName_clean (ok : TargetOk m t) {f : Str} (hf : FileText f) :
    MkClean (fileName m f) ∧ fileName m f ≠ [] := by
  obtain ⟨h1, h2, h3, h4⟩ := absolutify_file ok hf
  have := expand_own ok.toolset ok.name h1 h2
  rw [h4] at this
  exact ⟨this.1, this.2 h3⟩

theorem srcdir_ref (ok : TargetOk m t) : RefText localVars m.srcdirPrefix ∧ MkClean m.srcdirPrefix ∧
    expand (ownVars m.spec) m.srcdirPrefix = m.srcdirPrefix := by
  rcases ok.srcdir with h | h <;> rw [h]
  · exact ⟨.nil, by simp [MkClean], rfl⟩
  · refine ⟨?_, by unfold MkClean; decide, rfl⟩
    exact .ref (n := c!"srcdir") (s := c!"/") (by simp [localVars, headerVars]) (by decide)
      (.char (by decide) .nil)

theorem sourceify_file (ok : TargetOk m t) {f : Str} (hf : FileText f) :
    RefText localVars (Sourceify m (Absolutify m f)) ∧ MkClean (Sourceify m (Absolutify m f)) ∧
      Sourceify m (Absolutify m f) ≠ [] ∧
      expand (ownVars m.spec) (Sourceify m (Absolutify m f)) = inputName m f := by
  obtain ⟨h1, h2, h3, h4⟩ := absolutify_file ok hf
  obtain ⟨s1, s2, s3⟩ := srcdir_ref ok
  refine ⟨RefText.sourceify s1 h1, MkClean.sourceify s2 h2, ?_, ?_⟩
  · unfold Sourceify
    split
    · exact h3
    · split
      · exact h3
      · simp [h3]
  · have hd : '$' ∈ Absolutify m f ↔ '$' ∈ f := by
      unfold Absolutify
      by_cases h : '$' ∈ f
      · rw [if_pos (hf.2.2.dollar.mpr h), rstrip_dollar]
      · rw [if_neg (by rw [hf.2.2.dollar]; exact h)]
        exact ⟨fun h' => absurd h' (normpath_join_dollar ok.path.2 h), fun h' => absurd h' h⟩
    unfold Sourceify inputName
    by_cases h : '$' ∈ f
    · rw [if_pos (h1.dollar.mpr (hd.mpr h)), if_pos (Or.inl h), h4]
    · have hA : Absolutify m f = fileName m f := by
        unfold Absolutify fileName
        rw [if_neg (by rw [hf.2.2.dollar]; exact h), if_neg h]
      rw [if_neg (by rw [h1.dollar, hd]; exact h)]
      by_cases ha : isAbs (fileName m f)
      · rw [hA, if_pos ha, if_pos (Or.inr ha), ← hA, h4, hA]
      · rw [hA, if_neg ha, if_neg (by simp [h, ha]), expand_append _ s1, s3, ← hA, h4, hA]

theorem inputName_clean (ok : TargetOk m t) {f : Str} (hf : FileText f) :
    MkClean (inputName m f) ∧ inputName m f ≠ [] := by
  obtain ⟨h1, h2, h3, h4⟩ := sourceify_file ok hf
  have := expand_own ok.toolset ok.name h1 h2
  rw [h4] at this
  exact ⟨this.1, this.2 h3⟩

theorem Live.words {v : MakeVars} (ok : TargetOk m t) (hv : Live m.spec v) {x y : Str}
    (h : RefText localVars x ∧ MkClean x ∧ x ≠ [] ∧ Spec.expand (ownVars m.spec) x = y) :
    wordsOf v x = [y] := by
  have := expand_own ok.toolset ok.name h.1 h.2.1
  exact wordsOf_one h.2.1 (by rw [hv.expand h.1, h.2.2.2]) (h.2.2.2 ▸ this.1)
    (h.2.2.2 ▸ this.2 h.2.2.1)

theorem Live.depWords {v : MakeVars} (hv : Live m.spec v) {x : Str} (h : DepText x) :
    wordsOf v x = [x] := wordsOf_one h.2.1 (hv.header h.2.2) h.2.1 h.1

/-! ### Which variables stay -/

theorem copiesVar_end (m : MkSelf) : ∃ q, copiesVar m = q ++ c!"_copies" := by
  refine ⟨StringToMakefileVariable m.qualified, ?_⟩
  unfold copiesVar StringToMakefileVariable
  rw [List.map_append]
  rfl

theorem last_ne {a b : Str} {x y : Char} (ha : a.getLast? = some x) (hb : b.getLast? = some y)
    (h : x ≠ y) : a ≠ b := by
  rintro rfl
  rw [ha] at hb
  injection hb with hb
  exact h hb

theorem copiesVar_last (m : MkSelf) : (copiesVar m).getLast? = some 's' := by
  obtain ⟨q, hq⟩ := copiesVar_end m
  rw [hq, List.getLast?_append]
  rfl

theorem local_last {n : Str} (hn : n ∈ localVars) : ∃ x ∈ ['T', 'j', 'r'], n.getLast? = some x := by
  simp only [localVars, headerVars, List.mem_cons, List.not_mem_nil, or_false] at hn
  rcases hn with rfl | rfl | rfl | rfl | rfl
  · exact ⟨'T', by simp, rfl⟩
  · exact ⟨'T', by simp, rfl⟩
  · exact ⟨'j', by simp, rfl⟩
  · exact ⟨'r', by simp, rfl⟩
  · exact ⟨'r', by simp, rfl⟩

theorem local_head {n : Str} (hn : n ∈ localVars) : ∃ x ∈ ['T', 'o', 'b', 's'], n.head? = some x := by
  simp only [localVars, headerVars, List.mem_cons, List.not_mem_nil, or_false] at hn
  rcases hn with rfl | rfl | rfl | rfl | rfl
  · exact ⟨'T', by simp, rfl⟩
  · exact ⟨'T', by simp, rfl⟩
  · exact ⟨'o', by simp, rfl⟩
  · exact ⟨'b', by simp, rfl⟩
  · exact ⟨'s', by simp, rfl⟩

theorem copiesVar_local (m : MkSelf) : copiesVar m ∉ localVars := by
  intro h
  obtain ⟨x, hx, he⟩ := local_last h
  rw [copiesVar_last] at he
  injection he with he
  subst he
  revert hx; decide

/-- The first letters of the variables of configurations. -/
theorem configNames_head {c : MkConfig} {n : Str} (h : n ∈ configNames c) :
    ∃ x ∈ ['D', 'C', 'I', 'L'], n.head? = some x := by
  simp only [configNames, List.mem_cons, List.not_mem_nil, or_false] at h
  rcases h with rfl | rfl | rfl | rfl | rfl | rfl
  · exact ⟨'D', by simp, rfl⟩
  · exact ⟨'C', by simp, rfl⟩
  · exact ⟨'C', by simp, rfl⟩
  · exact ⟨'C', by simp, rfl⟩
  · exact ⟨'I', by simp, rfl⟩
  · exact ⟨'L', by simp, rfl⟩

theorem head_in {n : Str} {l l' : List Char} (h : ∃ x ∈ l, n.head? = some x)
    (h' : ∃ x ∈ l', n.head? = some x) (hd : ∀ x ∈ l, x ∉ l') : False := by
  obtain ⟨x, hx, e⟩ := h
  obtain ⟨y, hy, e'⟩ := h'
  rw [e] at e'
  injection e' with e'
  subst e'
  exact hd x hx hy

theorem WriteActions_head {as : List MkAction} {ls : List MkLine}
    (h : WriteActions m as = some ls) {n : Str} (hn : Sets ls n) :
    ∃ x ∈ ['q', 'c', 'a'], n.head? = some x := by
  obtain ⟨a, -, rfl | rfl | rfl⟩ := WriteActions_sets h hn
  · exact ⟨'q', by simp, rfl⟩
  · exact ⟨'c', by simp, rfl⟩
  · exact ⟨'a', by simp, rfl⟩

theorem WriteRules_head {rs : List MkRule} {ls : List MkLine}
    (h : WriteRules m rs = some ls) {n : Str} (hn : Sets ls n) :
    ∃ x ∈ ['q', 'c', 'r'], n.head? = some x := by
  rcases WriteRules_sets h hn with ⟨a, rfl | rfl⟩ | ⟨r, -, rfl⟩
  · exact ⟨'c', by simp, rfl⟩
  · exact ⟨'q', by simp, rfl⟩
  · exact ⟨'r', by simp, rfl⟩

theorem WriteSources_head {deps srcs extra : List Str} {ls : List MkLine}
    (h : WriteSources m deps srcs extra = some ls) {n : Str} (hn : Sets ls n) :
    ∃ x ∈ ['O', 'D', 'C', 'I', 'L'], n.head? = some x := by
  rcases WriteSources_sets h hn with rfl | ⟨c, -, hc⟩
  · exact ⟨'O', by simp, rfl⟩
  · obtain ⟨x, hx, e⟩ := configNames_head hc
    exact ⟨x, by simp at hx ⊢; tauto, e⟩

/-! ### The section for the target -/

theorem makeRule_sets {a : RuleArgs} {ls : List MkLine} (h : makeRule a = some ls) (n : Str) :
    ¬ Sets ls n := by
  rw [makeRule_some h]; exact sets_rule

theorem nil_sets (n : Str) : ¬ Sets [] n := by
  rintro ⟨l, hl, -⟩; cases hl

theorem phonyRule_sets {o : Str} {ins : List Str} {c : Str} {ls : List MkLine}
    (h : phonyRule m o ins c = some ls) (n : Str) : ¬ Sets ls n := makeRule_sets h n

theorem WriteDoCmd_sets {outs ins : List Str} {cmd : Str} {c : Option Str}
    {ls : List MkLine} (h : WriteDoCmd m outs ins cmd c = some ls) (n : Str) : ¬ Sets ls n := by
  rw [WriteDoCmd_some h]
  rintro ⟨l, hl, he⟩
  simp only [List.mem_cons, List.not_mem_nil, or_false] at hl
  rcases hl with rfl | rfl <;> cases he

theorem groups_sets {gs : List (Option (List MkLine))} {ls : List MkLine} (h : groups gs = some ls)
    {n : Str} (hn : Sets ls n) : ∃ g ∈ gs, ∃ l, g = some l ∧ Sets l n := by
  obtain ⟨parts, rfl, rfl⟩ := groups_some h
  obtain ⟨l, hl, he⟩ := hn
  obtain ⟨part, hp, hl⟩ := List.mem_flatten.mp hl
  exact ⟨some part, List.mem_map_of_mem hp, part, rfl, l, hl, he⟩

theorem finalRule_sets {deps linkDeps : List Str} {ls : List MkLine}
    (h : finalRule m deps linkDeps = some ls) (n : Str) : ¬ Sets ls n := by
  have hld : ∀ (l : List MkLine), ¬ Sets l n → ¬ Sets (ldInputs m linkDeps :: l) n := by
    rintro l hl ⟨x, hx, he⟩
    rcases List.mem_cons.mp hx with rfl | hx
    · cases he
    · exact hl ⟨x, hx, he⟩
  unfold finalRule at h
  dsimp only at h
  by_cases h1 : m.spec.type = c!"executable"
  · rw [if_pos h1] at h
    split at h
    · cases h
    · rename_i l hl
      injection h with h
      rw [← h]
      exact hld _ (WriteDoCmd_sets hl n)
  rw [if_neg h1] at h
  by_cases h2 : m.spec.type = c!"static_library"
  · rw [if_pos h2] at h
    split at h
    · cases h
    · split at h
      · exact makeRule_sets h n
      · exact WriteDoCmd_sets h n
  rw [if_neg h2] at h
  by_cases h3 : m.spec.type = c!"shared_library"
  · rw [if_pos h3] at h
    split at h
    · cases h
    · rename_i l hl
      injection h with h
      rw [← h]
      rw [List.cons_append]
      refine hld _ fun hs => ?_
      rcases Sets.append.mp hs with hs | hs
      · exact WriteDoCmd_sets hl n hs
      · split at hs
        · exact sets_rule hs
        · exact nil_sets n hs
  rw [if_neg h3] at h
  by_cases h4 : m.spec.type = c!"loadable_module"
  · rw [if_pos h4] at h
    split at h
    · cases h
    · exact WriteDoCmd_sets h n
  rw [if_neg h4] at h
  by_cases h5 : m.spec.type = c!"none"
  · rw [if_pos h5] at h; exact WriteDoCmd_sets h n
  · rw [if_neg h5] at h; injection h with h; rw [← h]; exact nil_sets n

theorem aliasRules_sets {ls : List MkLine} (h : aliasRules m = some ls) (n : Str) : ¬ Sets ls n := by
  unfold aliasRules at h
  split at h
  · split at h
    · rename_i a b e1 e2
      injection h with h
      rw [← h]
      split
      · rw [Sets.append]
        rintro (hs | hs)
        · exact phonyRule_sets e1 n hs
        · exact phonyRule_sets e2 n hs
      · exact phonyRule_sets e1 n
    · cases h
  · injection h with h; rw [← h]; exact nil_sets n

theorem installRules_sets {ls : List MkLine} (h : installRules m = some ls) (n : Str) :
    ¬ Sets ls n := by
  unfold installRules at h
  split at h
  · dsimp only at h
    intro hs
    obtain ⟨g, hg, l, rfl, hl⟩ := groups_sets h hs
    have nothing : ∀ {c : Prop} [Decidable c] {f : Option (List MkLine)},
        some l = (if c then f else some []) → (∀ l', f = some l' → ¬ Sets l' n) → False := by
      intro c _ f e hf
      split at e
      · exact hf l e.symm hl
      · injection e with e; subst e; exact nil_sets n hl
    simp only [List.mem_cons, List.not_mem_nil, or_false] at hg
    rcases hg with e | e | e | e | e
    · exact phonyRule_sets e.symm n hl
    · exact nothing e fun l' h' => WriteDoCmd_sets h' n
    · refine nothing e fun l' h' hs' => ?_
      obtain ⟨g, hg, l2, rfl, hl2⟩ := groups_sets h' hs'
      simp only [List.mem_cons, List.not_mem_nil, or_false] at hg
      rcases hg with e | e
      · exact WriteDoCmd_sets e.symm n hl2
      · exact WriteDoCmd_sets e.symm n hl2
    · exact nothing e fun l' h' => phonyRule_sets h' n
    · by_cases hz : m.flavor = c!"zos" ∧ m.spec.type = c!"shared_library"
      · rw [if_pos hz] at e
        exact phonyRule_sets e.symm n hl
      · rw [if_neg hz] at e
        exact nothing e fun l' h' => phonyRule_sets h' n
  · injection h with h; rw [← h]; exact nil_sets n

theorem WriteTarget_sets {deps linkDeps extra : List Str} {ls : List MkLine}
    (h : WriteTarget m deps linkDeps extra = some ls) {n : Str} (hn : Sets ls n) :
    n = c!"LIBS" ∨ ∃ c ∈ m.spec.configs, n = c!"LDFLAGS_" ++ c.name := by
  obtain ⟨g, hg, l, rfl, hl⟩ := groups_sets h hn
  simp only [List.mem_cons, List.not_mem_nil, or_false] at hg
  rcases hg with e | e | e | e | e | e
  · injection e with e
    subst e
    obtain ⟨x, hx, he⟩ := hl
    simp only [List.mem_cons, List.not_mem_nil, or_false] at hx
    subst hx; cases he
  · split at e
    · injection e with e; subst e; exact absurd hl (nil_sets n)
    · obtain ⟨g, hg, l2, rfl, hl2⟩ := groups_sets e.symm hl
      simp only [List.mem_cons, List.not_mem_nil, or_false] at hg
      rcases hg with e | e
      · exact absurd hl2 (makeRule_sets e.symm n)
      · exact absurd hl2 (makeRule_sets e.symm n)
  · injection e with e
    subst e
    unfold targetVars at hl
    split at hl
    · exact absurd hl (nil_sets n)
    · obtain ⟨x, hx, he⟩ := hl
      rcases List.mem_append.mp hx with hx | hx
      · obtain ⟨c, hc, rfl⟩ := List.mem_map.mp hx
        simp only [setsVar, Option.some.injEq] at he
        exact Or.inr ⟨c, hc, he.symm⟩
      · simp only [List.mem_cons, List.not_mem_nil, or_false] at hx
        rcases hx with rfl | rfl | rfl <;> simp only [setsVar, Option.some.injEq, reduceCtorEq] at he
        exact Or.inl he.symm
  · exact absurd hl (finalRule_sets e.symm n)
  · exact absurd hl (aliasRules_sets e.symm n)
  · exact absurd hl (installRules_sets e.symm n)

/-- Variables of the configurations and of the libraries are not those of copies, objects, actions
and rules. -/
theorem WriteTarget_head {deps linkDeps extra : List Str} {ls : List MkLine}
    (h : WriteTarget m deps linkDeps extra = some ls) {n : Str} (hn : Sets ls n) :
    ∃ x ∈ ['L'], n.head? = some x := by
  rcases WriteTarget_sets h hn with rfl | ⟨c, -, rfl⟩
  · exact ⟨'L', by simp, rfl⟩
  · exact ⟨'L', by simp, rfl⟩

end Gyp
