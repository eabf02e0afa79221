import Verif.Proofs.MakeState
import Verif.Props.Validate
/-
The lists of outputs of actions, rules and copies, and the objects.
-/
namespace Gyp
open Spec

variable {m : MkSelf} {t : MkOutputs}

theorem varName_chars (s : Str) : ∀ c ∈ StringToMakefileVariable s, makeVarChar c = true := by
  intro c hc
  simp only [StringToMakefileVariable, List.mem_map] at hc
  obtain ⟨x, -, rfl⟩ := hc
  split
  · assumption
  · rfl

/-- A name of a variable: letters, digits and underscores. -/
def VarName (n : Str) : Prop := ∀ c ∈ n, makeVarChar c = true

theorem VarName.not_mem {n : Str} (h : VarName n) {c : Char} (hc : makeVarChar c = false) :
    c ∉ n := fun hm => by rw [h c hm] at hc; cases hc

theorem VarName.append {a b : Str} (ha : VarName a) (hb : VarName b) : VarName (a ++ b) := by
  intro c hc
  rcases List.mem_append.mp hc with h | h
  · exact ha c h
  · exact hb c h

theorem VarName.clean {n : Str} (h : VarName n) : MkClean n := by
  intro c hc hs
  have h1 := h c hc
  have h2 : ∀ c ∈ specialChars, makeVarChar c = false := by decide
  rw [h2 c hs] at h1
  cases h1

theorem commandName_var (m : MkSelf) (n : Str) : VarName (commandName m n) := varName_chars _

theorem actionOutputs_var (m : MkSelf) (a : MkAction) : VarName (actionOutputs m a) :=
  ((by unfold VarName; decide : VarName c!"action_").append (commandName_var m a.name)).append
    (by unfold VarName; decide)

theorem ruleOutputs_var (m : MkSelf) (r : MkRule) : VarName (ruleOutputsVar m r) :=
  ((by unfold VarName; decide : VarName c!"rule_").append (commandName_var m r.name)).append
    (by unfold VarName; decide)

theorem copiesVar_var (m : MkSelf) : VarName (copiesVar m) := varName_chars _

theorem words_var {v : MakeVars} {n : Str} (h : VarName n) :
    wordsOf v (c!"$(" ++ n ++ c!")") = listValue v n := by
  unfold wordsOf listValue
  have hc : ' ' ∉ c!"$(" ++ n ++ c!")" := by
    have := h.not_mem (c := ' ') (by decide)
    simp [this]
  rw [replaceChar_absent hc, expand_ref v n (h.not_mem (by decide))]

theorem ref_ruleName {n : Str} (h : VarName n) : RuleName (c!"$(" ++ n ++ c!")") := by
  refine ⟨by simp, ?_⟩
  intro c hc hm
  have hv := VarName.not_mem h (c := c)
  simp only [List.mem_cons, List.not_mem_nil, or_false] at hm
  have : makeVarChar c = false ∧ c ≠ '$' ∧ c ≠ '(' ∧ c ≠ ')' := by
    rcases hm with rfl | rfl | rfl | rfl | rfl | rfl <;> decide
  simp [this.2.1, this.2.2.1, this.2.2.2] at hc
  exact hv this.1 hc

theorem noQuote {s : Str} (h : MkClean s) : QuoteIfNecessary s = s := by
  unfold QuoteIfNecessary
  rw [if_neg]
  intro hm
  exact h _ hm (by decide)

/-- The value of a list of files. -/
theorem refValue_files {v : MakeVars} (hv : Live m.spec v) {n : Str}
    {l : List Str} {g : Str → Str}
    (h : ∀ x ∈ l, RefText localVars x ∧ MkClean x ∧ x ≠ [] ∧ expand (ownVars m.spec) x = g x)
    {v' : MakeVars} (hv' : aget v' n = some (expand v (joinWith [' '] l))) :
    refValue v' n = joinWith [' '] (l.map g) := by
  unfold refValue
  rw [hv']
  dsimp only
  rw [expand_join v (R := localVars) l fun x hx => (h x hx).1]
  have : l.map (expand v) = l.map g := List.map_congr_left fun x hx => by
    rw [hv.expand (h x hx).1, (h x hx).2.2.2]
  rw [this]

theorem names_files (ok : TargetOk m t) {l : List Str} {g : Str → Str}
    (h : ∀ x ∈ l, RefText localVars x ∧ MkClean x ∧ x ≠ [] ∧ expand (ownVars m.spec) x = g x) :
    Spec.names (joinWith [' '] (l.map g)) = l.map g := by
  refine names_cleanList ?_
  intro y hy
  obtain ⟨x, hx, rfl⟩ := List.mem_map.mp hy
  have := expand_own ok.toolset ok.name (h x hx).1 (h x hx).2.1
  rw [(h x hx).2.2.2] at this
  exact ⟨this.1, this.2 (h x hx).2.2.1⟩

theorem listValue_files (ok : TargetOk m t) {v : MakeVars} (hv : Live m.spec v) {n : Str}
    {l : List Str} {g : Str → Str}
    (h : ∀ x ∈ l, RefText localVars x ∧ MkClean x ∧ x ≠ [] ∧ expand (ownVars m.spec) x = g x)
    {v' : MakeVars} (hv' : aget v' n = some (expand v (joinWith [' '] l))) :
    listValue v' n = l.map g := by
  unfold listValue
  rw [refValue_files hv h hv', names_files ok h]

/-- A variable set last in a part. -/
theorem aget_set {v0 : MakeVars} {pre post : List MkLine} {l : MkLine} {n x : Str}
    (hl : addVar (varsAfter v0 pre) l = (n, x) :: varsAfter v0 pre) (hpost : ¬ Sets post n) :
    aget (varsAfter v0 (pre ++ l :: post)) n = some x := by
  rw [varsAfter_append]
  show aget (varsAfter (addVar (varsAfter v0 pre) l) post) n = _
  rw [not_sets_aget hpost, hl]
  simp [aget]

/-! ### Actions -/

theorem actions_local {as : List MkAction} {ls : List MkLine} (h : WriteActions m as = some ls) :
    ∀ n ∈ localVars, ¬ Sets ls n := fun _ hn hs =>
  head_in (local_head hn) (WriteActions_head h hs) (by decide)

theorem writeAction_local {a : MkAction} {ls : List MkLine} (h : writeAction m a = some ls) :
    ∀ n ∈ localVars, ¬ Sets ls n := by
  intro n hn hs
  refine head_in (local_head hn) (l' := ['q', 'c', 'a']) ?_ (by decide)
  rcases writeAction_sets h hs with rfl | rfl | rfl
  · exact ⟨'q', by simp, rfl⟩
  · exact ⟨'c', by simp, rfl⟩
  · exact ⟨'a', by simp, rfl⟩

theorem list_append_cancel {a b c d : Str} (h : a ++ b ++ c = a ++ d ++ c) : b = d :=
  List.append_cancel_left (List.append_cancel_right h)

theorem writeAction_value (ok : TargetOk m t) {v : MakeVars} (hv : Live m.spec v) {a : MkAction}
    (ha : a ∈ m.spec.actions) {ls : List MkLine} (h : writeAction m a = some ls) :
    listValue (varsAfter v ls) (actionOutputs m a) = a.outputs.map (fileName m) := by
  have hloc := writeAction_local h
  obtain ⟨first, -, hls⟩ := writeAction_some h
  have hfile : ∀ x ∈ a.outputs, FileText x := fun x hx => ok.actions a ha x (by simp [hx])
  have key : listValue (varsAfter v ls) (actionOutputs m a) =
      (a.outputs.map (Absolutify m)).map (expand (ownVars m.spec)) := by
    generalize hpre : ls.take 8 = pre
    have hsplit : ls = pre ++ MkLine.set (actionOutputs m a)
        (joinWith [' '] (a.outputs.map (Absolutify m))) :: [.text []] := by
      rw [← hpre, hls]; rfl
    have hlive : Live m.spec (varsAfter v pre) :=
      hv.sets fun n hn hs => hloc n hn (by rw [hsplit]; exact Sets.append.mpr (Or.inl hs))
    refine listValue_files ok (v := varsAfter v pre) hlive (g := expand (ownVars m.spec)) ?_ ?_
    · intro x hx
      obtain ⟨y, hy, rfl⟩ := List.mem_map.mp hx
      obtain ⟨h1, h2, h3, -⟩ := absolutify_file ok (hfile y hy)
      exact ⟨h1, h2, h3, rfl⟩
    · rw [hsplit]
      refine aget_set rfl ?_
      rintro ⟨l, hl, he⟩
      simp only [List.mem_cons, List.not_mem_nil, or_false] at hl
      subst hl; cases he
  rw [key, List.map_map]
  exact List.map_congr_left fun x hx => (absolutify_file ok (hfile x hx)).2.2.2

theorem actions_values (ok : TargetOk m t) (as : List MkAction) (hsub : ∀ a ∈ as, a ∈ m.spec.actions)
    (hnd : (as.map fun a => commandName m a.name).Nodup) (parts : List (List MkLine))
    (hp : as.map (writeAction m) = parts.map some) (v : MakeVars) (hv : Live m.spec v) :
    Live m.spec (varsAfter v parts.flatten) ∧
    ∀ a ∈ as, listValue (varsAfter v parts.flatten) (actionOutputs m a) =
      a.outputs.map (fileName m) := by
  induction as generalizing parts v with
  | nil =>
    cases parts with
    | nil => exact ⟨hv, by simp⟩
    | cons _ _ => simp at hp
  | cons a as ih =>
    cases parts with
    | nil => simp at hp
    | cons p parts =>
      simp only [List.map_cons, List.cons.injEq] at hp
      simp only [List.map_cons, List.nodup_cons] at hnd
      have hv' : Live m.spec (varsAfter v p) := hv.sets (writeAction_local hp.1)
      obtain ⟨i1, i2⟩ := ih (fun x hx => hsub x (by simp [hx])) hnd.2 parts hp.2 _ hv'
      rw [List.flatten_cons, varsAfter_append]
      refine ⟨i1, ?_⟩
      intro b hb
      rcases List.mem_cons.mp hb with rfl | hb
      · rw [← writeAction_value ok hv (hsub b (by simp)) hp.1]
        unfold listValue refValue
        rw [not_sets_aget]
        rintro ⟨l, hl, he⟩
        obtain ⟨q, hq, hl⟩ := List.mem_flatten.mp hl
        have : some q ∈ as.map (writeAction m) := by rw [hp.2]; exact List.mem_map_of_mem hq
        obtain ⟨c, hc, hw⟩ := List.mem_map.mp this
        rcases writeAction_sets hw ⟨l, hl, he⟩ with e | e | e
        · exact absurd (congrArg List.head? e) (by simp [actionOutputs])
        · exact absurd (congrArg List.head? e) (by simp [actionOutputs])
        · have := list_append_cancel e
          exact hnd.1 (by rw [this]; exact List.mem_map_of_mem hc)
      · exact i2 b hb

/-! ### Rules -/

theorem writeRuleSources_outs {r : MkRule} {count : Nat} {ss : List Str} {ls : List MkLine}
    {o : List Str} (h : writeRuleSources m r count ss = some (ls, o)) :
    o = (ss.flatMap fun s => (ruleOutputs r s).getD []).map (Absolutify m) := by
  induction ss generalizing count ls o with
  | nil => injection h with h; injection h with h1 h2; rw [← h2]; rfl
  | cons s ss ih =>
    unfold writeRuleSources at h
    split at h
    · rename_i a o1 b p e1 e2
      injection h with h
      injection h with h1 h2
      obtain ⟨outs, action, first, f1, -, f2, -, -⟩ := writeRuleSource_some e1
      rw [← h2, ih e2, f2, List.flatMap_cons, f1]
      simp
    · cases h

theorem writeRule_local {r : MkRule} {ls : List MkLine} (h : writeRule m r = some ls) :
    ∀ n ∈ localVars, ¬ Sets ls n := by
  intro n hn hs
  refine head_in (local_head hn) (l' := ['q', 'c', 'r']) ?_ (by decide)
  rcases writeRule_sets h hs with ⟨x, rfl | rfl⟩ | rfl
  · exact ⟨'c', by simp, rfl⟩
  · exact ⟨'q', by simp, rfl⟩
  · exact ⟨'r', by simp, rfl⟩

/-- The files that a rule makes. -/
theorem ruleFiles (ok : TargetOk m t) {r : MkRule} (hr : r ∈ m.spec.rules) :
    ∀ x ∈ r.sources.flatMap fun s => (ruleOutputs r s).getD [], FileText x := by
  intro x hx
  obtain ⟨s, hs, hx⟩ := List.mem_flatMap.mp hx
  cases e : ruleOutputs r s with
  | none => rw [e] at hx; cases hx
  | some outs => rw [e] at hx; exact (ok.rules r hr).2 s hs outs e x hx

theorem writeRule_value (ok : TargetOk m t) {v : MakeVars} (hv : Live m.spec v) {r : MkRule}
    (hr : r ∈ m.spec.rules) {ls : List MkLine} (h : writeRule m r = some ls) :
    listValue (varsAfter v ls) (ruleOutputsVar m r) =
      (r.sources.flatMap fun s => (ruleOutputs r s).getD []).map (fileName m) := by
  have hloc := writeRule_local h
  obtain ⟨l, outputs, e, hls⟩ := writeRule_some h
  have ho := writeRuleSources_outs e
  have hfile := ruleFiles ok hr
  have hq : outputs.map QuoteIfNecessary = outputs := by
    rw [List.map_congr_left (g := id), List.map_id]
    intro x hx
    rw [ho] at hx
    obtain ⟨y, hy, rfl⟩ := List.mem_map.mp hx
    exact noQuote (absolutify_file ok (hfile y hy)).2.1
  rw [hq] at hls
  have key : listValue (varsAfter v ls) (ruleOutputsVar m r) =
      outputs.map (expand (ownVars m.spec)) := by
    generalize hpre : [MkLine.text (c!"### Generated for rule " ++ commandName m r.name ++ c!":")] ++ l
      = pre at hls
    have hlive : Live m.spec (varsAfter v pre) :=
      hv.sets fun n hn hs => hloc n hn (by rw [hls]; exact Sets.append.mpr (Or.inl hs))
    refine listValue_files ok (v := varsAfter v pre) hlive (g := expand (ownVars m.spec)) ?_ ?_
    · intro x hx
      rw [ho] at hx
      obtain ⟨y, hy, rfl⟩ := List.mem_map.mp hx
      obtain ⟨h1, h2, h3, -⟩ := absolutify_file ok (hfile y hy)
      exact ⟨h1, h2, h3, rfl⟩
    · rw [hls]
      refine aget_set rfl ?_
      rintro ⟨l, hl, he⟩
      simp only [List.mem_cons, List.not_mem_nil, or_false] at hl
      rcases hl with rfl | rfl <;> cases he
  rw [key, ho, List.map_map]
  exact List.map_congr_left fun x hx => (absolutify_file ok (hfile x hx)).2.2.2

theorem rules_values (ok : TargetOk m t) (rs : List MkRule) (hsub : ∀ r ∈ rs, r ∈ m.spec.rules)
    (hnd : (rs.map fun r => commandName m r.name).Nodup) (parts : List (List MkLine))
    (hp : rs.map (writeRule m) = parts.map some) (v : MakeVars) (hv : Live m.spec v) :
    Live m.spec (varsAfter v parts.flatten) ∧
    ∀ r ∈ rs, listValue (varsAfter v parts.flatten) (ruleOutputsVar m r) =
      (r.sources.flatMap fun s => (ruleOutputs r s).getD []).map (fileName m) := by
  induction rs generalizing parts v with
  | nil =>
    cases parts with
    | nil => exact ⟨hv, by simp⟩
    | cons _ _ => simp at hp
  | cons a as ih =>
    cases parts with
    | nil => simp at hp
    | cons p parts =>
      simp only [List.map_cons, List.cons.injEq] at hp
      simp only [List.map_cons, List.nodup_cons] at hnd
      have hv' : Live m.spec (varsAfter v p) := hv.sets (writeRule_local hp.1)
      obtain ⟨i1, i2⟩ := ih (fun x hx => hsub x (by simp [hx])) hnd.2 parts hp.2 _ hv'
      rw [List.flatten_cons, varsAfter_append]
      refine ⟨i1, ?_⟩
      intro b hb
      rcases List.mem_cons.mp hb with rfl | hb
      · rw [← writeRule_value ok hv (hsub b (by simp)) hp.1]
        unfold listValue refValue
        rw [not_sets_aget]
        rintro ⟨l, hl, he⟩
        obtain ⟨q, hq, hl⟩ := List.mem_flatten.mp hl
        have : some q ∈ as.map (writeRule m) := by rw [hp.2]; exact List.mem_map_of_mem hq
        obtain ⟨c, hc, hw⟩ := List.mem_map.mp this
        rcases writeRule_sets hw ⟨l, hl, he⟩ with ⟨x, e | e⟩ | e
        · exact absurd (congrArg List.head? e) (by simp [ruleOutputsVar])
        · exact absurd (congrArg List.head? e) (by simp [ruleOutputsVar])
        · have := list_append_cancel e
          exact hnd.1 (by rw [this]; exact List.mem_map_of_mem hc)
      · exact i2 b hb

/-! ### Copies -/

theorem basename_ref {R : List Str} (hR : ∀ n ∈ R, '/' ∉ n) {x : Str} (h : RefText R x) :
    RefText R (basename x) := by
  unfold basename
  cases e : rsplit1 '/' x with
  | none => exact h
  | some p =>
    obtain ⟨h1, -⟩ := rsplit1_some e
    exact (h.cut (x := '/') (by decide) hR _ _ h1).2

theorem mem_basename {x : Str} {c : Char} (h : c ∈ basename x) : c ∈ x := by
  obtain ⟨d, hd, -, -⟩ := basename_split x
  rw [hd]
  exact List.mem_append_right _ h

theorem local_noSlash : ∀ n ∈ localVars, '/' ∉ n := by decide

theorem basename_sourceify (ok : TargetOk m t) (x : Str) :
    basename (Sourceify m x) = basename x := by
  unfold Sourceify
  split
  · rfl
  · split
    · rfl
    · rcases ok.srcdir with h | h <;> rw [h]
      · rfl
      · obtain ⟨d, hd, hd', hn⟩ := basename_split x
        have h2 : c!"$(srcdir)/" ++ x = (c!"$(srcdir)/" ++ d) ++ basename x := by
          rw [List.append_assoc, ← hd]
        rw [h2]
        refine basename_after ?_ hn
        rcases hd' with rfl | ⟨e, rfl⟩
        · exact Or.inr ⟨c!"$(srcdir)", rfl⟩
        · exact Or.inr ⟨c!"$(srcdir)/" ++ e, by simp⟩

/-- The two ends of a copy. -/
theorem copy_file (ok : TargetOk m t) {c : MkCopy} (hc : c ∈ m.spec.copies) {f : Str}
    (hf : f ∈ c.files) :
    (∃ d, FileText d ∧ (copyPaths m c.destination f).2 = Sourceify m (Absolutify m d) ∧
      inputName m d = copiedName m c f) ∧
    (copyPaths m c.destination f).1 = Sourceify m (Absolutify m f) := by
  have hd := ok.copies c hc c.destination (by simp)
  have hff := ok.copies c hc f (by simp [hf])
  obtain ⟨h1, h2, h3, h4⟩ := absolutify_file ok hff
  refine ⟨⟨pathJoin c.destination (basename (Absolutify m f)), ⟨?_, ?_, ?_⟩, ?_, ?_⟩, rfl⟩
  · intro e
    have hb : isAbs (basename (Absolutify m f)) = false := by
      rw [isAbs_false_iff]
      obtain ⟨-, -, -, hn⟩ := basename_split (Absolutify m f)
      intro e
      exact hn (List.mem_of_mem_head? (by rw [e]; rfl))
    unfold pathJoin at e
    rw [hb] at e
    simp only [Bool.false_eq_true, if_false] at e
    split at e
    · rw [List.append_eq_nil_iff] at e
      exact hd.1 e.1
    · simp at e
  · exact hd.2.1.pathJoin fun c hc => h2 c (mem_basename hc)
  · exact hd.2.2.pathJoin (basename_ref local_noSlash h1)
  · unfold copyPaths
    dsimp only
    rw [basename_sourceify ok]
  · unfold copiedName
    congr 3
    unfold Absolutify
    by_cases h : '$' ∈ f
    · rw [if_pos (hff.2.2.dollar.mpr h), if_pos h]
    · rw [if_neg (by rw [hff.2.2.dollar]; exact h), if_neg h]

end Gyp
