import Verif.Model.MakeRule
import Verif.Spec.MakeRules
/-
C63: rules of a makefile.
-/
namespace Gyp
open Spec

/-- File names that a makefile can hold: any character but those with a meaning in rules.
Blanks are allowed anywhere. -/
def RuleName (s : Str) : Prop :=
  s ≠ [] ∧ ∀ c ∈ s, c ∉ [':', '|', '#', '\\', '\t', '\n']

theorem namesFrom_name {s : Str} (h : ∀ c ∈ s, c ≠ '\\') (cur : Option Str) (t : Str)
    (hs : s ≠ [] ∨ cur ≠ none) :
    namesFrom cur (QuoteSpaces s ++ t) = namesFrom (some (cur.getD [] ++ s)) t := by
  induction s generalizing cur with
  | nil =>
    cases cur with
    | none => simp at hs
    | some w => simp [QuoteSpaces, replaceChar]
  | cons c s ih =>
    have hq : QuoteSpaces (c :: s) = (if c = ' ' then c!"\\ " else [c]) ++ QuoteSpaces s := rfl
    rw [hq]
    have hc : c ≠ '\\' := h c (by simp)
    have ih' := ih (fun x hx => h x (by simp [hx])) (some (cur.getD [] ++ [c])) (Or.inr (by simp))
    by_cases hb : c = ' '
    · subst hb
      rw [if_pos rfl]
      show namesFrom cur ('\\' :: ' ' :: (QuoteSpaces s ++ t)) = _
      rw [namesFrom, ih']
      simp
    · rw [if_neg hb]
      show namesFrom cur (c :: (QuoteSpaces s ++ t)) = _
      rw [namesFrom, if_neg hb, ih']
      · simp
      · intro t' h1 _; exact hc h1

theorem namesFrom_blank (cur : Option Str) (t : Str) :
    namesFrom cur (' ' :: t) = cur.toList ++ namesFrom none t := by
  rw [namesFrom]
  · simp
  · simp

theorem RuleName.noBackslash {s : Str} (h : RuleName s) : ∀ c ∈ s, c ≠ '\\' := by
  intro c hc e
  have := h.2 c hc
  simp [e] at this

/-- What may follow a name. -/
def AfterName (t : Str) : Prop := t = [] ∨ ∃ t', t = ' ' :: t'

theorem namesFrom_after (s t : Str) (h : AfterName t) :
    namesFrom (some s) t = s :: namesFrom none t := by
  rcases h with rfl | ⟨t', rfl⟩
  · simp [namesFrom]
  · rw [namesFrom_blank, namesFrom_blank]; simp

/-- A list of names. -/
theorem names_join (l : List Str) (h : ∀ s ∈ l, RuleName s) (t : Str) (ht : AfterName t) :
    namesFrom none (joinWith [' '] (l.map fun s => QuoteSpaces s) ++ t) =
      l ++ namesFrom none t := by
  induction l with
  | nil => simp [joinWith]
  | cons s l ih =>
    have hs := h s (by simp)
    cases l with
    | nil =>
      show namesFrom none (QuoteSpaces s ++ _) = _
      rw [namesFrom_name hs.noBackslash none _ (Or.inl hs.1), namesFrom_after _ _ ht]
      simp
    | cons s' l =>
      show namesFrom none (QuoteSpaces s ++ [' '] ++ joinWith [' '] _ ++ _) = _
      rw [List.append_assoc, List.append_assoc,
        namesFrom_name hs.noBackslash none _ (Or.inl hs.1), List.singleton_append, namesFrom_blank,
        ih (fun x hx => h x (by simp [hx]))]
      simp

theorem split1_none {c : Char} {s : Str} (h : c ∉ s) : split1 c s = none := by
  induction s with
  | nil => rfl
  | cons x s ih =>
    simp only [List.mem_cons, not_or] at h
    simp [split1, Ne.symm h.1, ih h.2]

/-- No character with a meaning gets into the written names. -/
theorem join_plain (l : List Str) (h : ∀ s ∈ l, RuleName s) (c : Char)
    (hc : c ∈ [':', '|', '#', '\t', '\n']) :
    c ∉ joinWith [' '] (l.map fun s => QuoteSpaces s) := by
  have hq : ∀ s ∈ l, c ∉ QuoteSpaces s := by
    intro s hs hm
    unfold QuoteSpaces replaceChar at hm
    obtain ⟨x, hx, hm⟩ := List.mem_flatMap.mp hm
    by_cases hb : x = ' '
    · rw [if_pos hb] at hm
      simp at hm hc
      rcases hm with rfl | rfl <;> revert hc <;> decide
    · rw [if_neg hb] at hm
      simp at hm
      subst hm
      have := (h s hs).2 c hx
      simp at this hc
      tauto
  have hsp : c ≠ ' ' := by rintro rfl; revert hc; decide
  clear h
  induction l with
  | nil => simp [joinWith]
  | cons s l ih =>
    cases l with
    | nil => simpa [joinWith] using hq s (by simp)
    | cons s' l =>
      show c ∉ QuoteSpaces s ++ [' '] ++ joinWith [' '] _
      simp only [List.mem_append, not_or]
      exact ⟨⟨hq s (by simp), by simpa using hsp⟩, ih fun x hx => hq x (by simp [hx])⟩

/-- The word added for rules that are always run. -/
def forceNames (force : Bool) : List Str := if force then [c!"FORCE_DO_CMD"] else []

theorem force_after (force : Bool) : AfterName (if force then c!" FORCE_DO_CMD" else []) := by
  cases force
  · exact Or.inl rfl
  · exact Or.inr ⟨_, rfl⟩

theorem force_names (force : Bool) :
    namesFrom none (if force then c!" FORCE_DO_CMD" else []) = forceNames force := by
  cases force <;> decide

theorem force_plain (force : Bool) (c : Char) (hc : c ∈ [':', '|', '#', '\t', '\n']) :
    c ∉ (if force then c!" FORCE_DO_CMD" else []) := by
  cases force
  · simp
  · simp only [if_pos]
    simp at hc
    rcases hc with rfl | rfl | rfl | rfl | rfl <;> decide

/-- A line of a rule is read as written. -/
theorem ruleLine_normal (outs ins : List Str) (ho : ∀ s ∈ outs, RuleName s)
    (hi : ∀ s ∈ ins, RuleName s) (force : Bool) (recipe : List Str) :
    ruleLine (joinWith [' '] (outs.map fun s => QuoteSpaces s) ++ c!": " ++
      joinWith [' '] (ins.map fun s => QuoteSpaces s) ++
      (if force then c!" FORCE_DO_CMD" else [])) recipe =
    some (.rule outs (ins ++ forceNames force) [] recipe) := by
  unfold ruleLine
  have h1 := join_plain outs ho ':' (by simp)
  rw [List.append_assoc, List.append_assoc]
  have : ∀ t : Str, c!": " ++ t = ':' :: (' ' :: t) := fun t => rfl
  rw [this, split1_append h1]
  simp only
  have h2 : ∀ c ∈ [':', '|'], c ∉ ' ' :: (joinWith [' '] (ins.map fun s => QuoteSpaces s) ++
      (if force then c!" FORCE_DO_CMD" else [])) := by
    intro c hc
    have hc' : c ∈ [':', '|', '#', '\t', '\n'] := by simp at hc ⊢; tauto
    simp only [List.mem_cons, List.mem_append, not_or]
    refine ⟨?_, join_plain ins hi c hc', force_plain force c hc'⟩
    rintro rfl
    revert hc; decide
  rw [if_neg (h2 ':' (by simp)), split1_none (h2 '|' (by simp))]
  simp only
  unfold names
  have h3 := names_join outs ho [] (Or.inl rfl)
  rw [List.append_nil] at h3
  rw [h3, namesFrom_blank, names_join ins hi _ (force_after force), force_names]
  simp [namesFrom]

theorem ruleLine_order (outs ins : List Str) (ho : ∀ s ∈ outs, RuleName s)
    (hi : ∀ s ∈ ins, RuleName s) (force : Bool) (recipe : List Str) :
    ruleLine (joinWith [' '] (outs.map fun s => QuoteSpaces s) ++ c!": | " ++
      joinWith [' '] (ins.map fun s => QuoteSpaces s) ++
      (if force then c!" FORCE_DO_CMD" else [])) recipe =
    some (.rule outs [] (ins ++ forceNames force) recipe) := by
  unfold ruleLine
  have h1 := join_plain outs ho ':' (by simp)
  rw [List.append_assoc, List.append_assoc]
  have : ∀ t : Str, c!": | " ++ t = ':' :: ([' '] ++ '|' :: (' ' :: t)) := fun t => rfl
  rw [this, split1_append h1]
  simp only
  have h2 : ':' ∉ [' '] ++ '|' :: ' ' :: (joinWith [' '] (ins.map fun s => QuoteSpaces s) ++
      (if force then c!" FORCE_DO_CMD" else [])) := by
    simp only [List.mem_cons, List.mem_append, not_or]
    exact ⟨by decide, by decide, by decide, join_plain ins hi ':' (by simp),
      force_plain force ':' (by simp)⟩
  rw [if_neg h2, split1_append (by decide)]
  simp only
  unfold names
  have h3 := names_join outs ho [] (Or.inl rfl)
  rw [List.append_nil] at h3
  rw [h3, namesFrom_blank none, namesFrom_blank none, names_join ins hi _ (force_after force),
    force_names]
  simp [namesFrom]

/-! ### Lines -/

theorem splitOn_lines (lines : List Str) (h : ∀ l ∈ lines, '\n' ∉ l) :
    splitOn '\n' (writeLines lines) = lines ++ [[]] := by
  have hj : writeLines lines = joinWith ['\n'] (lines ++ [[]]) := by
    clear h
    induction lines with
    | nil => rfl
    | cons l ls ih =>
      have : writeLines (l :: ls) = l ++ ['\n'] ++ writeLines ls := rfl
      rw [this, ih]
      cases ls <;> rfl
  rw [hj, splitOn_joinWith (by simp)]
  intro w hw
  rcases List.mem_append.mp hw with hw | hw
  · exact h w hw
  · simp at hw; simp [hw]

/-- A line that make reads by itself: no newline in it, no backslash at its end. -/
def OneLine (l : Str) : Prop := '\n' ∉ l ∧ l.getLast? ≠ some '\\'

theorem readMakefile_lines (lines : List Str) (h : ∀ l ∈ lines, OneLine l) (items : List MakeItem)
    (hr : readRules (lines ++ [[]]) = some ([], items)) :
    readMakefile (writeLines lines) = some items := by
  unfold readMakefile
  rw [splitOn_lines lines fun l hl => (h l hl).1, if_neg, hr]
  rintro ⟨l, hl, he⟩
  rcases List.mem_append.mp hl with hl | hl
  · apply (h l hl).2
    unfold endsWith at he
    obtain ⟨t, rfl⟩ := List.isSuffixOf_iff_suffix.mp he
    simp
  · simp at hl
    subst hl
    revert he
    decide

theorem readRules_recipe (acts rest : List Str) (r : List Str) (items : List MakeItem)
    (h : readRules rest = some (r, items)) :
    readRules (acts.map (['\t'] ++ ·) ++ rest) = some (acts ++ r, items) := by
  induction acts with
  | nil => simpa using h
  | cons a acts ih =>
    rw [List.map_cons, List.cons_append, readRules, ih]
    rfl

theorem readRules_line (line : Str) (rest r : List Str) (items : List MakeItem) (item : MakeItem)
    (hne : line ≠ []) (ht : line.head? ≠ some '\t') (hc : line.head? ≠ some '#')
    (h : readRules rest = some (r, items)) (hi : ruleLine line r = some item) :
    readRules (line :: rest) = some ([], item :: items) := by
  cases line with
  | nil => exact absurd rfl hne
  | cons c cs =>
    simp at ht hc
    rw [readRules, h]
    simp only
    rw [if_neg ht, if_neg hc, hi]

theorem quote_ne_nil {s : Str} (h : RuleName s) : QuoteSpaces s ≠ [] := by
  obtain ⟨h, -⟩ := h
  cases s with
  | nil => exact absurd rfl h
  | cons c s =>
    show (if c = ' ' then c!"\\ " else [c]) ++ QuoteSpaces s ≠ []
    split <;> simp

theorem join_ne_nil {l : List Str} (hl : l ≠ []) (h : ∀ s ∈ l, RuleName s) :
    joinWith [' '] (l.map fun s => QuoteSpaces s) ≠ [] := by
  cases l with
  | nil => exact absurd rfl hl
  | cons s l =>
    have := quote_ne_nil (h s (by simp))
    cases l with
    | nil => simpa [joinWith] using this
    | cons s' l => simp [joinWith]

theorem quote_last {s : Str} (h : RuleName s) : (QuoteSpaces s).getLast? ≠ some '\\' := by
  have h' := h.noBackslash
  clear h
  induction s with
  | nil => simp [QuoteSpaces, replaceChar]
  | cons c s ih =>
    show ((if c = ' ' then c!"\\ " else [c]) ++ QuoteSpaces s).getLast? ≠ _
    have ih := ih fun x hx => h' x (by simp [hx])
    rw [List.getLast?_append]
    cases hq : (QuoteSpaces s).getLast? with
    | none =>
      have := h' c (by simp)
      split <;> simp_all
    | some x => rw [hq] at ih; simpa using ih

theorem join_last {l : List Str} (h : ∀ s ∈ l, RuleName s) :
    (joinWith [' '] (l.map fun s => QuoteSpaces s)).getLast? ≠ some '\\' := by
  induction l with
  | nil => simp [joinWith]
  | cons s l ih =>
    cases l with
    | nil => simpa [joinWith] using quote_last (h s (by simp))
    | cons s' l =>
      show (QuoteSpaces s ++ [' '] ++ joinWith [' '] _).getLast? ≠ _
      have ih := ih fun x hx => h x (by simp [hx])
      rw [List.getLast?_append]
      cases hq : (joinWith [' '] ((s' :: l).map fun s => QuoteSpaces s)).getLast? with
      | none => simp
      | some x => rw [hq] at ih; simpa using ih

/-- A rule line is a line of its own. -/
theorem oneLine_rule (outs ins : List Str) (ho : ∀ s ∈ outs, RuleName s)
    (hi : ∀ s ∈ ins, RuleName s) (force : Bool) (sep : Str)
    (hs : sep = c!": " ∨ sep = c!": | ") :
    OneLine (joinWith [' '] (outs.map fun s => QuoteSpaces s) ++ sep ++
      joinWith [' '] (ins.map fun s => QuoteSpaces s) ++
      (if force then c!" FORCE_DO_CMD" else [])) := by
  constructor
  · simp only [List.mem_append, not_or]
    refine ⟨⟨⟨join_plain outs ho _ (by simp), ?_⟩, join_plain ins hi _ (by simp)⟩,
      force_plain force _ (by simp)⟩
    rcases hs with rfl | rfl <;> decide
  · rw [List.getLast?_append, List.getLast?_append, List.getLast?_append]
    have := join_last hi
    cases force
    · cases hq : (joinWith [' '] (ins.map fun s => QuoteSpaces s)).getLast? with
      | none => rcases hs with rfl | rfl <;> simp
      | some x => rw [hq] at this; simpa using this
    · simp

theorem head_rule (outs : List Str) (hne : outs ≠ []) (ho : ∀ s ∈ outs, RuleName s) (t : Str)
    (c : Char) (hc : c ∈ ['#', '\t']) :
    (joinWith [' '] (outs.map fun s => QuoteSpaces s) ++ t).head? ≠ some c := by
  have h1 := join_ne_nil hne ho
  have h2 := join_plain outs ho c (by simp at hc ⊢; tauto)
  cases hj : joinWith [' '] (outs.map fun s => QuoteSpaces s) with
  | nil => exact absurd hj h1
  | cons x xs =>
    rw [hj] at h2
    simp at h2 ⊢
    exact fun e => h2.1 e.symm

theorem readRules_normal (line : Str) (outs ins : List Str) (ho : ∀ s ∈ outs, RuleName s)
    (hne : outs ≠ []) (hi : ∀ s ∈ ins, RuleName s) (force : Bool) (rest r : List Str)
    (items : List MakeItem)
    (he : line = joinWith [' '] (outs.map fun s => QuoteSpaces s) ++ c!": " ++
      joinWith [' '] (ins.map fun s => QuoteSpaces s) ++
      (if force then c!" FORCE_DO_CMD" else []))
    (h : readRules rest = some (r, items)) :
    readRules (line :: rest) = some ([], .rule outs (ins ++ forceNames force) [] r :: items) := by
  subst he
  refine readRules_line _ _ _ _ _ (by simp) ?_ ?_ h (ruleLine_normal outs ins ho hi force _)
  · rw [List.append_assoc, List.append_assoc]
    exact head_rule outs hne ho _ _ (by simp)
  · rw [List.append_assoc, List.append_assoc]
    exact head_rule outs hne ho _ _ (by simp)

/-- What comes before the rule proper. -/
def before (a : RuleArgs) : List MakeItem :=
  (if a.phony then [.rule [c!".PHONY"] a.outputs [] []] else []) ++
  (if hasActions a.actions then
    [.setVar (a.outputs.take 1) c!" TOOLSET := $(TOOLSET)"] else [])

/-- The requirements on the arguments: names without special characters, actions and
comment on one line. -/
structure RuleArgs.Ok (a : RuleArgs) : Prop where
  outputs : ∀ s ∈ a.outputs, RuleName s
  inputs : ∀ s ∈ a.inputs, RuleName s
  some_output : a.outputs ≠ []
  actions : ∀ x ∈ a.actions.getD [], OneLine x
  comment : ∀ x, a.comment = some x → OneLine x

theorem readRules_comment (c : Option Str) (rest r : List Str) (items : List MakeItem)
    (h : readRules rest = some (r, items)) :
    readRules (commentLines c ++ rest) = some (r, items) := by
  unfold commentLines
  split
  · simp [readRules, h]
  · simpa using h

theorem joinWith_one (x : Str) : joinWith [' '] [x] = x := rfl

theorem oneLine_comment (c : Option Str) (h : ∀ x, c = some x → OneLine x) :
    ∀ l ∈ commentLines c, OneLine l := by
  unfold commentLines
  split
  · rename_i c cs
    have := h _ rfl
    intro l hl
    simp at hl
    subst hl
    refine ⟨?_, ?_⟩
    · have := this.1; simpa using this
    · have := this.2
      rw [List.getLast?_cons_cons, List.getLast?_cons_cons]
      exact this
  · simp

theorem oneLine_tab {x : Str} (h : OneLine x) : OneLine (['\t'] ++ x) := by
  refine ⟨by simpa using h.1, ?_⟩
  cases x with
  | nil => simp
  | cons c cs => rw [List.singleton_append, List.getLast?_cons_cons]; exact h.2

theorem toolset_oneLine (outs : List Str) (ho : ∀ s ∈ outs, RuleName s) (o : Str)
    (hm : o ∈ outs) : OneLine (QuoteSpaces o ++ c!": TOOLSET := $(TOOLSET)") := by
  refine ⟨?_, by rw [List.getLast?_append]; simp⟩
  have := join_plain [o] (by simpa using ho o hm) '\n' (by simp)
  simp only [List.map_cons, List.map_nil, joinWith_one] at this
  simp only [List.mem_append, not_or]
  exact ⟨this, by decide⟩

theorem ruleLine_toolset (o : Str) (h : RuleName o) (r : List Str) :
    ruleLine (QuoteSpaces o ++ c!": TOOLSET := $(TOOLSET)") r =
      some (.setVar [o] c!" TOOLSET := $(TOOLSET)") := by
  have h1 := join_plain [o] (by simpa using h) ':' (by simp)
  have h3 := names_join [o] (by simpa using h) [] (Or.inl rfl)
  simp only [List.map_cons, List.map_nil, joinWith_one, List.append_nil] at h1 h3
  unfold ruleLine
  have : c!": TOOLSET := $(TOOLSET)" = ':' :: c!" TOOLSET := $(TOOLSET)" := rfl
  rw [this, split1_append h1]
  simp only
  rw [if_pos (by decide)]
  unfold names
  rw [h3]
  rfl

theorem phony_name : RuleName c!".PHONY" := ⟨by simp, by decide⟩

theorem wrapped (a : RuleArgs) (ok : a.Ok) (rule recipe : List Str) (items : List MakeItem)
    (hcore : ruleCore a (a.outputs.map fun o => QuoteSpaces o)
      (a.inputs.map fun i => QuoteSpaces i) = some (rule, recipe))
    (hlines : ∀ l ∈ rule, OneLine l) (hrec : ∀ l ∈ recipe, OneLine l)
    (hr : readRules (rule ++ (recipe.map (['\t'] ++ ·) ++ [[], []])) = some ([], items)) :
    ∃ lines, WriteMakeRule a = some lines ∧
      readMakefile (writeLines lines) = some (before a ++ items) := by
  unfold WriteMakeRule
  have hne : (a.outputs.map fun o => QuoteSpaces o).isEmpty = false := by
    cases h : a.outputs with
    | nil => exact absurd h ok.some_output
    | cons _ _ => rfl
  simp only
  rw [if_neg (by simp [hne]), hcore]
  refine ⟨_, rfl, readMakefile_lines _ ?_ _ ?_⟩
  · intro l hl
    simp only [List.mem_append, List.mem_map, List.mem_singleton] at hl
    rcases hl with hl | hl | hl | hl | ⟨x, hx, rfl⟩ | rfl
    · exact oneLine_comment _ ok.comment l hl
    · unfold phonyLines at hl
      split at hl
      · simp only [List.mem_singleton] at hl
        subst hl
        have := oneLine_rule [c!".PHONY"] a.outputs (by simpa using phony_name) ok.outputs false
          c!": " (Or.inl rfl)
        simpa [joinWith, QuoteSpaces, replaceChar] using this
      · simp at hl
    · unfold toolsetLines at hl
      split at hl
      · simp only [List.mem_singleton] at hl
        subst hl
        cases h : a.outputs with
        | nil => exact absurd h ok.some_output
        | cons o os =>
          exact toolset_oneLine a.outputs ok.outputs o (by simp [h])
      · simp at hl
    · exact hlines l hl
    · exact oneLine_tab (hrec x hx)
    · exact ⟨by simp, by simp⟩
  · have e : ∀ (A B C D E : List Str), A ++ (B ++ (C ++ (D ++ (E ++ [[]])))) ++ [[]] =
        A ++ (B ++ (C ++ (D ++ (E ++ [[], []])))) := by intros; simp
    rw [e]
    apply readRules_comment
    have ht : readRules (toolsetLines a.actions (a.outputs.map fun o => QuoteSpaces o) ++
        (rule ++ (recipe.map (['\t'] ++ ·) ++ [[], []]))) =
        some ([], (if hasActions a.actions then
          [.setVar (a.outputs.take 1) c!" TOOLSET := $(TOOLSET)"] else []) ++ items) := by
      unfold toolsetLines
      split
      · cases h : a.outputs with
        | nil => exact absurd h ok.some_output
        | cons o os =>
          have ho : RuleName o := ok.outputs o (by simp [h])
          have hh := fun c hc => head_rule [o] (by simp) (by simpa using ho)
            c!": TOOLSET := $(TOOLSET)" c hc
          simp only [List.map_cons, List.map_nil, joinWith_one] at hh
          exact readRules_line _ _ _ _ _ (by simp) (hh _ (by simp)) (hh _ (by simp)) hr
            (ruleLine_toolset o ho _)
      · exact hr
    unfold phonyLines before
    split
    · have h1 := ruleLine_normal [c!".PHONY"] a.outputs (by simpa using phony_name) ok.outputs
        false []
      have h2 : ruleLine (c!".PHONY: " ++ joinWith [' '] (a.outputs.map fun o => QuoteSpaces o)) [] =
          some (.rule [c!".PHONY"] a.outputs [] []) := by
        simpa [joinWith, QuoteSpaces, replaceChar, forceNames] using h1
      have := readRules_line _ _ _ _ _ (by simp) (by simp) (by simp) ht h2
      simpa using this
    · simpa using ht

/-- C63: a rule for one output is read as what was meant: blanks in file names do not
separate them, and the recipe consists of the actions. -/
theorem C63_one_output (a : RuleArgs) (ok : a.Ok) (o : Str) (ho : a.outputs = [o])
    (hord : a.orderOnly = false) :
    ∃ lines, WriteMakeRule a = some lines ∧ readMakefile (writeLines lines) =
      some (before a ++ [.rule [o] (a.inputs ++ forceNames a.force) [] (a.actions.getD [])]) := by
  have h1 : ∀ s ∈ [o], RuleName s := by rw [← ho]; exact ok.outputs
  apply wrapped a ok [joinWith [' '] ([o].map fun s => QuoteSpaces s) ++ c!": " ++
      joinWith [' '] (a.inputs.map fun s => QuoteSpaces s) ++
      (if a.force then c!" FORCE_DO_CMD" else [])] (a.actions.getD [])
  · unfold ruleCore
    rw [ho, hord]
    rfl
  · intro l hl
    rw [List.mem_singleton] at hl
    subst hl
    exact oneLine_rule [o] a.inputs h1 ok.inputs a.force _ (Or.inl rfl)
  · exact ok.actions
  · have hrec := readRules_recipe (a.actions.getD []) [[], []] [] [] rfl
    rw [List.append_nil] at hrec
    have hh := fun c hc => head_rule [o] (by simp) h1 (c!": " ++
      joinWith [' '] (a.inputs.map fun s => QuoteSpaces s) ++
      (if a.force then c!" FORCE_DO_CMD" else [])) c hc
    simp only [← List.append_assoc] at hh
    exact readRules_line _ _ _ _ _ (by simp) (hh _ (by simp)) (hh _ (by simp)) hrec
      (ruleLine_normal [o] a.inputs h1 ok.inputs a.force _)

/-- C63: an order-only rule. -/
theorem C63_order_only (a : RuleArgs) (ok : a.Ok) (hord : a.orderOnly = true) :
    ∃ lines, WriteMakeRule a = some lines ∧ readMakefile (writeLines lines) =
      some (before a ++
        [.rule a.outputs [] (a.inputs ++ forceNames a.force) (a.actions.getD [])]) := by
  apply wrapped a ok [joinWith [' '] (a.outputs.map fun s => QuoteSpaces s) ++ c!": | " ++
      joinWith [' '] (a.inputs.map fun s => QuoteSpaces s) ++
      (if a.force then c!" FORCE_DO_CMD" else [])] (a.actions.getD [])
  · unfold ruleCore
    rw [hord]
    rfl
  · intro l hl
    rw [List.mem_singleton] at hl
    subst hl
    exact oneLine_rule a.outputs a.inputs ok.outputs ok.inputs a.force _ (Or.inr rfl)
  · exact ok.actions
  · have hrec := readRules_recipe (a.actions.getD []) [[], []] [] [] rfl
    rw [List.append_nil] at hrec
    have hh := fun c hc => head_rule a.outputs ok.some_output ok.outputs (c!": | " ++
      joinWith [' '] (a.inputs.map fun s => QuoteSpaces s) ++
      (if a.force then c!" FORCE_DO_CMD" else [])) c hc
    simp only [← List.append_assoc] at hh
    exact readRules_line _ _ _ _ _ (by simp) (hh _ (by simp)) (hh _ (by simp)) hrec
      (ruleLine_order a.outputs a.inputs ok.outputs ok.inputs a.force _)

/-- C63: a rule for several outputs becomes three rules: all outputs depend on one
intermediate file, and only the rule for that one has the inputs and the actions. -/
theorem C63_several_outputs (a : RuleArgs) (ok : a.Ok) (o o' : Str) (os : List Str)
    (ho : a.outputs = o :: o' :: os) (hord : a.orderOnly = false) (acts : List Str)
    (hacts : a.actions = some acts) (hdig : RuleName a.digest) (hblank : ' ' ∉ a.digest) :
    let inter := a.digest ++ c!".intermediate"
    ∃ lines, WriteMakeRule a = some lines ∧ readMakefile (writeLines lines) =
      some (before a ++ [.rule a.outputs [inter] [] [c!"@:"],
        .rule [c!".INTERMEDIATE"] [inter] [] [],
        .rule [inter] (a.inputs ++ forceNames a.force) []
          (c!"$(call do_cmd,touch)" :: acts)]) := by
  intro inter
  have hq : ∀ s : Str, ' ' ∉ s → QuoteSpaces s = s := by
    intro s hs
    unfold QuoteSpaces replaceChar
    induction s with
    | nil => rfl
    | cons c s ih =>
      simp only [List.mem_cons, not_or] at hs
      rw [List.flatMap_cons, ih hs.2, if_neg (Ne.symm hs.1)]
      rfl
  have hi : RuleName inter := by
    refine ⟨by simp [inter], ?_⟩
    intro c hc
    rcases List.mem_append.mp hc with hc | hc
    · exact hdig.2 c hc
    · exact (by decide : ∀ c ∈ c!".intermediate", c ∉ [':', '|', '#', '\\', '\t', '\n']) c hc
  have hi' : ∀ s ∈ [inter], RuleName s := by simpa using hi
  have hI : ∀ s ∈ [c!".INTERMEDIATE"], RuleName s := by
    have : RuleName c!".INTERMEDIATE" := ⟨by simp, by decide⟩
    simpa using this
  have hqi : QuoteSpaces inter = inter := hq inter (by
    simp only [inter, List.mem_append, not_or]
    exact ⟨hblank, by decide⟩)
  have hqI : QuoteSpaces c!".INTERMEDIATE" = c!".INTERMEDIATE" := rfl
  -- the lines
  have e1 : joinWith [' '] (a.outputs.map fun s => QuoteSpaces s) ++ c!": " ++ inter =
      joinWith [' '] (a.outputs.map fun s => QuoteSpaces s) ++ c!": " ++
      joinWith [' '] ([inter].map fun s => QuoteSpaces s) ++
      (if false then c!" FORCE_DO_CMD" else []) := by
    simp [joinWith, hqi]
  have e2 : c!".INTERMEDIATE" ++ c!": " ++ inter =
      joinWith [' '] ([c!".INTERMEDIATE"].map fun s => QuoteSpaces s) ++ c!": " ++
      joinWith [' '] ([inter].map fun s => QuoteSpaces s) ++
      (if false then c!" FORCE_DO_CMD" else []) := by
    simp only [List.map_cons, List.map_nil, joinWith_one, hqi, hqI]
    simp
  have e3 : inter ++ c!": " ++ joinWith [' '] (a.inputs.map fun s => QuoteSpaces s) ++
        (if a.force then c!" FORCE_DO_CMD" else []) =
      joinWith [' '] ([inter].map fun s => QuoteSpaces s) ++ c!": " ++
      joinWith [' '] (a.inputs.map fun s => QuoteSpaces s) ++
      (if a.force then c!" FORCE_DO_CMD" else []) := by
    simp only [List.map_cons, List.map_nil, joinWith_one, hqi]
  have hact : ∀ x ∈ acts, OneLine x := by have := ok.actions; rwa [hacts] at this
  apply wrapped a ok
    [joinWith [' '] (a.outputs.map fun s => QuoteSpaces s) ++ c!": " ++ inter, c!"\t" ++ c!"@:",
      c!".INTERMEDIATE" ++ c!": " ++ inter,
      inter ++ c!": " ++ joinWith [' '] (a.inputs.map fun s => QuoteSpaces s) ++
        (if a.force then c!" FORCE_DO_CMD" else [])]
    (c!"$(call do_cmd,touch)" :: acts)
  · unfold ruleCore
    rw [ho, hord, hacts]
    rfl
  · intro l hl
    simp only [List.mem_cons, List.not_mem_nil, or_false] at hl
    rcases hl with rfl | rfl | rfl | rfl
    · rw [e1]; exact oneLine_rule _ _ ok.outputs hi' _ _ (Or.inl rfl)
    · exact ⟨by decide, by decide⟩
    · rw [e2]; exact oneLine_rule _ _ hI hi' _ _ (Or.inl rfl)
    · rw [e3]; exact oneLine_rule _ _ hi' ok.inputs _ _ (Or.inl rfl)
  · intro l hl
    rcases List.mem_cons.mp hl with rfl | hl
    · exact ⟨by decide, by decide⟩
    · exact hact l hl
  · have hrec := readRules_recipe (c!"$(call do_cmd,touch)" :: acts) [[], []] [] [] rfl
    rw [List.append_nil] at hrec
    have r3 := readRules_normal _ [inter] a.inputs hi' (by simp) ok.inputs a.force _ _ _ e3 hrec
    have r2 := readRules_normal _ [c!".INTERMEDIATE"] [inter] hI (by simp) hi' false _ _ _ e2 r3
    have rt := readRules_recipe [c!"@:"] _ _ _ r2
    exact readRules_normal _ a.outputs [inter] ok.outputs ok.some_output hi' false _ _ _ e1 rt

/-- Names with blanks, everything switched on. -/
example : ∃ lines, WriteMakeRule ⟨[c!"out dir/a b.o"], [c!"my src/a b.c", c!"x.h"],
      some [c!"$(call do_cmd,cc,1)"], some c!"Build it", false, true, true, []⟩ = some lines ∧
    readMakefile (writeLines lines) = some [
      .rule [c!".PHONY"] [c!"out dir/a b.o"] [] [],
      .setVar [c!"out dir/a b.o"] c!" TOOLSET := $(TOOLSET)",
      .rule [c!"out dir/a b.o"] [c!"my src/a b.c", c!"x.h", c!"FORCE_DO_CMD"] []
        [c!"$(call do_cmd,cc,1)"]] := ⟨_, rfl, by decide⟩

/-- Two outputs. -/
example : ∃ lines, WriteMakeRule ⟨[c!"a b", c!"c"], [c!"d e"], some [c!"gen"], none, false, false,
      false, c!"12ab"⟩ = some lines ∧
    readMakefile (writeLines lines) = some [
      .setVar [c!"a b"] c!" TOOLSET := $(TOOLSET)",
      .rule [c!"a b", c!"c"] [c!"12ab.intermediate"] [] [c!"@:"],
      .rule [c!".INTERMEDIATE"] [c!"12ab.intermediate"] [] [],
      .rule [c!"12ab.intermediate"] [c!"d e"] [] [c!"$(call do_cmd,touch)", c!"gen"]] :=
  ⟨_, rfl, by decide⟩

/-- The requirements are met by ordinary arguments. -/
example : RuleArgs.Ok ⟨[c!"a b"], [c!"$(obj)/d e.c"], some [c!"gen"], some c!"x", false, false,
    false, []⟩ := by
  constructor
  · intro s hs; simp at hs; subst hs; exact ⟨by simp, by decide⟩
  · intro s hs; simp at hs; subst hs; exact ⟨by simp, by decide⟩
  · simp
  · intro s hs; simp at hs; subst hs; exact ⟨by decide, by decide⟩
  · intro x hx; simp at hx; subst hx; exact ⟨by decide, by decide⟩

end Gyp
