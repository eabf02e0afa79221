import Verif.Proofs.MakeLocals
import Verif.Proofs.MakeObjects
import Verif.Spec.MakeFlags
import Verif.Props.Make
import Verif.Props.ShellQuote
/-
Helper lemmas for `Verif/Props/MakeFlags.lean`: the values of the variables with flags.
-/
namespace Gyp
open Spec

variable {m : MkSelf} {t : MkOutputs} {v0 : MakeVars}

/-! ### Names of a target with the variables of the header -/

theorem aget_append (a b : MakeVars) (n : Str) :
    aget (a ++ b) n = (aget a n).or (aget b n) := by
  induction a with
  | nil => rfl
  | cons e a ih =>
    obtain ⟨k, x⟩ := e
    rw [List.cons_append, aget, aget]
    split
    · rfl
    · exact ih

theorem own_cases (s : MkSpec) {n : Str} (hn : n ∈ localVars) :
    (n = c!"TARGET" ∧ aget (ownVars s) n = some s.targetName) ∨
    (n = c!"TOOLSET" ∧ aget (ownVars s) n = some s.toolset) ∨
    (n ∈ headerVars ∧ aget (ownVars s) n = none) := by
  simp only [localVars, List.mem_cons] at hn
  rcases hn with rfl | rfl | hn
  · exact Or.inr (Or.inl ⟨rfl, rfl⟩)
  · exact Or.inl ⟨rfl, rfl⟩
  · refine Or.inr (Or.inr ⟨hn, ?_⟩)
    simp only [headerVars, List.mem_cons, List.not_mem_nil, or_false] at hn
    rcases hn with rfl | rfl | rfl <;> rfl

theorem seen_value {build : Str} (hv : HeaderOk v0 build) (ht : MkWord m.spec.toolset)
    (hg : MkWord m.spec.targetName) {n : Str} (hn : n ∈ localVars) :
    ∃ w, aget (seenVars m v0) n = some w ∧ MkWord w := by
  unfold seenVars
  rw [aget_append]
  rcases own_cases m.spec hn with ⟨-, h⟩ | ⟨-, h⟩ | ⟨hh, h⟩ <;> rw [h]
  · exact ⟨_, rfl, hg⟩
  · exact ⟨_, rfl, ht⟩
  · obtain ⟨w, hw, h⟩ := hv.dirs n hh
    exact ⟨w, hw, h⟩

theorem expand_two (ht : MkWord m.spec.toolset) (hg : MkWord m.spec.targetName) {x : Str}
    (hx : RefText localVars x) :
    expand (seenVars m v0) x = expand v0 (expand (ownVars m.spec) x) := by
  induction hx with
  | nil => rfl
  | @char c s hc _ ih =>
    unfold expand at ih ⊢
    rw [expandFrom_char _ hc, expandFrom_char _ hc, expandFrom_char _ hc, ih]
  | @ref n s hn hp _ ih =>
    have e1 : ∀ v : MakeVars, expand v (c!"$(" ++ n ++ c!")" ++ s) = refValue v n ++ expand v s :=
      fun v => expandFrom_ref v n s hp
    rw [e1, e1, ih]
    have hs : refValue (seenVars m v0) n = match aget (ownVars m.spec) n with
        | some w => w | none => refValue v0 n := by
      unfold refValue seenVars
      rw [aget_append]
      cases aget (ownVars m.spec) n <;> rfl
    rw [hs]
    rcases own_cases m.spec hn with ⟨-, h⟩ | ⟨-, h⟩ | ⟨hh, h⟩
    · have : refValue (ownVars m.spec) n = m.spec.targetName := by unfold refValue; rw [h]
      rw [this, h, expand_append _ (RefText.plain (R := []) hg.2.2), expand_plain _ hg.2.2]
    · have : refValue (ownVars m.spec) n = m.spec.toolset := by unfold refValue; rw [h]
      rw [this, h, expand_append _ (RefText.plain (R := []) ht.2.2), expand_plain _ ht.2.2]
    · have : refValue (ownVars m.spec) n = c!"$(" ++ n ++ c!")" := by unfold refValue; rw [h]
      rw [this, h]
      have := expandFrom_ref v0 n (expand (ownVars m.spec) s) hp
      exact this.symm

theorem local_nameText : ∀ n ∈ localVars, NameText n := by
  unfold NameText; decide

theorem standsFor_ref {build : Str} (hv : HeaderOk v0 build) (ht : MkWord m.spec.toolset)
    (hg : MkWord m.spec.targetName) {f : Str} (hf : RefText localVars f) :
    StandsFor (seenVars m v0) f (expand (seenVars m v0) f) := by
  intro env henv
  induction hf with
  | nil => rfl
  | @char c s hc _ ih =>
    rw [deep_cons hc ih]
    unfold expand
    rw [expandFrom_char _ hc]
  | @ref n s hn hp _ ih =>
    rw [deep_append (deep_ref _ (local_nameText n hn)) ih]
    unfold expand
    rw [expandFrom_ref _ _ _ hp, henv n hn]
    obtain ⟨w, hw, -⟩ := seen_value hv ht hg hn
    simp [valueOf, refValue, hw]

theorem expand_seen_clean {build : Str} (hv : HeaderOk v0 build) (ht : MkWord m.spec.toolset)
    (hg : MkWord m.spec.targetName) {f : Str} (hf : RefText localVars f) (hc : MkClean f) :
    MkClean (expand (seenVars m v0) f) ∧ (f ≠ [] → expand (seenVars m v0) f ≠ []) := by
  induction hf with
  | nil => exact ⟨hc, fun h => absurd rfl h⟩
  | @char c s hcd _ ih =>
    have h := ih fun d hd => hc d (by simp [hd])
    unfold expand at h ⊢
    rw [expandFrom_char _ hcd]
    refine ⟨?_, fun _ => by simp⟩
    intro d hd
    rcases List.mem_cons.mp hd with rfl | hd
    · exact hc _ (by simp)
    · exact h.1 d hd
  | @ref n s hn hp _ ih =>
    have h := ih fun d hd => hc d (by simp [hd])
    obtain ⟨w, hw, h1, h2, h3⟩ := seen_value hv ht hg hn
    have e : expand (seenVars m v0) (c!"$(" ++ n ++ c!")" ++ s) = w ++ expand (seenVars m v0) s := by
      unfold expand
      rw [expandFrom_ref _ _ _ hp]
      simp [refValue, hw]
    rw [e]
    exact ⟨h2.append h.1, fun _ => by simp [h1]⟩

/-! ### Where the variables have these values -/

/-- The variables that names and flags refer to have their values. -/
def Seen (m : MkSelf) (v0 v : MakeVars) : Prop :=
  ∀ n ∈ c!"BUILDTYPE" :: localVars, aget v n = aget (seenVars m v0) n

theorem Seen.sets {v : MakeVars} (h : Seen m v0 v) {ls : List MkLine}
    (hs : ∀ n ∈ c!"BUILDTYPE" :: localVars, ¬ Sets ls n) : Seen m v0 (valuesAfter v ls) := by
  intro n hn
  rw [aget_valuesAfter (hs n hn), h n hn]

theorem Seen.stands {v : MakeVars} (h : Seen m v0 v) {f x : Str} (hf : StandsFor (seenVars m v0) f x) :
    deep (valueOf v) f = some x :=
  hf _ fun n hn => by unfold valueOf; rw [h n (by simp [hn])]

theorem word_set {v : MakeVars} {n x : Str} (hn : VarText n) (hx : MkWord x) :
    textValue v (lineText (.set n x)) = x := by
  obtain ⟨-, h2, h3⟩ := hx
  refine textValue_set hn (fun h => h2 _ h (by decide)) (fun h => h2 _ h (by decide)) ?_ ?_
    (deep_plain _ h3)
  · intro c hc e
    subst e
    exact h2 _ (List.mem_of_getLast? hc) (by decide)
  · intro c hc
    have hm := h2 c (List.mem_of_head? hc)
    cases hb : isBlank c
    · rfl
    · exfalso
      simp only [isBlank, Bool.or_eq_true, decide_eq_true_eq] at hb
      rcases hb with rfl | rfl <;> exact hm (by decide)

theorem seen_head (ht : MkWord m.spec.toolset) (hg : MkWord m.spec.targetName) :
    valuesAfter v0 (headLines m.spec) = seenVars m v0 := by
  show (c!"TARGET", textValue _ (lineText (.set c!"TARGET" m.spec.targetName))) ::
    (c!"TOOLSET", textValue _ (lineText (.set c!"TOOLSET" m.spec.toolset))) :: v0 = _
  rw [word_set (by unfold VarText; decide) hg, word_set (by unfold VarText; decide) ht]
  rfl

theorem header_head {n : Str} (hn : n ∈ c!"BUILDTYPE" :: localVars) :
    ∃ x ∈ ['B', 'T', 'o', 'b', 's'], n.head? = some x := by
  rcases List.mem_cons.mp hn with rfl | hn
  · exact ⟨'B', by simp, rfl⟩
  · obtain ⟨x, hx, e⟩ := local_head hn
    exact ⟨x, List.mem_cons_of_mem _ hx, e⟩

theorem parts_sets (p : MkParts m t) {n : Str} (hn : n ∈ c!"BUILDTYPE" :: localVars) :
    ¬ Sets p.actions n ∧ ¬ Sets p.rules n ∧ ¬ Sets p.copies n ∧ ¬ Sets p.sources n ∧ ¬ Sets p.target n := by
  have hh := header_head hn
  refine ⟨?_, ?_, ?_, ?_, ?_⟩
  · rcases p.hactions with ⟨-, h⟩ | h
    · rw [h]; exact nil_sets n
    · exact fun hs => head_in (WriteActions_head h hs) hh (by decide)
  · rcases p.hrules with ⟨-, h⟩ | h
    · rw [h]; exact nil_sets n
    · exact fun hs => head_in (WriteRules_head h hs) hh (by decide)
  · rcases p.hcopies with ⟨-, h⟩ | h
    · rw [h]; exact nil_sets n
    · intro hs
      have e := WriteCopies_sets h hs
      rcases List.mem_cons.mp hn with rfl | hn
      · have := copiesVar_last m
        rw [← e] at this
        simp at this
      · exact copiesVar_local m (e ▸ hn)
  · rcases p.hsources with ⟨-, h⟩ | h
    · rw [h]; exact nil_sets n
    · exact fun hs => head_in (WriteSources_head h hs) hh (by decide)
  · exact fun hs => head_in (WriteTarget_head p.htarget hs) hh (by decide)

/-- The variables before the section of the sources. -/
def MkParts.seenBefore (p : MkParts m t) (v0 : MakeVars) : MakeVars :=
  valuesAfter v0 (headLines m.spec ++ p.actions ++ p.rules ++ p.copies)

theorem parts_seen (p : MkParts m t) (ht : MkWord m.spec.toolset) (hg : MkWord m.spec.targetName) :
    Seen m v0 (p.seenBefore v0) := by
  unfold MkParts.seenBefore
  rw [valuesAfter_append, valuesAfter_append, valuesAfter_append, seen_head ht hg]
  have h0 : Seen m v0 (seenVars m v0) := fun n _ => rfl
  exact ((h0.sets fun n hn => (parts_sets p hn).1).sets fun n hn => (parts_sets p hn).2.1).sets
    fun n hn => (parts_sets p hn).2.2.1

/-! ### Flags -/

theorem quoted_words {f : Str} (h : ∀ c ∈ f, c ∉ ['$', '`', '\\', '#', '\n']) :
    shellWords (['"'] ++ replaceChar '"' c!"\\\"" f ++ ['"']) = some [f] := by
  have hesc : replaceChar '"' c!"\\\"" f = backslashEscape f := by
    unfold replaceChar backslashEscape
    induction f with
    | nil => rfl
    | cons c f ih =>
      have hc := h c (by simp)
      simp only [List.mem_cons, List.not_mem_nil, or_false, not_or] at hc
      rw [List.flatMap_cons, List.flatMap_cons, ih fun d hd => h d (by simp [hd])]
      by_cases e : c = '"'
      · subst e; simp
      · simp [e, hc]
  rw [hesc]
  refine shellWords_iff.mpr ⟨some f, [], ?_, rfl⟩
  rw [lexRun_append, lexRun_append]
  have h1 : lexRun false ⟨.plain, none, []⟩ ['"'] = some ⟨.double, some [], []⟩ := rfl
  rw [h1, Option.bind_some, lex_double_escaped false f [] []
    (Or.inr fun hd => h _ hd (by simp)), Option.bind_some]
  rfl

theorem quoted_item {f : Str} (hf : ∀ c ∈ f, c ∉ ['$', '`', '\\', '#', '\n']) :
    ListItem (['"'] ++ replaceChar '"' c!"\\\"" f ++ ['"']) ∧
      '$' ∉ ['"'] ++ replaceChar '"' c!"\\\"" f ++ ['"'] := by
  have hin : ∀ c ∈ replaceChar '"' c!"\\\"" f, c ∈ f ∨ c = '\\' ∨ c = '"' := by
    intro c hc
    unfold replaceChar at hc
    obtain ⟨d, hd, hc⟩ := List.mem_flatMap.mp hc
    split at hc
    · exact Or.inr (by simpa using hc)
    · simp only [List.mem_singleton] at hc
      exact Or.inl (hc ▸ hd)
  have hno : ∀ x ∈ ['$', '#', '\n'], x ∉ ['"'] ++ replaceChar '"' c!"\\\"" f ++ ['"'] := by
    intro x hx hm
    simp only [List.mem_append, List.mem_singleton] at hm
    have hq : x ≠ '"' ∧ x ≠ '\\' := by
      simp only [List.mem_cons, List.not_mem_nil, or_false] at hx
      rcases hx with rfl | rfl | rfl <;> decide
    rcases hm with (hm | hm) | hm
    · exact hq.1 hm
    · rcases hin x hm with h | h | h
      · refine hf x h ?_
        simp only [List.mem_cons, List.not_mem_nil, or_false] at hx ⊢
        tauto
      · exact hq.2 h
      · exact hq.1 h
    · exact hq.1 hm
  refine ⟨⟨hno _ (by simp), hno _ (by simp), ⟨'"', rfl, rfl⟩, ⟨'"', ?_, by decide, rfl⟩⟩, hno _ (by simp)⟩
  rw [List.getLast?_append]
  rfl

/-- What make makes of a written flag. -/
theorem flag_written {f : Str} {ws : List Str} (h : FlagWords (seenVars m v0) f ws) :
    ListItem (QuoteIfNecessary f) ∧
      ∃ x, StandsFor (seenVars m v0) (QuoteIfNecessary f) x ∧ shellWords x = some ws := by
  unfold QuoteIfNecessary
  cases h with
  | quoted hq hf =>
    rw [if_pos hq]
    obtain ⟨h1, h2⟩ := quoted_item hf
    exact ⟨h1, _, fun env _ => deep_plain env h2, quoted_words hf⟩
  | plain hq hi hs hw =>
    rw [if_neg hq]
    exact ⟨hi, _, hs, hw⟩

/-- The value of a list of flags. -/
theorem flags_value {v : MakeVars} (hv : Seen m v0 v) {name : Str} (hn : VarText name) {fs : List Str}
    {ws : List (List Str)} (h : List.Forall₂ (FlagWords (seenVars m v0)) fs ws) :
    shellWords (textValue v (lineText (.list name (fs.map QuoteIfNecessary)))) = some ws.flatten := by
  have hall : ∀ s ∈ fs.map QuoteIfNecessary, ListItem s ∧ deep (valueOf v) s = some ((deep (valueOf v) s).getD []) := by
    intro s hs
    obtain ⟨f, hf, rfl⟩ := List.mem_map.mp hs
    have : ∃ w, FlagWords (seenVars m v0) f w := by
      clear hs
      induction h with
      | nil => cases hf
      | cons h1 _ ih =>
        rcases List.mem_cons.mp hf with rfl | hf
        · exact ⟨_, h1⟩
        · exact ih hf
    obtain ⟨w, hw⟩ := this
    obtain ⟨h1, x, h2, -⟩ := flag_written hw
    exact ⟨h1, by rw [hv.stands h2]; rfl⟩
  rw [textValue_list hn (fun s hs => (hall s hs).1) fun s hs => (hall s hs).2]
  rw [words_join (g := fun s => (shellWords ((deep (valueOf v) s).getD [])).getD [])]
  · congr 1
    clear hall
    induction h with
    | nil => rfl
    | cons h1 _ ih =>
      obtain ⟨-, x, h2, h3⟩ := flag_written h1
      rw [List.map_cons, List.flatMap_cons, ih, hv.stands h2]
      simp [h3]
  · clear hall
    induction h with
    | nil => simp
    | cons h1 _ ih =>
      intro s hs
      rcases List.mem_cons.mp hs with rfl | hs
      · obtain ⟨-, x, h2, h3⟩ := flag_written h1
        rw [hv.stands h2]
        simp [h3]
      · exact ih s hs

/-- The value of the definitions. -/
theorem defines_value {v : MakeVars} {name : Str}
    (hname : ∀ c ∈ name, c ≠ ':' ∧ c ≠ '\n' ∧ c ≠ '#' ∧ c ≠ '\\' ∧ isBlank c = false) (hne : name ≠ [])
    {defines : List Str} (hd : ∀ d ∈ defines, '\n' ∉ d ∧ ¬ c!"\\#" <:+: d) :
    shellWords (textValue v (lineText (.list name (defines.map fun d => EscapeCppDefine (c!"-D" ++ d))))) =
      some (defines.map (c!"-D" ++ ·)) := by
  obtain ⟨value, h1, h2⟩ := C40_defines_partial name defines hname hne (fun d h => (hd d h).1)
    fun d h => (hd d h).2
  have htext : lineText (.list name (defines.map fun d => EscapeCppDefine (c!"-D" ++ d))) =
      WriteList defines name c!"-D" EscapeCppDefine := by
    unfold lineText render WriteList writeLines
    by_cases e : defines = []
    · simp [e]
    · simp [e]
  rw [htext]
  unfold makeAssignment at h1
  unfold textValue
  cases hs : split1 ':' (makeLogicalLine (WriteList defines name c!"-D" EscapeCppDefine)) with
  | none => rw [hs] at h1; cases h1
  | some p =>
    rw [hs] at h1
    obtain ⟨a, b⟩ := p
    cases b with
    | nil => cases h1
    | cons x b =>
      by_cases hx : x = '='
      · subst hx
        change Option.map (fun v => (rstripBlanks a, v)) (makeExpand (b.dropWhile isBlank)) = _ at h1
        change shellWords (real v (b.dropWhile isBlank)) = _
        cases he : makeExpand (b.dropWhile isBlank) with
        | none => rw [he] at h1; cases h1
        | some y =>
          rw [he] at h1
          simp only [Option.map_some, Option.some.injEq, Prod.mk.injEq] at h1
          rw [real, deep_of_makeExpand _ he, Option.getD_some, h1.2, h2]
      · exfalso
        revert h1
        split
        · rename_i heq
          simp only [Option.some.injEq, Prod.mk.injEq, List.cons.injEq] at heq
          exact fun _ => hx heq.2.1
        · intro h; cases h

/-- Include directories. -/
theorem include_flag {build : Str} (hv : HeaderOk v0 build) (ok : TargetOk m t) {i : Str} (hi : FileText i)
    (hw : PlainWord (c!"-I" ++ expand v0 (inputName m i))) :
    FlagWords (seenVars m v0) (c!"-I" ++ Sourceify m (Absolutify m i))
      [c!"-I" ++ expand v0 (inputName m i)] := by
  obtain ⟨h1, h2, h3, h4⟩ := sourceify_file ok hi
  have hc : MkClean (c!"-I" ++ Sourceify m (Absolutify m i)) :=
    MkClean.append (by unfold MkClean; decide) h2
  refine .plain (x := c!"-I" ++ expand v0 (inputName m i)) (fun h => hc _ h (by decide)) ?_ ?_ (words_plain hw)
  · refine ⟨fun h => hc _ h (by decide), fun h => hc _ h (by decide), ⟨'-', rfl, rfl⟩, ?_⟩
    have hne : c!"-I" ++ Sourceify m (Absolutify m i) ≠ [] := by simp
    refine ⟨_, List.getLast?_eq_some_getLast hne, ?_, ?_⟩
    · intro e
      exact hc _ (List.getLast_mem hne) (by rw [e]; decide)
    · have := hc _ (List.getLast_mem hne)
      cases hb : isBlank ((c!"-I" ++ Sourceify m (Absolutify m i)).getLast hne)
      · rfl
      · exfalso
        simp only [isBlank, Bool.or_eq_true, decide_eq_true_eq] at hb
        rcases hb with hb | hb <;> rw [hb] at this <;> exact this (by decide)
  · have := standsFor_ref hv ok.toolset ok.name (m := m) (f := c!"-I" ++ Sourceify m (Absolutify m i))
      (RefText.append (.plain (by decide)) h1)
    rw [expand_append _ (RefText.plain (R := localVars) (by decide)), expand_plain _ (by decide),
      expand_two ok.toolset ok.name h1, h4] at this
    exact this

/-! ### The variables of a configuration -/

theorem list_value {v : MakeVars} {pre post : List MkLine} {n : Str} {xs : List Str} (h : ¬ Sets post n) :
    valueOf (valuesAfter v (pre ++ .list n xs :: post)) n =
      textValue (valuesAfter v pre) (lineText (.list n xs)) := by
  rw [valuesAfter_append]
  show valueOf (valuesAfter (putVar (valuesAfter v pre) (.list n xs)) post) n = _
  unfold valueOf
  rw [aget_valuesAfter h]
  simp [putVar, aget]

theorem config_seen {v : MakeVars} (hv : Seen m v0 v) {cs : List MkConfig} {ls : List MkLine}
    (h : ∀ l ∈ ls, l ∈ cs.flatMap (configVars m)) : Seen m v0 (valuesAfter v ls) := by
  refine hv.sets fun n hn hs => ?_
  obtain ⟨l, hl, he⟩ := hs
  obtain ⟨c, -, hc⟩ := configVars_sets (m := m) (cs := cs) ⟨l, h l hl, he⟩
  exact head_in (configNames_head hc) (header_head hn) (by decide)

theorem config_varText {cs : List MkConfig} (h : ConfigsOk cs) {c : MkConfig} (hc : c ∈ cs) {pre : Str}
    (hp : ∀ x ∈ pre, x ≠ ':' ∧ x ≠ '\n' ∧ x ≠ '#' ∧ x ≠ '\\' ∧ isBlank x = false) :
    ∀ x ∈ pre ++ c.name, x ≠ ':' ∧ x ≠ '\n' ∧ x ≠ '#' ∧ x ≠ '\\' ∧ isBlank x = false := by
  intro x hx
  rcases List.mem_append.mp hx with hx | hx
  · exact hp x hx
  · have := h.chars c hc x hx
    simp only [List.mem_cons, List.not_mem_nil, or_false, not_or] at this
    refine ⟨this.1, this.2.1, this.2.2.1, this.2.2.2.1, ?_⟩
    simp [isBlank, this]

theorem config_nameText {cs : List MkConfig} (h : ConfigsOk cs) {c : MkConfig} (hc : c ∈ cs) {pre : Str}
    (hp : NameText pre) : NameText (pre ++ c.name) := by
  have : ∀ x ∈ ['$', '(', ')'], x ∉ c.name := by
    intro x hx hm
    refine h.chars c hc x hm ?_
    simp only [List.mem_cons, List.not_mem_nil, or_false] at hx ⊢
    tauto
  unfold NameText at hp ⊢
  simp only [List.mem_append, not_or]
  exact ⟨⟨hp.1, this _ (by simp)⟩, ⟨hp.2.1, this _ (by simp)⟩, ⟨hp.2.2, this _ (by simp)⟩⟩

/-- The names of the variables of a configuration are those of no other. -/
theorem config_apart {cs : List MkConfig} (h : ConfigsOk cs) {c c' : MkConfig} (hc : c ∈ cs) (hc' : c' ∈ cs)
    (hne : c.name ≠ c'.name) {n : Str} (hn : n ∈ configNames c) : n ∉ configNames c' := by
  have a1 := h.apart c hc c' hc'
  have a2 := h.apart c' hc' c hc
  have hne' := Ne.symm hne
  intro hn'
  simp only [configNames, List.mem_cons, List.not_mem_nil, or_false] at hn hn'
  rcases hn with rfl | rfl | rfl | rfl | rfl | rfl <;> simp at hn' <;>
    first
    | exact hne hn'
    | (rcases hn' with hn' | hn' | hn' <;>
        first
        | exact hne hn'
        | exact a1.1 (by simpa using hn'.symm)
        | exact a1.2 (by simpa using hn'.symm)
        | exact a2.1 (by simpa using hn')
        | exact a2.2 (by simpa using hn'))
    | (rcases hn' with hn' | hn' <;>
        first
        | exact hne hn'
        | exact a1.1 (by simpa using hn'.symm)
        | exact a1.2 (by simpa using hn'.symm)
        | exact a2.1 (by simpa using hn')
        | exact a2.2 (by simpa using hn'))

theorem config_split {cs : List MkConfig} (h : ConfigsOk cs) {c : MkConfig} (hc : c ∈ cs) :
    ∃ a b, cs = a ++ c :: b ∧ ∀ n ∈ configNames c, ¬ ∃ c' ∈ b, n ∈ configNames c' := by
  obtain ⟨a, b, rfl⟩ := List.append_of_mem hc
  refine ⟨a, b, rfl, ?_⟩
  rintro n hn ⟨c', hc', hn'⟩
  refine config_apart h hc (by simp [hc']) ?_ hn hn'
  have := h.nodup
  rw [List.map_append, List.map_cons, List.nodup_append] at this
  have := (List.nodup_cons.mp this.2.1).1
  intro e
  exact this (e ▸ List.mem_map.mpr ⟨c', hc', rfl⟩)

theorem config_value {v : MakeVars} (hv : Seen m v0 v) {cs : List MkConfig} (h : ConfigsOk cs) {c : MkConfig}
    (hc : c ∈ cs) {pre post : List MkLine} {n : Str} {xs : List Str}
    (hsplit : configVars m c = pre ++ .list n xs :: post) (hn : n ∈ configNames c) (hp : ¬ Sets post n) :
    ∃ v', Seen m v0 v' ∧ valueOf (valuesAfter v (cs.flatMap (configVars m))) n =
      textValue v' (lineText (.list n xs)) := by
  obtain ⟨a, b, rfl, hb⟩ := config_split h hc
  refine ⟨valuesAfter v (a.flatMap (configVars m) ++ pre), ?_, ?_⟩
  · refine config_seen (cs := a ++ c :: b) hv fun l hl => ?_
    rw [List.flatMap_append, List.flatMap_cons, hsplit]
    rcases List.mem_append.mp hl with hl | hl <;> simp [hl]
  · rw [List.flatMap_append, List.flatMap_cons, hsplit]
    have := list_value (v := v) (pre := a.flatMap (configVars m) ++ pre)
      (post := post ++ b.flatMap (configVars m)) (n := n) (xs := xs) (by
        intro hs
        rcases Sets.append.mp hs with hs | hs
        · exact hp hs
        · exact hb n hn (configVars_sets hs))
    rw [← this]
    simp

theorem forall₂_map {α β γ : Type} {R : β → γ → Prop} {f : α → β} {g : α → γ} {l : List α}
    (h : ∀ x ∈ l, R (f x) (g x)) : List.Forall₂ R (l.map f) (l.map g) := by
  induction l with
  | nil => exact .nil
  | cons x l ih => exact .cons (h x (by simp)) (ih fun y hy => h y (by simp [hy]))

/-- The values of the variables of a configuration. -/
theorem config_values {v : MakeVars} (hv : Seen m v0 v) (ok : TargetOk m t) {build : Str}
    (hh : HeaderOk v0 build) {c : MkConfig} (hc : c ∈ m.spec.configs) (hcs : ConfigsOk m.spec.configs)
    (co : CompileOk m v0 c) :
    (shellWords (valueOf (valuesAfter v (m.spec.configs.flatMap (configVars m))) (c!"DEFS_" ++ c.name)) =
      some (c.defines.map (c!"-D" ++ ·))) ∧
    (shellWords (valueOf (valuesAfter v (m.spec.configs.flatMap (configVars m))) (c!"INCS_" ++ c.name)) =
      some (c.includeDirs.map fun i => c!"-I" ++ expand v0 (inputName m i))) ∧
    ∀ e ∈ [(c!"CFLAGS_", c.cflags), (c!"CFLAGS_C_", c.cflagsC), (c!"CFLAGS_CC_", c.cflagsCC)],
      ∀ ws, List.Forall₂ (FlagWords (seenVars m v0)) e.2 ws →
      shellWords (valueOf (valuesAfter v (m.spec.configs.flatMap (configVars m))) (e.1 ++ c.name)) =
        some ws.flatten := by
  have hvar : ∀ {pre : Str}, (∀ x ∈ pre, x ≠ ':' ∧ x ≠ '\n' ∧ x ≠ '#' ∧ x ≠ '\\' ∧ isBlank x = false) →
      VarText (pre ++ c.name) := fun hp x hx =>
    let h := config_varText hcs hc hp x hx
    ⟨h.1, h.2.1, h.2.2.1, h.2.2.2.1⟩
  have hno : ∀ {post : List MkLine} {n : Str}, (∀ l ∈ post, setsVar l ≠ some n) → ¬ Sets post n :=
    fun h ⟨l, hl, he⟩ => h l hl he
  refine ⟨?_, ?_, ?_⟩
  · obtain ⟨v', -, e⟩ := config_value (n := c!"DEFS_" ++ c.name) hv hcs hc (pre := []) rfl
      (by simp [configNames]) (hno (by simp [setsVar]))
    rw [e]
    exact defines_value (config_varText hcs hc (by decide)) (by simp) co.defines
  · obtain ⟨v', hs, e⟩ := config_value (n := c!"INCS_" ++ c.name) hv hcs hc
      (pre := (configVars m c).take 7) (post := []) rfl (by simp [configNames]) (hno (by simp))
    rw [e]
    have := flags_value hs (hvar (pre := c!"INCS_") (by decide))
      (forall₂_map (f := fun i => c!"-I" ++ Sourceify m (Absolutify m i))
        (g := fun i => [c!"-I" ++ expand v0 (inputName m i)])
        fun i hi => include_flag hh ok (co.includes i hi).1 (co.includes i hi).2)
    rw [List.map_map] at this
    have e2 : (c.includeDirs.map fun i => [c!"-I" ++ expand v0 (inputName m i)]).flatten =
        c.includeDirs.map fun i => c!"-I" ++ expand v0 (inputName m i) := by
      generalize c.includeDirs = l
      induction l with
      | nil => rfl
      | cons x l ih => simp only [List.map_cons, List.flatten_cons, ih]; rfl
    rw [e2] at this
    exact this
  · intro p hp ws hws
    simp only [List.mem_cons, List.not_mem_nil, or_false] at hp
    rcases hp with rfl | rfl | rfl
    · obtain ⟨v', hs, e⟩ := config_value (n := c!"CFLAGS_" ++ c.name) hv hcs hc
        (pre := (configVars m c).take 2) rfl (by simp [configNames]) (hno (by
          simp [setsVar]
          constructor <;> intro e <;> have := congrArg List.length e <;> simp at this <;> omega))
      rw [e]
      exact flags_value hs (hvar (by decide)) hws
    · obtain ⟨v', hs, e⟩ := config_value (n := c!"CFLAGS_C_" ++ c.name) hv hcs hc
        (pre := (configVars m c).take 4) rfl (by simp [configNames]) (hno (by simp [setsVar]))
      rw [e]
      exact flags_value hs (hvar (by decide)) hws
    · obtain ⟨v', hs, e⟩ := config_value (n := c!"CFLAGS_CC_" ++ c.name) hv hcs hc
        (pre := (configVars m c).take 6) rfl (by simp [configNames]) (hno (by simp [setsVar]))
      rw [e]
      exact flags_value hs (hvar (by decide)) hws

end Gyp
