import Verif.Model.Postbuilds
import Verif.Spec.Postbuilds
import Verif.Proofs.MakeDeep
import Verif.Proofs.MakeScripts
import Verif.Props.MakeRules
import Verif.Props.ShellQuote
import Verif.Props.Make
/-
How what is written for postbuilds is read.
-/
namespace Gyp
open Gyp.Spec

/-! ### Fields -/

/-- No two blanks in a row. -/
def blanksApart (s : Str) : Prop := s.IsChain fun a b => ¬ (a = ' ' ∧ b = ' ')

theorem blanksApart_of {s : Str} (h : ∀ p q, s ≠ p ++ c!"  " ++ q) : blanksApart s := by
  induction s with
  | nil => exact List.IsChain.nil
  | cons c s ih =>
    have hs := ih fun p q e => h (c :: p) q (by rw [e]; rfl)
    cases s with
    | nil => exact List.IsChain.singleton _
    | cons d s =>
      refine List.IsChain.cons_cons ?_ hs
      rintro ⟨rfl, rfl⟩
      exact h [] s rfl

theorem splitOn_step_other {c : Char} {s : Str} (h : c ≠ ' ') :
    ∃ w ws, splitOn ' ' s = w :: ws ∧ splitOn ' ' (c :: s) = (c :: w) :: ws := by
  cases e : splitOn ' ' s with
  | nil => exact absurd e splitOn_ne_nil
  | cons w ws => exact ⟨w, ws, rfl, by rw [splitOn, if_neg h, e]⟩

/-- A text with single blanks inside only has no empty fields. -/
theorem pieces_nonempty : ∀ {s : Str}, s ≠ [] → s.head? ≠ some ' ' → s.getLast? ≠ some ' ' → blanksApart s →
    ∀ w ∈ splitOn ' ' s, w ≠ []
  | [], h, _, _, _ => absurd rfl h
  | [c], _, hh, _, _ => by
    have hc : c ≠ ' ' := fun e => hh (by rw [e]; rfl)
    simp [splitOn, hc]
  | c :: d :: r, _, hh, hl, hb => by
    have hc : c ≠ ' ' := fun e => hh (by rw [e]; rfl)
    by_cases hd : d = ' '
    · subst hd
      have hr : r ≠ [] := by rintro rfl; exact hl rfl
      have hb' : blanksApart (' ' :: r) := by
        cases hb with
        | cons_cons _ hb => exact hb
      have hhr : r.head? ≠ some ' ' := by
        cases r with
        | nil => simp
        | cons x r =>
          cases hb' with
          | cons_cons h1 _ =>
            intro e
            simp only [List.head?_cons, Option.some.injEq] at e
            exact h1 ⟨rfl, e⟩
      have hbr : blanksApart r := by
        cases r with
        | nil => exact List.IsChain.nil
        | cons x r =>
          cases hb' with
          | cons_cons _ hb => exact hb
      have hlr : r.getLast? ≠ some ' ' := by
        cases r with
        | nil => simp
        | cons x r => simpa using hl
      have ih := pieces_nonempty hr hhr hlr hbr
      have : splitOn ' ' (c :: ' ' :: r) = [c] :: splitOn ' ' r := by
        rw [splitOn, if_neg hc, splitOn, if_pos rfl]
      rw [this]
      intro w hw
      rcases List.mem_cons.mp hw with rfl | hw
      · simp
      · exact ih w hw
    · have hb' : blanksApart (d :: r) := by
        cases hb with
        | cons_cons _ hb => exact hb
      have ih := pieces_nonempty (s := d :: r) (by simp) (by simpa using hd) (by simpa using hl) hb'
      obtain ⟨w, ws, e1, e2⟩ := splitOn_step_other (s := d :: r) hc
      rw [e2]
      rw [e1] at ih
      intro x hx
      rcases List.mem_cons.mp hx with rfl | hx
      · simp
      · exact ih x (by simp [hx])

/-- A text whose blanks are single and inside is not changed by splitting it. -/
theorem fields_same {s : Str} (ht : '\t' ∉ s) (hn : '\n' ∉ s) (hp : ∀ w ∈ splitOn ' ' s, w ≠ []) :
    joinWith [' '] (fields s) = s := by
  have hmap : (s.map fun c => if c = '\t' ∨ c = '\n' then ' ' else c) = s := by
    conv => rhs; rw [← List.map_id s]
    refine List.map_congr_left fun c hc => ?_
    rw [if_neg]
    · rfl
    · rintro (rfl | rfl)
      · exact ht hc
      · exact hn hc
  rw [fields, hmap, List.filter_eq_self.mpr, joinWith_splitOn]
  intro w hw
  simpa using hp w hw

theorem splitOn_blank (a b : Str) : splitOn ' ' (a ++ ' ' :: b) = splitOn ' ' a ++ splitOn ' ' b := by
  induction a with
  | nil => simp [splitOn]
  | cons c a ih =>
    by_cases hc : c = ' '
    · subst hc
      rw [List.cons_append, splitOn, if_pos rfl, ih, splitOn, if_pos rfl]
      rfl
    · obtain ⟨w, ws, e1, e2⟩ := splitOn_step_other (s := a) hc
      rw [List.cons_append, splitOn, if_neg hc, ih, e1, e2]
      rfl

/-- Nothing between two blanks is empty. -/
def Solid (s : Str) : Prop := ∀ w ∈ splitOn ' ' s, w ≠ []

theorem Solid.append {a b : Str} (ha : Solid a) (hb : Solid b) : Solid (a ++ ' ' :: b) := by
  intro w hw
  rw [splitOn_blank] at hw
  rcases List.mem_append.mp hw with h | h
  · exact ha w h
  · exact hb w h

theorem solid_join {l : List Str} (hne : l ≠ []) (h : ∀ s ∈ l, Solid s) : Solid (joinWith [' '] l) := by
  induction l with
  | nil => exact absurd rfl hne
  | cons s l ih =>
    cases l with
    | nil => exact h s (by simp)
    | cons s' l =>
      have := (h s (by simp)).append (ih (by simp) fun x hx => h x (by simp [hx]))
      show Solid (s ++ [' '] ++ joinWith [' '] (s' :: l))
      rw [List.append_assoc]
      exact this

theorem solid_word {s : Str} (hne : s ≠ []) (h : ' ' ∉ s) : Solid s := by
  have : splitOn ' ' s = [s] := by
    have := splitOn_joinWith (c := ' ') (ws := [s]) (by simp) (by simpa using h)
    simpa [joinWith] using this
  intro w hw
  rw [this, List.mem_singleton] at hw
  rw [hw]
  exact hne

theorem escape_chars {a : Str} {c : Char} (h : c ∈ backslashEscape a) : c ∈ a ∨ c = '\\' := by
  unfold backslashEscape at h
  obtain ⟨d, hd, hc⟩ := List.mem_flatMap.mp h
  split at hc
  · simp only [List.mem_cons, List.not_mem_nil, or_false] at hc
    rcases hc with rfl | rfl
    · exact .inr rfl
    · exact .inl hd
  · simp only [List.mem_singleton] at hc
    rw [hc]
    exact .inl hd

theorem escape_head {a : Str} (h : (backslashEscape a).head? = some ' ') : a.head? = some ' ' := by
  cases a with
  | nil => exact h
  | cons c a =>
    unfold backslashEscape at h
    rw [List.flatMap_cons] at h
    split at h
    · simp at h
    · simpa using h

theorem escape_apart {a : Str} (h : blanksApart a) : blanksApart (backslashEscape a) := by
  induction a with
  | nil => exact List.IsChain.nil
  | cons c a ih =>
    have ha : blanksApart a := by
      cases h with
      | singleton => exact List.IsChain.nil
      | cons_cons _ h => exact h
    have ih := ih ha
    have hcons : ∀ x : Char, (x = ' ' → a.head? ≠ some ' ') → blanksApart (x :: backslashEscape a) := by
      intro x hx
      cases e : backslashEscape a with
      | nil => exact List.IsChain.singleton _
      | cons y ys =>
        rw [e] at ih
        refine List.IsChain.cons_cons ?_ ih
        rintro ⟨h1, rfl⟩
        exact hx h1 (escape_head (by rw [e]; rfl))
    have hc : c = ' ' → a.head? ≠ some ' ' := by
      rintro rfl e
      cases h with
      | singleton => simp at e
      | cons_cons h1 _ =>
        simp only [List.head?_cons, Option.some.injEq] at e
        exact h1 ⟨rfl, e⟩
    have hb := hcons c hc
    have : backslashEscape (c :: a) =
        (if c = '"' ∨ c = '\\' ∨ c = '`' then ['\\', c] else [c]) ++ backslashEscape a := by
      simp [backslashEscape]
    rw [this]
    split
    · exact List.IsChain.cons_cons (by simp) hb
    · exact hb

theorem apart_quoted {s : Str} (h : blanksApart s) : blanksApart ('"' :: s ++ ['"']) := by
  have h1 : blanksApart (s ++ ['"']) := by
    induction s with
    | nil => exact List.IsChain.singleton _
    | cons c s ih =>
      cases s with
      | nil => exact List.IsChain.cons_cons (by simp) (List.IsChain.singleton _)
      | cons d s =>
        cases h with
        | cons_cons h1 h => exact List.IsChain.cons_cons h1 (ih h)
  cases s with
  | nil => exact List.IsChain.cons_cons (by simp) (List.IsChain.singleton _)
  | cons c s => exact List.IsChain.cons_cons (by simp) h1

theorem solid_encoded {a : Str} (h : blanksApart a) : Solid (EncodePOSIXShellArgument a) := by
  unfold EncodePOSIXShellArgument
  by_cases hq : needsQuote a = true
  · simp only [hq, if_true]
    refine pieces_nonempty (by simp) (by simp) (by rw [List.getLast?_concat]; decide) ?_
    exact apart_quoted (escape_apart h)
  · have hq' : needsQuote a = false := by simpa using hq
    simp only [hq', Bool.false_eq_true, if_false, List.nil_append, List.append_nil]
    unfold needsQuote at hq'
    simp only [Bool.or_eq_false_iff, List.any_eq_false, decide_eq_true_eq] at hq'
    refine solid_word ?_ ?_
    · intro e
      cases a with
      | nil => simp at hq'
      | cons c a =>
        unfold backslashEscape at e
        rw [List.flatMap_cons] at e
        split at e <;> simp at e
    · intro hm
      rcases escape_chars hm with hm | hm
      · exact hq'.1 _ hm (by decide)
      · exact absurd hm (by decide)

theorem encoded_chars {a : Str} {c : Char} (h : c ∈ EncodePOSIXShellArgument a) : c ∈ a ∨ c = '\\' ∨ c = '"' := by
  unfold EncodePOSIXShellArgument at h
  simp only [List.mem_append] at h
  have hquote : c ∈ (if needsQuote a = true then ['"'] else []) → c = '"' := by
    split <;> simp
  rcases h with (h | h) | h
  · exact .inr (.inr (hquote h))
  · rcases escape_chars h with h | h
    · exact .inl h
    · exact .inr (.inl h)
  · exact .inr (.inr (hquote h))

theorem mem_joinedTexts {sep : Str} {l : List Str} {c : Char} (h : c ∈ joinWith sep l) :
    c ∈ sep ∨ ∃ s ∈ l, c ∈ s := by
  induction l with
  | nil => cases h
  | cons s l ih =>
    cases l with
    | nil => exact .inr ⟨s, by simp, h⟩
    | cons s' l =>
      have h : c ∈ s ++ sep ++ joinWith sep (s' :: l) := h
      simp only [List.mem_append] at h
      rcases h with (h | h) | h
      · exact .inr ⟨s, by simp, h⟩
      · exact .inl h
      · rcases ih h with h | ⟨x, hx, h⟩
        · exact .inl h
        · exact .inr ⟨x, by simp [hx], h⟩

theorem encodedList_chars {l : List Str} {c : Char} (h : c ∈ EncodePOSIXShellList l) :
    (∃ a ∈ l, c ∈ a) ∨ c = '\\' ∨ c = '"' ∨ c = ' ' := by
  rcases mem_joinedTexts h with h | ⟨s, hs, h⟩
  · exact .inr (.inr (.inr (by simpa using h)))
  · obtain ⟨a, ha, rfl⟩ := List.mem_map.mp hs
    rcases encoded_chars h with h | h | h
    · exact .inl ⟨a, ha, h⟩
    · exact .inr (.inl h)
    · exact .inr (.inr (.inl h))

/-- A text without special characters whose blanks are single is evaluated as it is. -/
theorem evalWords_solid {s : Str} (hc : ∀ c ∈ s, c ∉ c!"*?[\t\n") (h : Solid s) : evalWords s = shellWords s := by
  unfold evalWords
  rw [if_neg, fields_same (fun hm => hc _ hm (by decide)) (fun hm => hc _ hm (by decide)) h]
  simp only [List.any_eq_true, decide_eq_true_eq, not_exists, not_and]
  intro c hm hx
  refine hc c hm ?_
  revert hx
  simp only [List.mem_cons, List.not_mem_nil, or_false]
  tauto

theorem evalArg_chars {l : List Str} (h : ∀ a ∈ l, EvalArg a) : ∀ c ∈ EncodePOSIXShellList l, c ∉ c!"$#\n\t*?[" := by
  intro c hc
  rcases encodedList_chars hc with ⟨a, ha, hca⟩ | rfl | rfl | rfl
  · exact (h a ha).1 c hca
  all_goals decide

theorem eval_list {l : List Str} (hne : l ≠ []) (h : ∀ a ∈ l, EvalArg a) :
    evalWords (EncodePOSIXShellList l) = some l := by
  rw [evalWords_solid]
  · refine C05_shell_list l fun a ha hm => (h a ha).1 _ hm (by decide)
  · intro c hc hx
    refine evalArg_chars h c hc ?_
    revert hx
    simp only [List.mem_cons, List.not_mem_nil, or_false]
    tauto
  · refine solid_join (by simpa using hne) ?_
    intro s hs
    obtain ⟨a, ha, rfl⟩ := List.mem_map.mp hs
    exact solid_encoded (blanksApart_of (h a ha).2)

/-! ### Lines -/

theorem quoteSpaces_chars {s : Str} {c : Char} (h : c ∈ QuoteSpaces s) : c ∈ s ∨ c = '\\' ∨ c = ' ' := by
  unfold QuoteSpaces replaceChar at h
  obtain ⟨d, hd, hc⟩ := List.mem_flatMap.mp h
  split at hc
  · simp only [List.mem_cons, List.not_mem_nil, or_false] at hc
    exact .inr hc
  · simp only [List.mem_singleton] at hc
    rw [hc]
    exact .inl hd

theorem targetLine_of {v : MakeVars} {out n x y : Str} (ho : RuleName out) (hn : VarText n) (hne : n ≠ [])
    (hnb : ∀ c ∈ n, isBlank c = false) (hnl : '\n' ∉ x) (hh : '#' ∉ x)
    (hl : ∀ c, x.getLast? = some c → c ≠ '\\') (hb : ∀ c, x.head? = some c → isBlank c = false)
    (hy : deep (valueOf v) x = some y) :
    targetLine v (QuoteSpaces out ++ c!": " ++ n ++ c!" := " ++ x ++ ['\n']) = some ([out], n, y) := by
  have hq : ∀ c ∈ QuoteSpaces out, c ≠ ':' ∧ c ≠ '#' ∧ c ≠ '\n' := by
    intro c hc
    rcases quoteSpaces_chars hc with h | rfl | rfl
    · have := ho.2 c h
      simp only [List.mem_cons, List.not_mem_nil, or_false, not_or] at this
      exact ⟨this.1, this.2.2.1, this.2.2.2.2.2⟩
    · decide
    · decide
  have hlog : makeLogicalLine (QuoteSpaces out ++ c!": " ++ n ++ c!" := " ++ x ++ ['\n']) =
      QuoteSpaces out ++ c!": " ++ n ++ c!" := " ++ x := by
    unfold makeLogicalLine
    rw [List.foldl_append, make_line]
    · simp [makeStep, makeText]
    · simp only [List.mem_append, not_or]
      exact ⟨⟨⟨⟨fun h => (hq _ h).2.2 rfl, by decide⟩, fun h => (hn _ h).2.1 rfl⟩, by decide⟩, hnl⟩
    · simp only [List.mem_append, not_or]
      exact ⟨⟨⟨⟨fun h => (hq _ h).2.1 rfl, by decide⟩, fun h => (hn _ h).2.2.1 rfl⟩, by decide⟩, hh⟩
    · intro c hc
      cases hx : x.getLast? with
      | some d =>
        rw [List.getLast?_append, hx] at hc
        simp only [Option.some_or, Option.some.injEq] at hc
        exact hc ▸ hl d hx
      | none =>
        rw [List.getLast?_append, hx, List.getLast?_append] at hc
        simp at hc
        rw [← hc]
        decide
  unfold targetLine
  rw [hlog]
  have h1 : split1 ':' (QuoteSpaces out ++ c!": " ++ n ++ c!" := " ++ x) =
      some (QuoteSpaces out, ' ' :: n ++ c!" := " ++ x) := by
    have := split1_cons ':' (QuoteSpaces out) (' ' :: n ++ c!" := " ++ x) fun h => (hq _ h).1 rfl
    simpa using this
  have h2 : split1 ':' (' ' :: n ++ c!" := " ++ x) = some (' ' :: n ++ [' '], '=' :: ' ' :: x) := by
    have := split1_cons ':' (' ' :: n ++ [' ']) ('=' :: ' ' :: x) (by
      simp only [List.mem_append, List.mem_cons, List.not_mem_nil, or_false, not_or]
      exact ⟨⟨by decide, fun h => (hn _ h).1 rfl⟩, by decide⟩)
    simpa using this
  simp only [h1, h2]
  have h3 : (' ' :: x).dropWhile isBlank = x := by
    rw [List.dropWhile_cons, if_pos (by decide)]
    cases x with
    | nil => rfl
    | cons c x => rw [List.dropWhile_cons, if_neg (by simp [hb c rfl])]
  have h4 : (' ' :: n ++ [' ']).dropWhile isBlank = n ++ [' '] := by
    rw [List.cons_append, List.dropWhile_cons, if_pos (by decide)]
    cases n with
    | nil => exact absurd rfl hne
    | cons c n => rw [List.cons_append, List.dropWhile_cons, if_neg (by simp [hnb c (by simp)])]
  have h5 : rstripBlanks (n ++ [' ']) = n := by
    obtain ⟨w, d, rfl⟩ : ∃ w d, n = w ++ [d] := ⟨n.dropLast, n.getLast hne, (List.dropLast_append_getLast hne).symm⟩
    exact rstrip_stable _ _ (hnb d (by simp))
  have h6 : Spec.names (QuoteSpaces out) = [out] := by
    have := names_join [out] (by simpa using ho) [] (.inl rfl)
    simpa [joinWith, Spec.names, namesFrom] using this
  rw [h3, hy, h4, h5, h6]
  rfl

theorem words_joined {l : List Str} {g : Str → List Str} (h : ∀ s ∈ l, shellWords s = some (g s)) :
    shellWords (joinWith [' '] l) = some (l.flatMap g) := by
  induction l with
  | nil => rfl
  | cons s l ih =>
    cases l with
    | nil => simpa [joinWith] using h s (by simp)
    | cons s' l =>
      have := words_append (h s (by simp)) (ih fun x hx => h x (by simp [hx]))
      show shellWords (s ++ [' '] ++ joinWith [' '] (s' :: l)) = _
      rw [List.append_assoc, List.flatMap_cons]
      exact this

/-! ### Commands -/

theorem blank_of_implicit {repr : List Str → Str} {t : PbTarget} {m : PbMachine} {s : XSettings} {output binary : Str}
    {quiet : Bool} {cmds : List Str} (h : addImplicitPostbuilds repr t m s output binary [] quiet = some cmds) :
    ∀ c ∈ cmds, ' ' ∈ c := by
  have hd : ∀ c ∈ debugPostbuilds t s output binary quiet, ' ' ∈ c := by
    unfold debugPostbuilds
    intro c hc
    split at hc
    · rcases List.mem_append.mp hc with hc | hc
      · split at hc
        · cases hc
        · rw [List.mem_singleton.mp hc]; simp
      · rw [List.mem_singleton.mp hc]; simp
    · cases hc
  have hs : ∀ l, stripPostbuilds t s binary quiet = some l → ∀ c ∈ l, ' ' ∈ c := by
    unfold stripPostbuilds
    intro l hl c hc
    split at hl
    · split at hl
      · cases hl
      · injection hl with hl
        subst hl
        rcases List.mem_append.mp hc with hc | hc
        · split at hc
          · cases hc
          · rw [List.mem_singleton.mp hc]; simp
        · rw [List.mem_singleton.mp hc]; simp
    · injection hl with hl
      subst hl
      cases hc
  have hg : ∀ k p b, ' ' ∈ signCommand repr m s k p b := by
    intro k p b
    unfold signCommand
    simp
  have hi : ∀ l, iosPostbuilds repr t m s = some l → ∀ c ∈ l, ' ' ∈ c := by
    intro l hl c hc
    unfold iosPostbuilds at hl
    split at hl
    · injection hl with hl
      subst hl
      cases hc
    · dsimp only at hl
      split at hl
      · cases hl
      · next host _ =>
        have hcopy : ∀ c, c ∈ (if t.xctest = true then
            [c!"ditto " ++ pathJoin c!"${BUILT_PRODUCTS_DIR}" t.product ++ [' '] ++ pathJoin (pathJoin host c!"PlugIns") t.product] else []) →
            ' ' ∈ c := by
          intro c hc
          split at hc
          · rw [List.mem_singleton.mp hc]; simp
          · cases hc
        split at hl
        · cases hl
        · split at hl
          · injection hl with hl
            subst hl
            exact hcopy c hc
          · injection hl with hl
            subst hl
            rcases List.mem_append.mp hc with hc | hc
            · rcases List.mem_append.mp hc with hc | hc
              · exact hcopy c hc
              · split at hc
                · unfold testSigning at hc
                  rcases List.mem_append.mp hc with hc | hc
                  · obtain ⟨f, -, hc⟩ := List.mem_flatMap.mp hc
                    dsimp only at hc
                    rcases List.mem_cons.mp hc with rfl | hc
                    · simp
                    · rw [List.mem_singleton.mp hc]; exact hg _ _ _
                  · obtain ⟨p, -, rfl⟩ := List.mem_map.mp hc
                    exact hg _ _ _
                · cases hc
            · rw [List.mem_singleton.mp hc]; exact hg _ _ _
  unfold addImplicitPostbuilds targetPostbuilds at h
  intro c hc
  split at h
  · cases h
  · next pre hpre =>
    split at h
    · cases h
    · next post hpost =>
      injection h with h
      subst h
      split at hpre
      · cases hpre
      · next strip hstrip =>
        injection hpre with hpre
        subst hpre
        simp only [List.mem_append, List.not_mem_nil, or_false] at hc
        rcases hc with (hc | hc) | hc
        · exact hd c hc
        · exact hs _ hstrip c hc
        · exact hi _ hpost c hc

/-- What stands in the table for the configurations. -/
theorem table_facts {repr : List Str → Str} {t : PbTarget} {m : PbMachine} {output binary : Str} :
    ∀ {configs : List (Str × XSettings)} {implicit : List (Str × List Str)},
      makeTargetPostbuilds repr t m output binary configs = some implicit →
      (configs.map (·.1)).Nodup →
      (implicit.map (·.1)).Nodup ∧
      (∀ e ∈ implicit, e.2 ≠ [] ∧ ∃ s, (e.1, s) ∈ configs ∧ addImplicitPostbuilds repr t m s output binary [] false = some e.2) ∧
      ∀ cfg s, (cfg, s) ∈ configs → ∃ cmds, addImplicitPostbuilds repr t m s output binary [] false = some cmds ∧
        (cmds ≠ [] → (cfg, cmds) ∈ implicit) ∧ (cmds = [] → cfg ∉ implicit.map (·.1)) := by
  intro configs
  induction configs with
  | nil =>
    intro implicit h _
    injection h with h
    subst h
    simp
  | cons c rest ih =>
    obtain ⟨name, s⟩ := c
    intro implicit h hnd
    simp only [List.map_cons, List.nodup_cons] at hnd
    rw [makeTargetPostbuilds] at h
    split at h
    · cases h
    · next cmds hc =>
      split at h
      · cases h
      · next more hm =>
        injection h with h
        obtain ⟨h1, h2, h3⟩ := ih hm hnd.2
        have hin : ∀ e ∈ more, e.1 ∈ rest.map (·.1) := by
          intro e he
          obtain ⟨-, s', hs', -⟩ := h2 e he
          exact List.mem_map.mpr ⟨_, hs', rfl⟩
        have hfresh : name ∉ more.map (·.1) := by
          intro hx
          obtain ⟨e, he, e1⟩ := List.mem_map.mp hx
          exact hnd.1 (e1 ▸ hin e he)
        by_cases hcm : cmds = []
        · rw [if_pos hcm] at h
          subst h
          refine ⟨h1, fun e he => ?_, ?_⟩
          · obtain ⟨a, s', hs', b⟩ := h2 e he
            exact ⟨a, s', by simp [hs'], b⟩
          · intro cfg s' hs'
            rcases List.mem_cons.mp hs' with e | hs'
            · injection e with e1 e2
              subst e1; subst e2
              exact ⟨cmds, hc, fun hx => absurd hcm hx, fun _ => hfresh⟩
            · exact h3 cfg s' hs'
        · rw [if_neg hcm] at h
          subst h
          refine ⟨?_, fun e he => ?_, ?_⟩
          · simp only [List.map_cons, List.nodup_cons]
            exact ⟨hfresh, h1⟩
          · rcases List.mem_cons.mp he with rfl | he
            · exact ⟨hcm, s, by simp, hc⟩
            · obtain ⟨a, s', hs', b⟩ := h2 e he
              exact ⟨a, s', by simp [hs'], b⟩
          · intro cfg s' hs'
            rcases List.mem_cons.mp hs' with e | hs'
            · injection e with e1 e2
              subst e1; subst e2
              exact ⟨cmds, hc, fun _ => by simp, fun hx => absurd hx hcm⟩
            · obtain ⟨cs, a, b, d⟩ := h3 cfg s' hs'
              refine ⟨cs, a, fun hx => by simp [b hx], fun hx => ?_⟩
              simp only [List.map_cons, List.mem_cons, not_or]
              refine ⟨?_, d hx⟩
              intro e
              exact hnd.1 (List.mem_map.mpr ⟨(cfg, s'), hs', e⟩)

theorem encoded_quoted {a : Str} (h : ' ' ∈ a) : ∃ w, EncodePOSIXShellArgument a = '"' :: w ++ ['"'] := by
  have : needsQuote a = true := by
    unfold needsQuote
    simp only [Bool.or_eq_true, List.any_eq_true, decide_eq_true_eq]
    exact .inl ⟨' ', h, by decide⟩
  exact ⟨backslashEscape a, by simp [EncodePOSIXShellArgument, this]⟩

theorem list_quoted {l : List Str} (hne : l ≠ []) (h : ∀ a ∈ l, ' ' ∈ a) :
    ∃ w, EncodePOSIXShellList l = '"' :: w ++ ['"'] := by
  induction l with
  | nil => exact absurd rfl hne
  | cons a l ih =>
    obtain ⟨w, hw⟩ := encoded_quoted (h a (by simp))
    cases l with
    | nil => exact ⟨w, hw⟩
    | cons b l =>
      obtain ⟨u, hu⟩ := ih (by simp) fun x hx => h x (by simp [hx])
      refine ⟨w ++ ['"'] ++ [' '] ++ '"' :: u, ?_⟩
      show EncodePOSIXShellArgument a ++ [' '] ++ EncodePOSIXShellList (b :: l) = _
      rw [hw, hu]
      simp

/-! ### The variables of a target -/

theorem seenByTarget_append {out : Str} {v w : MakeVars} {a b : List Str} (h : seenByTarget out v a = some w) :
    seenByTarget out v (a ++ b) = seenByTarget out w b := by
  induction a generalizing v with
  | nil =>
    injection h with h
    rw [h]
    rfl
  | cons l a ih =>
    rw [List.cons_append, seenByTarget]
    rw [seenByTarget] at h
    split at h
    · cases h
    · exact ih h

/-- The name of the variable for a configuration. -/
def pbVar (cfg : Str) : Str := c!"TARGET_POSTBUILDS_" ++ cfg

theorem table_read {out : Str} (ho : RuleName out) {implicit : List (Str × List Str)}
    (hn : ∀ e ∈ implicit, VarText (pbVar e.1) ∧ ∀ c ∈ e.1, isBlank c = false)
    (hc : ∀ e ∈ implicit, e.2 ≠ [] ∧ ∀ c ∈ e.2, ' ' ∈ c ∧ MakeTakes c) (v : MakeVars) :
    seenByTarget out v (implicit.map fun e => QuoteSpaces out ++ c!": TARGET_POSTBUILDS_" ++ e.1 ++ c!" := " ++
      EncodePOSIXShellList e.2 ++ ['\n']) =
      some ((implicit.map fun e => (pbVar e.1, EncodePOSIXShellList e.2)).reverse ++ v) := by
  induction implicit generalizing v with
  | nil => rfl
  | cons e l ih =>
    obtain ⟨h1, h2⟩ := hn e (by simp)
    obtain ⟨h3, h4⟩ := hc e (by simp)
    obtain ⟨w, hw⟩ := list_quoted h3 fun c hx => (h4 c hx).1
    have hchar : ∀ c ∈ EncodePOSIXShellList e.2, c ∉ c!"$#\n" := by
      intro c hx
      rcases encodedList_chars hx with ⟨a, ha, hca⟩ | rfl | rfl | rfl
      · exact (h4 a ha).2 c hca
      all_goals decide
    have hline := targetLine_of (v := v) (out := out) (n := pbVar e.1) (x := EncodePOSIXShellList e.2) ho h1
      (by simp [pbVar]) (by
        intro c hx
        rcases List.mem_append.mp hx with hx | hx
        · exact (by decide : ∀ c ∈ c!"TARGET_POSTBUILDS_", isBlank c = false) c hx
        · exact h2 c hx)
      (fun h => hchar _ h (by decide)) (fun h => hchar _ h (by decide))
      (by rw [hw, List.getLast?_concat]; simp) (by rw [hw]; simp [isBlank])
      (deep_plain _ fun h => hchar _ h (by decide))
    rw [List.map_cons, seenByTarget]
    have e0 : QuoteSpaces out ++ c!": TARGET_POSTBUILDS_" ++ e.1 ++ c!" := " ++ EncodePOSIXShellList e.2 ++ ['\n'] =
        QuoteSpaces out ++ c!": " ++ pbVar e.1 ++ c!" := " ++ EncodePOSIXShellList e.2 ++ ['\n'] := by
      simp [pbVar]
    rw [e0, hline]
    simp only [List.mem_singleton, if_true]
    rw [ih (fun x hx => hn x (by simp [hx])) (fun x hx => hc x (by simp [hx]))]
    simp

theorem aget_table {implicit : List (Str × List Str)} (hnd : (implicit.map (·.1)).Nodup) (v : MakeVars) (cfg : Str) :
    (∀ cmds, (cfg, cmds) ∈ implicit →
      aget ((implicit.map fun e => (pbVar e.1, EncodePOSIXShellList e.2)).reverse ++ v) (pbVar cfg) =
        some (EncodePOSIXShellList cmds)) ∧
    (cfg ∉ implicit.map (·.1) →
      aget ((implicit.map fun e => (pbVar e.1, EncodePOSIXShellList e.2)).reverse ++ v) (pbVar cfg) = aget v (pbVar cfg)) := by
  induction implicit generalizing v with
  | nil => simp
  | cons e l ih =>
    simp only [List.map_cons, List.nodup_cons] at hnd
    have e0 : ∀ w : MakeVars, ((e :: l).map fun e => (pbVar e.1, EncodePOSIXShellList e.2)).reverse ++ w =
        (l.map fun e => (pbVar e.1, EncodePOSIXShellList e.2)).reverse ++ ((pbVar e.1, EncodePOSIXShellList e.2) :: w) := by
      simp
    rw [e0]
    obtain ⟨i1, i2⟩ := ih hnd.2 ((pbVar e.1, EncodePOSIXShellList e.2) :: v)
    refine ⟨fun cmds h => ?_, fun h => ?_⟩
    · rcases List.mem_cons.mp h with rfl | h
      · rw [i2 hnd.1]
        simp [aget]
      · exact i1 cmds h
    · simp only [List.map_cons, List.mem_cons, not_or] at h
      rw [i2 h.2]
      have : pbVar e.1 ≠ pbVar cfg := by
        intro x
        exact h.1 (List.append_cancel_left x).symm
      simp [aget, this]

/-! ### Plain texts -/

theorem normBare_plain {n : Nat} {s : Str} (h : '$' ∉ s) : normBare n s = s := by
  induction s generalizing n with
  | nil => cases n <;> rfl
  | cons c s ih =>
    simp only [List.mem_cons, not_or] at h
    cases n with
    | zero => rfl
    | succ n =>
      rw [normBare, if_neg (fun x => h.1 x.1.symm), ih h.2]

theorem bracketRefs_plain {o cl : Char} {n : Nat} {s : Str} (h : '$' ∉ s) : bracketRefs o cl n s = [] := by
  induction s generalizing n with
  | nil => cases n <;> rfl
  | cons c s ih =>
    simp only [List.mem_cons, not_or] at h
    cases n with
    | zero => rfl
    | succ n => rw [bracketRefs, if_neg (fun x => h.1 x.1.symm), ih h.2]

theorem normalizeRefs_plain {s : Str} (h : '$' ∉ s) : normalizeRefs s = s := by
  unfold normalizeRefs
  simp only [normBare_plain h, bracketRefs_plain h, List.foldl_nil]

/-- A part of a command between blanks: its words, and no character that make or `eval` care about. -/
structure Bit (w : Str) (ws : List Str) : Prop where
  chars : ∀ c ∈ w, c ∉ c!" \t\n*?[$#"
  words : shellWords w = some ws

theorem bit_nil : Bit [] [] := ⟨by simp, words_nil⟩

theorem bit_plain {w : Str} (h : PlainWord w) : Bit w [w] := by
  refine ⟨fun c hc hx => ?_, words_plain h⟩
  obtain ⟨h1, h2⟩ := h.2 c hc
  simp only [List.mem_cons, List.not_mem_nil, or_false, not_or] at h2
  simp only [List.mem_cons, List.not_mem_nil, or_false] at hx
  rcases hx with rfl | rfl | rfl | rfl | rfl | rfl | rfl | rfl
  · exact h2.1 rfl
  · exact h2.2.1 rfl
  all_goals exact absurd h1 (by decide)

/-- The text and the words of a command. -/
inductive Bits : List Str → List (List Str) → Prop
  | nil : Bits [] []
  | cons {w : Str} {ws : List Str} {l : List Str} {xs : List (List Str)} : Bit w ws → Bits l xs → Bits (w :: l) (ws :: xs)

theorem Bits.append {a b : List Str} {x y : List (List Str)} (ha : Bits a x) (hb : Bits b y) : Bits (a ++ b) (x ++ y) := by
  induction ha with
  | nil => exact hb
  | cons h _ ih => exact .cons h ih

theorem bits_plain {l : List Str} (h : ∀ w ∈ l, PlainWord w) : Bits l (l.map ([·])) := by
  induction l with
  | nil => exact .nil
  | cons w l ih => exact .cons (bit_plain (h w (by simp))) (ih fun x hx => h x (by simp [hx]))

theorem Bits.chars {l : List Str} {xs : List (List Str)} (h : Bits l xs) : ∀ w ∈ l, ∀ c ∈ w, c ∉ c!" \t\n*?[$#" := by
  induction h with
  | nil => simp
  | cons h _ ih =>
    intro w hw
    rcases List.mem_cons.mp hw with rfl | hw
    · exact h.chars
    · exact ih w hw

theorem Bits.words {l : List Str} {xs : List (List Str)} (h : Bits l xs) :
    shellWords (joinWith [' '] l) = some xs.flatten := by
  induction h with
  | nil => rfl
  | @cons w ws l xs h hl ih =>
    cases hl with
    | nil => simpa [joinWith] using h.words
    | cons h2 hl2 =>
      have := words_append h.words ih
      rw [List.flatten_cons, ← this]
      show shellWords (w ++ [' '] ++ joinWith [' '] _) = _
      rw [List.append_assoc]
      rfl

theorem Bits.filtered {l : List Str} {xs : List (List Str)} (h : Bits l xs) :
    ∃ ys, Bits (l.filter (· ≠ [])) ys ∧ ys.flatten = xs.flatten := by
  induction h with
  | nil => exact ⟨[], .nil, rfl⟩
  | @cons w ws l xs h hl ih =>
    obtain ⟨ys, h1, h2⟩ := ih
    by_cases hw : w = []
    · subst hw
      have : ws = [] := by
        have := h.words
        rw [words_nil] at this
        injection this with this
        exact this.symm
      subst this
      exact ⟨ys, by simpa using h1, by simpa using h2⟩
    · exact ⟨ws :: ys, by simpa [hw] using Bits.cons h h1, by simp [h2]⟩

theorem Bits.text {l : List Str} {xs : List (List Str)} (h : Bits l xs) :
    ∀ c ∈ joinWith [' '] l, c ∉ c!"\t\n*?[$#" := by
  intro c hc
  rcases mem_joinedTexts hc with h1 | ⟨w, hw, h1⟩
  · rw [List.mem_singleton.mp h1]; decide
  · have := h.chars w hw c h1
    simp only [List.mem_cons, not_or] at this ⊢
    exact this.2

theorem Bits.eval {l : List Str} {xs : List (List Str)} (h : Bits l xs) :
    evalWords (joinWith [' '] l) = some xs.flatten := by
  have hc := h.text
  unfold evalWords
  rw [if_neg]
  · have hmap : ((joinWith [' '] l).map fun c => if c = '\t' ∨ c = '\n' then ' ' else c) = joinWith [' '] l := by
      conv => rhs; rw [← List.map_id (joinWith [' '] l)]
      refine List.map_congr_left fun c hm => ?_
      rw [if_neg]
      · rfl
      · rintro (rfl | rfl)
        · exact hc _ hm (by decide)
        · exact hc _ hm (by decide)
    by_cases hne : l = []
    · subst hne
      cases h
      decide
    · have hs : splitOn ' ' (joinWith [' '] l) = l :=
        splitOn_joinWith hne fun w hw hb => h.chars w hw _ hb (by decide)
      rw [fields, hmap, hs]
      obtain ⟨ys, h1, h2⟩ := h.filtered
      rw [h1.words, h2]
  · simp only [List.any_eq_true, decide_eq_true_eq, not_exists, not_and]
    intro c hm hx
    refine hc c hm ?_
    revert hx
    simp only [List.mem_cons, List.not_mem_nil, or_false]
    tauto

/-- A command that is a text of parts. -/
def Spelled (cmd : Str) (words : List Str) : Prop := ∃ l xs, Bits l xs ∧ cmd = joinWith [' '] l ∧ words = xs.flatten

theorem Spelled.words {c : Str} {ws : List Str} (h : Spelled c ws) : shellWords c = some ws := by
  obtain ⟨l, xs, h, rfl, rfl⟩ := h
  exact h.words

theorem Spelled.eval {c : Str} {ws : List Str} (h : Spelled c ws) : evalWords c = some ws := by
  obtain ⟨l, xs, h, rfl, rfl⟩ := h
  exact h.eval

theorem Spelled.takes {c : Str} {ws : List Str} (h : Spelled c ws) : MakeTakes c := by
  obtain ⟨l, xs, h, rfl, rfl⟩ := h
  intro c hc hx
  have := h.text c hc
  revert hx this
  simp only [List.mem_cons, List.not_mem_nil, or_false]
  tauto

/-- The word that names a target in what is said about it. -/
theorem bit_named {what n : Str} (hw : ∀ c ∈ what, activePlain c = false ∧ c ∉ [' ', '\t', '\\', '\'', '"'])
    (hne : what ≠ []) (hn : PlainWord n) :
    Bit (what ++ c!"\\(" ++ n ++ c!"\\)") [what ++ c!"(" ++ n ++ c!")"] := by
  have hp : PlainWord what := ⟨hne, hw⟩
  refine ⟨?_, ?_⟩
  · intro c hc
    simp only [List.mem_append] at hc
    rcases hc with ((hc | hc) | hc) | hc
    · exact (bit_plain hp).chars c hc
    · revert c; decide
    · exact (bit_plain hn).chars c hc
    · revert c; decide
  · refine shellWords_iff.mpr ⟨some (what ++ c!"(" ++ n ++ c!")"), [], ?_, rfl⟩
    rw [lexRun_append, lexRun_append, lexRun_append, lex_word false hp, Option.bind_some]
    have h1 : lexRun false ⟨.plain, some what, []⟩ c!"\\(" = some ⟨.plain, some (what ++ ['(']), []⟩ := by
      simp [lexRun, lexStep, Lex.push]
    rw [h1, Option.bind_some, lex_plain_word false hn.2]
    simp [lexRun, lexStep, Lex.push]

theorem spelled_announce {what n : Str} (hw : ∀ c ∈ what, activePlain c = false ∧ c ∉ [' ', '\t', '\\', '\'', '"'])
    (hne : what ≠ []) (hn : PlainWord n) :
    Spelled (c!"echo " ++ what ++ c!"\\(" ++ n ++ c!"\\)") [c!"echo", what ++ c!"(" ++ n ++ c!")"] := by
  refine ⟨[c!"echo", what ++ c!"\\(" ++ n ++ c!"\\)"], [[c!"echo"], [what ++ c!"(" ++ n ++ c!")"]],
    .cons (bit_plain (by unfold PlainWord; decide)) (.cons (bit_named hw hne hn) .nil), ?_, rfl⟩
  simp [joinWith]

end Gyp
