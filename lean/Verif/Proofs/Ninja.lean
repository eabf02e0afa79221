import Verif.Model.NinjaSyntax
import Verif.Spec.Ninja
namespace Gyp
open Spec

/-! ### Token states equal up to skipped blanks -/

def LineEq (s t : NLex) : Prop :=
  s = t ∨ (s.cur = none ∧ t.cur = none ∧ s.done = t.done ∧
    (s.mode = .normal ∨ s.mode = .cont) ∧ (t.mode = .normal ∨ t.mode = .cont))

theorem LineEq.flush {s t : NLex} (h : LineEq s t) : s.flush = t.flush := by
  rcases h with rfl | ⟨h1, h2, h3, _⟩
  · rfl
  · simp [NLex.flush, h1, h2, h3]

theorem LineEq.step {s t : NLex} (h : LineEq s t) (c : Char) :
    LineEq (ninjaStep s c) (ninjaStep t c) := by
  rcases h with rfl | ⟨h1, h2, h3, h4, h5⟩
  · exact Or.inl rfl
  · obtain ⟨sm, sc, sd⟩ := s
    obtain ⟨tm, tc, td⟩ := t
    dsimp only at h1 h2 h3 h4 h5
    subst h1 h2 h3
    by_cases hc : c = ' '
    · subst hc
      right
      rcases h4 with rfl | rfl <;> rcases h5 with rfl | rfl <;>
        simp [ninjaStep, ninjaPlain, NLex.flush]
    · left
      rcases h4 with rfl | rfl <;> rcases h5 with rfl | rfl <;> simp [ninjaStep, hc]

theorem LineEq.foldl {s t : NLex} (h : LineEq s t) (u : Str) :
    LineEq (u.foldl ninjaStep s) (u.foldl ninjaStep t) := by
  induction u generalizing s t with
  | nil => exact h
  | cons c cs ih => exact ih (h.step c)

theorem LineEq.trans {s t u : NLex} (h : LineEq s t) (h' : LineEq t u) : LineEq s u := by
  rcases h with rfl | ⟨a1, a2, a3, a4, a5⟩
  · exact h'
  · rcases h' with rfl | ⟨b1, b2, b3, b4, b5⟩
    · exact Or.inr ⟨a1, a2, a3, a4, a5⟩
    · exact Or.inr ⟨a1, b2, a3.trans b3, a4, b5⟩

/-- A line may begin in this state. -/
def LineStart (s : NLex) : Prop := s.mode = .cont ∨ (s.mode = .normal ∧ s.cur = none)

theorem lead_skip {s : NLex} (h : LineStart s) (n : Nat) :
    (List.replicate n ' ').foldl ninjaStep s = s := by
  induction n with
  | zero => rfl
  | succ n ih =>
    rw [List.replicate_succ, List.foldl_cons]
    have : ninjaStep s ' ' = s := by
      obtain ⟨m, c, d⟩ := s
      rcases h with h | ⟨h1, h2⟩
      · dsimp only at h; subst h; simp [ninjaStep]
      · dsimp only at h1 h2; subst h1 h2; simp [ninjaStep, ninjaPlain, NLex.flush]
    rw [this, ih]

/-! ### Counting dollars -/

/-- Are all of the first `i` characters dollars (and is there one)? -/
def allDollars (text : Str) (i : Nat) : Prop := 0 < i ∧ ∀ j < i, text[j]? = some '$'

theorem countDollars_succ (text : Str) (j : Nat) :
    countDollars text (j + 2) =
      if text[j + 1]? = some '$' then 1 + countDollars text (j + 1) else 0 := rfl

theorem plain_dollar (s : NLex) (c : Char) (h : s.mode ≠ .dollar) :
    (ninjaPlain s c).mode = .dollar ↔ c = '$' := by
  unfold ninjaPlain
  by_cases h1 : c = ' '
  · subst h1; simp
  by_cases h2 : c = ':'
  · subst h2; simp
  by_cases h3 : c = '|'
  · subst h3; simp
  by_cases h4 : c = '\n'
  · subst h4; simp
  by_cases h5 : c = '$'
  · subst h5; simp
  · simp [h1, h2, h3, h4, h5, NLex.push]

theorem step_dollar (s : NLex) (c : Char) :
    (ninjaStep s c).mode = .dollar ↔ (s.mode ≠ .dollar ∧ c = '$') := by
  obtain ⟨m, cur, d⟩ := s
  cases m with
  | normal => simp [ninjaStep, plain_dollar]
  | dollar =>
    simp only [ninjaStep]
    by_cases h1 : c = '$' ∨ c = ' ' ∨ c = ':'
    · simp [h1, NLex.push]
    · by_cases h2 : c = '\n'
      · subst h2; simp
      · simp [h1, h2, NLex.push]
  | cont =>
    simp only [ninjaStep]
    by_cases h : c = ' '
    · subst h; simp
    · simp [h, plain_dollar]
  | bar =>
    simp only [ninjaStep]
    by_cases h : c = '|'
    · subst h; simp
    · simp [h, plain_dollar]

open Classical in
/-- After the first `i` characters the reader is inside an escape exactly when the
number of dollars directly in front of index `i` is odd; the code's count misses
the one at index 0. -/
theorem mode_dollar_iff (s : NLex) (hs : s.mode ≠ .dollar) (text : Str) (i : Nat)
    (hi : i ≤ text.length) :
    ((text.take i).foldl ninjaStep s).mode = .dollar ↔
      (countDollars text i + (if allDollars text i then 1 else 0)) % 2 = 1 := by
  induction i with
  | zero =>
    have : ¬ allDollars text 0 := fun h => absurd h.1 (by omega)
    simp [this, countDollars, countDollarsFrom, hs]
  | succ i ih =>
    have ih := ih (by omega)
    have hlt : i < text.length := by omega
    have htake : text.take (i + 1) = text.take i ++ [text[i]] := by
      rw [List.take_add_one, List.getElem?_eq_getElem hlt]; rfl
    rw [htake, List.foldl_append, List.foldl_cons, List.foldl_nil, step_dollar]
    have hget : text[i]? = some text[i] := List.getElem?_eq_getElem hlt
    have hall : allDollars text (i + 1) ↔ ((i = 0 ∨ allDollars text i) ∧ text[i] = '$') := by
      constructor
      · intro h
        refine ⟨?_, ?_⟩
        · rcases Nat.eq_zero_or_pos i with h0 | h0
          · exact Or.inl h0
          · exact Or.inr ⟨h0, fun j hj => h.2 j (by omega)⟩
        · have := h.2 i (by omega)
          rw [hget] at this
          exact Option.some.inj this
      · rintro ⟨h1, h2⟩
        refine ⟨by omega, fun j hj => ?_⟩
        rcases Nat.lt_or_ge j i with hji | hji
        · rcases h1 with rfl | h1
          · omega
          · exact h1.2 j hji
        · have : j = i := by omega
          subst this
          rw [hget, h2]
    cases i with
    | zero =>
      have hs0 : ((List.take 0 text).foldl ninjaStep s).mode ≠ .dollar := by simpa using hs
      have h0 : countDollars text (0 + 1) = 0 := rfl
      rw [h0]
      by_cases hd : text[0] = '$'
      · have := hall.mpr ⟨Or.inl rfl, hd⟩
        simp only [this, if_true, hd, and_true]
        simpa using hs0
      · have : ¬ allDollars text (0 + 1) := fun h => hd (hall.mp h).2
        simp only [this, if_false, hd, and_false]
        decide
    | succ j =>
      rw [countDollars_succ]
      by_cases hd : text[j + 1] = '$'
      · rw [if_pos (by rw [hget, hd])]
        by_cases ha : allDollars text (j + 1)
        · have := hall.mpr ⟨Or.inr ha, hd⟩
          simp only [ha, this, if_true, hd, and_true] at ih ⊢
          rw [ne_eq, ih]; omega
        · have : ¬ allDollars text (j + 1 + 1) := fun h => by
            rcases (hall.mp h).1 with h | h
            · omega
            · exact ha h
          simp only [ha, this, if_false, hd, and_true] at ih ⊢
          rw [ne_eq, ih]; omega
      · have : ¬ allDollars text (j + 1 + 1) := fun h => hd (hall.mp h).2
        rw [if_neg (by rw [hget]; exact fun h => hd (Option.some.inj h))]
        simp only [this, if_false, hd, and_false]
        decide

theorem searchLeft_none {text : Str} {n : Nat} (h : searchLeft text n = none) :
    ∀ i < n, ¬ (text[i]? = some ' ' ∧ countDollars text i % 2 = 0) := by
  induction n with
  | zero => intro i hi; omega
  | succ n ih =>
    unfold searchLeft at h
    by_cases hc : text[n]? = some ' ' ∧ countDollars text n % 2 = 0
    · rw [if_pos hc] at h; cases h
    · rw [if_neg hc] at h
      intro i hi
      rcases Nat.lt_or_ge i n with h' | h'
      · exact ih h i h'
      · have : i = n := by omega
        subst this; exact hc

theorem searchLeft_rightmost {text : Str} {n i : Nat} (h : searchLeft text n = some i) :
    ∀ j, i < j → j < n → ¬ (text[j]? = some ' ' ∧ countDollars text j % 2 = 0) := by
  induction n with
  | zero => cases h
  | succ n ih =>
    unfold searchLeft at h
    by_cases hc : text[n]? = some ' ' ∧ countDollars text n % 2 = 0
    · rw [if_pos hc] at h; cases h; intro j h1 h2; omega
    · rw [if_neg hc] at h
      intro j h1 h2
      rcases Nat.lt_or_ge j n with h' | h'
      · exact ih h j h1 h'
      · have : j = n := by omega
        subst this; exact hc

theorem breakAt_even {text : Str} {n i : Nat} (h : breakAt text n = some i) :
    countDollars text i % 2 = 0 := by
  unfold breakAt at h
  cases hl : searchLeft text n with
  | some k => rw [hl] at h; cases h; exact (searchLeft_spec hl).2.2
  | none => rw [hl] at h; exact (searchRight_spec h).2.2

/-- If the chosen blank is followed by another one, it was the last in range. -/
theorem breakAt_double {text : Str} {n i : Nat} (h : breakAt text n = some i)
    (hn : text[i + 1]? = some ' ') : n ≤ i + 1 := by
  have hsp := breakAt_space h
  have heven : countDollars text (i + 1) % 2 = 0 := by
    cases i with
    | zero => rfl
    | succ j => rw [countDollars_succ, hsp]; simp
  unfold breakAt at h
  cases hl : searchLeft text n with
  | some k =>
    rw [hl] at h; cases h
    rcases Nat.lt_or_ge (i + 1) n with h' | h'
    · exact absurd ⟨hn, heven⟩ (searchLeft_rightmost hl (i + 1) (by omega) h')
    · exact h'
  | none =>
    rw [hl] at h
    have := (searchRight_spec h).1
    omega

theorem text_split {text : Str} {i : Nat} (h : text[i]? = some ' ') :
    text = text.take i ++ ' ' :: text.drop (i + 1) := by
  obtain ⟨hlt, hg⟩ := List.getElem?_eq_some_iff.mp h
  conv_lhs => rw [← List.take_append_drop i text]
  rw [List.drop_eq_getElem_cons hlt, hg]

theorem allDollars_take {text : Str} {i : Nat} (h : allDollars text i) (hi : i ≤ text.length) :
    text.take i = List.replicate i '$' := by
  apply List.ext_getElem?
  intro j
  by_cases hj : j < i
  · rw [List.getElem?_take_of_lt hj, h.2 j hj, List.getElem?_replicate_of_lt hj]
  · rw [List.getElem?_eq_none (by simp; omega), List.getElem?_eq_none (by simp; omega)]

/-- The wrapped text has the tokens of the unwrapped one. -/
theorem lineLoop_tokens (width k n : Nat) (text : Str) (m : Nat) (s : NLex)
    (hs : LineStart s) (hnl : '\n' ∉ text)
    (hm : m ≤ k) (hn : n = width - k - 3)
    (hrun : ¬ List.replicate n '$' <:+: text) :
    LineEq ((lineLoop width (List.replicate k ' ') (List.replicate m ' ') text).foldl ninjaStep s)
      ((text ++ ['\n']).foldl ninjaStep s) := by
  induction hlen : text.length using Nat.strongRecOn generalizing text m s with
  | _ len ih =>
    rw [lineLoop]
    have hplain : LineEq ((List.replicate m ' ' ++ text ++ ['\n']).foldl ninjaStep s)
        ((text ++ ['\n']).foldl ninjaStep s) := by
      rw [List.append_assoc, List.foldl_append, lead_skip hs]
      exact Or.inl rfl
    by_cases hw : (List.replicate m ' ').length + text.length > width
    case neg => rw [if_neg hw]; exact hplain
    rw [if_pos hw]
    split
    case h_1 => exact hplain
    case h_2 i hb =>
    have hsp := breakAt_space hb
    have hsplit := text_split hsp
    have hi : i < text.length := (List.getElem?_eq_some_iff.mp hsp).1
    have hdrop_nl : '\n' ∉ text.drop (i + 1) := fun h => hnl (List.mem_of_mem_drop h)
    have hdrop_run : ¬ List.replicate n '$' <:+: text.drop (i + 1) :=
      fun h => hrun (h.trans (List.drop_suffix _ _).isInfix)
    have hdl : (text.drop (i + 1)).length < len := by rw [List.length_drop]; omega
    have hsd : s.mode ≠ .dollar := by
      rcases hs with h | h
      · simp [h]
      · simp [h.1]
    -- state in front of the blank
    obtain ⟨s1, hs1⟩ : ∃ s1, (text.take i).foldl ninjaStep s = s1 := ⟨_, rfl⟩
    have hL : ∀ u, (List.replicate m ' ' ++ text.take i ++ c!" $\n" ++ u).foldl ninjaStep s =
        u.foldl ninjaStep (ninjaStep (ninjaStep (ninjaStep s1 ' ') '$') '\n') := by
      intro u
      rw [List.append_assoc, List.append_assoc, List.foldl_append, lead_skip hs,
        List.foldl_append, hs1]
      rfl
    have hR : (text ++ ['\n']).foldl ninjaStep s =
        (text.drop (i + 1) ++ ['\n']).foldl ninjaStep (ninjaStep s1 ' ') := by
      conv_lhs => rw [hsplit, List.append_assoc, List.foldl_append, hs1]
      rfl
    rw [hL, hR]
    obtain ⟨md, cur, dn⟩ := s1
    have key : ∀ s3, ninjaStep (ninjaStep (ninjaStep ⟨md, cur, dn⟩ ' ') '$') '\n' = s3 →
        s3.mode = .cont →
        LineEq ((text.drop (i + 1) ++ ['\n']).foldl ninjaStep s3)
          ((text.drop (i + 1) ++ ['\n']).foldl ninjaStep (ninjaStep ⟨md, cur, dn⟩ ' ')) →
        LineEq ((lineLoop width (List.replicate k ' ') (List.replicate k ' ')
          (text.drop (i + 1))).foldl ninjaStep
            (ninjaStep (ninjaStep (ninjaStep ⟨md, cur, dn⟩ ' ') '$') '\n'))
          ((text.drop (i + 1) ++ ['\n']).foldl ninjaStep (ninjaStep ⟨md, cur, dn⟩ ' ')) := by
      intro s3 h3 hc hfin
      rw [h3]
      exact (ih _ hdl _ k s3 (Or.inl hc) hdrop_nl (Nat.le_refl k) hdrop_run rfl).trans hfin
    cases md with
    | normal =>
      apply key ⟨.cont, none, (NLex.mk .normal cur dn).flush⟩
      · simp [ninjaStep, ninjaPlain]
      · rfl
      · apply LineEq.foldl
        right
        simp [ninjaStep, ninjaPlain]
    | cont =>
      apply key ⟨.cont, cur, dn⟩
      · simp [ninjaStep, ninjaPlain]
      · rfl
      · apply LineEq.foldl
        left
        simp [ninjaStep]
    | bar =>
      apply key ⟨.cont, none, dn ++ [.pipe]⟩
      · simp [ninjaStep, ninjaPlain, NLex.flush]
      · rfl
      · apply LineEq.foldl
        right
        simp [ninjaStep, ninjaPlain, NLex.flush]
    | dollar =>
      have hd : ((text.take i).foldl ninjaStep s).mode = .dollar := by rw [hs1]
      classical
      rw [mode_dollar_iff s hsd text i (by omega)] at hd
      have heven := breakAt_even hb
      have hall : allDollars text i := by
        by_contra hc
        rw [if_neg hc] at hd
        omega
      have hnext : text[i + 1]? ≠ some ' ' := by
        intro h
        have h1 := breakAt_double hb h
        apply hrun
        have hpre : List.replicate i '$' <:+: text := by
          rw [← allDollars_take hall (by omega)]
          exact (List.take_prefix _ _).isInfix
        simp only [List.length_replicate] at h1
        have hle : n ≤ i := by omega
        refine List.IsInfix.trans ?_ hpre
        refine ⟨[], List.replicate (i - n) '$', ?_⟩
        simp [List.replicate_append_replicate]
        omega
      apply key ⟨.cont, some (cur.getD [] ++ [.lit ' ']), dn⟩
      · simp [ninjaStep, ninjaPlain, NLex.push]
      · rfl
      · have h2 : ninjaStep ⟨.dollar, cur, dn⟩ ' ' =
            ⟨.normal, some (cur.getD [] ++ [.lit ' ']), dn⟩ := by
          simp [ninjaStep, NLex.push]
        rw [h2]
        cases hr : text.drop (i + 1) with
        | nil => exact Or.inl (by simp [ninjaStep])
        | cons c cs =>
          have hc : c ≠ ' ' := by
            rintro rfl
            apply hnext
            have := congrArg (fun l => l[0]?) hr
            simpa [List.getElem?_drop] using this
          rw [List.cons_append, List.foldl_cons, List.foldl_cons]
          exact Or.inl (by simp [ninjaStep, hc])

/-! ### Values -/

theorem valueStep_acc (m : VMode) (acc : List Piece) (u : Str) :
    u.foldl valueStep (m, acc) =
      ((u.foldl valueStep (m, [])).1, acc ++ (u.foldl valueStep (m, [])).2) := by
  induction u generalizing m acc with
  | nil => simp
  | cons c cs ih =>
    rw [List.foldl_cons, List.foldl_cons]
    have : valueStep (m, acc) c = ((valueStep (m, []) c).1, acc ++ (valueStep (m, []) c).2) := by
      have hh : ∀ (P : Prop) [Decidable P] (a b : VMode × List Piece) (a' b' : VMode × List Piece),
          a = (a'.1, acc ++ a'.2) → b = (b'.1, acc ++ b'.2) →
          (if P then a else b) = ((if P then a' else b').1, acc ++ (if P then a' else b').2) := by
        intro P _ a b a' b' h1 h2
        by_cases hP : P <;> simp [hP, h1, h2]
      cases m <;> simp only [valueStep] <;> repeat' (first | apply hh | simp)
    rw [this, ih, ih (valueStep (m, []) c).1 (valueStep (m, []) c).2]
    simp

/-- The wrapped text has the value of the unwrapped one. -/
theorem lineLoop_value (width k : Nat) (lead text : Str) (hnl : '\n' ∉ text)
    (hdd : ¬ [' ', ' '] <:+: text) (s : VMode × List Piece) (s0 : VMode × List Piece)
    (hs : lead.foldl valueStep s0 = s)
    (hfirst : s.1 ≠ .cont ∨ text.head? ≠ some ' ') :
    (lineLoop width (List.replicate k ' ') lead text).foldl valueStep s0 =
      (text ++ ['\n']).foldl valueStep s := by
  induction hlen : text.length using Nat.strongRecOn generalizing text lead s s0 with
  | _ len ih =>
    rw [lineLoop]
    have hplain : (lead ++ text ++ ['\n']).foldl valueStep s0 =
        (text ++ ['\n']).foldl valueStep s := by
      rw [List.append_assoc, List.foldl_append, hs]
    by_cases hw : lead.length + text.length > width
    case neg => rw [if_neg hw]; exact hplain
    rw [if_pos hw]
    split
    case h_1 => exact hplain
    case h_2 i hb =>
    have hsp := breakAt_space hb
    have hsplit := text_split hsp
    have hi : i < text.length := (List.getElem?_eq_some_iff.mp hsp).1
    have hdrop_nl : '\n' ∉ text.drop (i + 1) := fun h => hnl (List.mem_of_mem_drop h)
    have hdrop_dd : ¬ [' ', ' '] <:+: text.drop (i + 1) :=
      fun h => hdd (h.trans (List.drop_suffix _ _).isInfix)
    have hdl : (text.drop (i + 1)).length < len := by rw [List.length_drop]; omega
    have hhead : (text.drop (i + 1)).head? ≠ some ' ' := by
      intro h
      apply hdd
      cases hr : text.drop (i + 1) with
      | nil => rw [hr] at h; cases h
      | cons c cs =>
        rw [hr] at h
        cases h
        rw [hr] at hsplit
        exact ⟨text.take i, cs, (by simp : _ = text.take i ++ ' ' :: ' ' :: cs).trans hsplit.symm⟩
    obtain ⟨s1, hs1⟩ : ∃ s1, (text.take i).foldl valueStep s = s1 := ⟨_, rfl⟩
    have hL : ∀ u, (lead ++ text.take i ++ c!" $\n" ++ u).foldl valueStep s0 =
        u.foldl valueStep (valueStep (valueStep (valueStep s1 ' ') '$') '\n') := by
      intro u
      rw [List.append_assoc, List.append_assoc, List.foldl_append, hs,
        List.foldl_append, hs1]
      rfl
    have hR : (text ++ ['\n']).foldl valueStep s =
        (text.drop (i + 1) ++ ['\n']).foldl valueStep (valueStep s1 ' ') := by
      conv_lhs => rw [hsplit, List.append_assoc, List.foldl_append, hs1]
      rfl
    have hs1c : s1.1 ≠ .cont := by
      rw [← hs1]
      have hnc : ∀ (u : Str) (s : VMode × List Piece), '\n' ∉ u → s.1 ≠ .cont →
          (u.foldl valueStep s).1 ≠ .cont := by
        intro u
        induction u with
        | nil => intro s _ h; exact h
        | cons c cs ih =>
          intro s hn h
          simp only [List.mem_cons, not_or] at hn
          apply ih _ hn.2
          obtain ⟨m, acc⟩ := s
          cases m with
          | normal => simp only [valueStep]; split <;> simp
          | dollar =>
            simp only [valueStep]
            split
            · simp
            · rw [if_neg (fun e => hn.1 e.symm)]; simp
          | cont => exact absurd rfl h
      have hnlt : '\n' ∉ text.take i := fun h => hnl (List.mem_of_mem_take h)
      rcases hfirst with hf | hf
      · exact hnc _ _ hnlt hf
      · cases hti : text.take i with
        | nil =>
          -- then the blank is the first character
          exfalso
          rw [hti] at hsplit
          apply hf
          rw [hsplit]; rfl
        | cons c cs =>
          rw [hti] at hnlt
          have hc : c ≠ ' ' := by
            rintro rfl
            apply hf
            rw [hsplit, hti]; rfl
          have hcn : c ≠ '\n' := by rintro rfl; simp at hnlt
          rw [List.foldl_cons]
          apply hnc _ _ (fun h => hnlt (by simp [h]))
          obtain ⟨m, acc⟩ := s
          cases m with
          | normal => simp only [valueStep]; split <;> simp
          | dollar =>
            simp only [valueStep, hcn, if_false]
            split <;> simp
          | cont => simp only [valueStep, hc, if_false]; split <;> simp
    rw [hL, hR]
    have hlead : ∀ (acc : List Piece) (k : Nat),
        (List.replicate k ' ').foldl valueStep (.cont, acc) = (.cont, acc) := by
      intro acc k
      induction k with
      | zero => rfl
      | succ k ih => rw [List.replicate_succ, List.foldl_cons]; simpa [valueStep] using ih
    have h2 : ∃ acc, valueStep s1 ' ' = (.normal, acc) := by
      obtain ⟨m, acc⟩ := s1
      cases m with
      | normal => exact ⟨acc ++ [.lit ' '], by simp [valueStep]⟩
      | dollar => exact ⟨acc ++ [.lit ' '], by simp [valueStep]⟩
      | cont => exact absurd rfl hs1c
    obtain ⟨acc, h2⟩ := h2
    have h3 : valueStep (valueStep (.normal, acc) '$') '\n' = (.cont, acc) := by
      simp [valueStep]
    rw [h2, h3]
    rw [ih _ hdl (List.replicate k ' ') _ hdrop_nl hdrop_dd (.cont, acc) (.cont, acc)
      (hlead acc k) (Or.inr hhead) rfl]
    cases hr : text.drop (i + 1) with
    | nil => simp [valueStep]
    | cons c cs =>
      have hc : c ≠ ' ' := by
        rintro rfl
        rw [hr] at hhead
        exact hhead rfl
      rw [List.cons_append, List.foldl_cons, List.foldl_cons]
      simp [valueStep, hc]

end Gyp
