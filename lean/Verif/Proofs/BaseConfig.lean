import Verif.Spec.BaseConfig
import Verif.Props.ConfigGypi
/- Lemmas for C83: what the three replacements make of a configuration file. -/
namespace Gyp
open Spec

/-! ### The replacements, piece by piece -/

theorem stripComments_plain {a : Str} (h : ∀ c ∈ a, c ≠ '#') (r : Str) :
    stripComments (a ++ r) = a ++ stripComments r := by
  induction a with
  | nil => rfl
  | cons c a ih =>
    rw [List.cons_append, stripComments, if_neg (h c (by simp)), ih fun x hx => h x (by simp [hx])]
    rfl

theorem dropWhile_append_all {p : Char → Bool} {a : Str} (h : ∀ c ∈ a, p c = true) (r : Str) :
    (a ++ r).dropWhile p = r.dropWhile p := by
  induction a with
  | nil => rfl
  | cons c a ih =>
    rw [List.cons_append, List.dropWhile_cons, if_pos (h c (by simp))]
    exact ih fun x hx => h x (by simp [hx])

theorem stripComments_comment {t : Str} (h : ∀ c ∈ t, jsLineEnd c = false) (r : Str) :
    stripComments ('#' :: (t ++ '\n' :: r)) = '\n' :: stripComments r := by
  rw [stripComments, if_pos rfl, dropWhile_append_all (by intro c hc; simp [h c hc]), List.dropWhile_cons,
    if_neg (by decide), stripComments, if_neg (by decide)]

theorem joinStrings_plain {a : Str} (h : ∀ c ∈ a, c ≠ '\'') (r : Str) :
    joinStrings (a ++ r) = a ++ joinStrings r := by
  induction a with
  | nil => rfl
  | cons c a ih =>
    rw [List.cons_append, joinStrings, if_neg fun x => h c (by simp) x.1, ih fun x hx => h x (by simp [hx])]
    rfl

theorem blank_space {c : Char} (h : BlankChar c) : jsSpace c = true := by
  rcases h with h | h | h | h <;> (subst h; decide)

theorem joinStrings_break {b : Str} (h : CfgBreak b) (r : Str) :
    joinStrings ('\'' :: (b ++ '\'' :: r)) = joinStrings r := by
  have e : (b ++ '\'' :: r).dropWhile jsSpace = '\'' :: r := by
    rw [dropWhile_append_all fun c hc => blank_space (h.2 c hc), List.dropWhile_cons, if_neg (by decide)]
  rw [joinStrings, if_pos]
  · rw [e]; rfl
  · refine ⟨rfl, ?_, by rw [e]; rfl⟩
    obtain ⟨h, -⟩ := h
    cases b with
    | nil => simp at h
    | cons c b =>
      simp only [List.head?_cons, Option.some.injEq] at h
      rcases h with rfl | rfl <;> simp [jsLineEnd]

theorem joinStrings_quote {r : Str} (h : r.head?.any jsLineEnd = false ∨ (r.dropWhile jsSpace).head? ≠ some '\'') :
    joinStrings ('\'' :: r) = '\'' :: joinStrings r := by
  rw [joinStrings, if_neg]
  rintro ⟨-, h1, h2⟩
  rcases h with h | h
  · rw [h] at h1; cases h1
  · exact h h2

theorem Spec.CfgChar.lineEnd {c : Char} (h : CfgChar c) : jsLineEnd c = false := by
  obtain ⟨-, -, -, -, h1, h2, h3⟩ := h
  simp only [jsLineEnd, Bool.or_eq_false_iff, decide_eq_false_iff_not]
  refine ⟨⟨⟨?_, ?_⟩, h2⟩, h3⟩ <;> (rintro rfl; revert h1; decide)

theorem replaceChar_nil (c : Char) (n : Str) : replaceChar c n [] = [] := rfl

theorem replaceChar_append (c : Char) (n a b : Str) :
    replaceChar c n (a ++ b) = replaceChar c n a ++ replaceChar c n b := by
  simp [replaceChar]

theorem replaceChar_lacking {c : Char} {a : Str} (n : Str) (h : ∀ x ∈ a, x ≠ c) : replaceChar c n a = a := by
  induction a with
  | nil => rfl
  | cons x a ih =>
    have e : x :: a = [x] ++ a := rfl
    rw [e, replaceChar_append, ih fun y hy => h y (by simp [hy])]
    simp [replaceChar, h x (by simp)]

/-! ### The parts of a file -/

/-- The whole of a text. -/
def wholeText (first : Str) (more : List (Str × Str)) : Str := first ++ (more.map Prod.snd).flatten

/-- Without comments. -/
def noComment : CfgTok → Str
  | .comment _ => c!"\n"
  | t => t.text

/-- With the texts joined. -/
def cfgJoined : CfgTok → Str
  | .str first more => c!"'" ++ wholeText first more ++ c!"'"
  | t => noComment t

/-- As JSON. -/
def jtok : CfgTok → Str
  | .str first more => c!"\"" ++ wholeText first more ++ c!"\""
  | t => noComment t

/-- The marks of JSON. -/
def MarkChar (c : Char) : Prop := c = '[' ∨ c = ']' ∨ c = '{' ∨ c = '}' ∨ c = ',' ∨ c = ':'

/-- No text follows a text (the flag says that one comes before). -/
def CfgGood : Bool → List CfgTok → Prop
  | _, [] => True
  | b, .blank c :: ts => BlankChar c ∧ CfgGood b ts
  | b, .comment t :: ts => (∀ c ∈ t, jsLineEnd c = false) ∧ CfgGood b ts
  | _, .mark c :: ts => MarkChar c ∧ CfgGood false ts
  | _, .int _ :: ts => CfgGood false ts
  | b, .str f m :: ts => b = false ∧ CfgPlain f m ∧ CfgGood true ts

theorem CfgGood.mono : ∀ {ts : List CfgTok}, CfgGood true ts → CfgGood false ts
  | [], _ => trivial
  | .blank _ :: _, h => ⟨h.1, CfgGood.mono h.2⟩
  | .comment _ :: _, h => ⟨h.1, CfgGood.mono h.2⟩
  | .mark _ :: _, h => h
  | .int _ :: _, h => h
  | .str _ _ :: _, h => absurd h.1 (by decide)

theorem CfgGood.gap {b : Bool} {g : List CfgTok} (h : CfgGap g) {ts : List CfgTok} (ht : CfgGood b ts) : CfgGood b (g ++ ts) := by
  induction h with
  | nil => exact ht
  | blank hc _ ih => exact ⟨hc, ih⟩
  | comment hc _ ih =>
    refine ⟨fun c h => ?_, ih⟩
    obtain ⟨h1, h2, h3, h4⟩ := hc c h
    simp [jsLineEnd, h1, h2, h3, h4]

mutual
theorem Spec.CfgWrites.good : ∀ {v : JVal} {ts : List CfgTok}, CfgWrites v ts → ∀ {r : List CfgTok}, CfgGood true r → CfgGood false (ts ++ r)
  | _, _, .int, _, hr => hr.mono
  | _, _, .str h, _, hr => ⟨rfl, h, hr⟩
  | _, _, .noItems hg, _, hr => by
    simp only [List.cons_append, List.append_assoc]
    exact ⟨.inl rfl, CfgGood.gap hg ⟨.inr (.inl rfl), hr.mono⟩⟩
  | _, _, .items h, _, hr => ⟨.inl rfl, h.good hr.mono⟩
  | _, _, .noMembers hg, _, hr => by
    simp only [List.cons_append, List.append_assoc]
    exact ⟨.inr (.inr (.inl rfl)), CfgGood.gap hg ⟨.inr (.inr (.inr (.inl rfl))), hr.mono⟩⟩
  | _, _, .members h, _, hr => ⟨.inr (.inr (.inl rfl)), h.good hr.mono⟩
theorem Spec.CfgItems.good : ∀ {l : List JVal} {ts : List CfgTok}, CfgItems l ts →
    ∀ {r : List CfgTok}, CfgGood false r → CfgGood false (ts ++ r)
  | _, _, .last hg hv hg', _, hr => by
    simp only [List.append_assoc, List.cons_append, List.nil_append]
    exact CfgGood.gap hg (hv.good (CfgGood.gap hg' ⟨.inr (.inl rfl), hr⟩))
  | _, _, .more hg hv hg' hl, _, hr => by
    simp only [List.append_assoc, List.cons_append]
    exact CfgGood.gap hg (hv.good (CfgGood.gap hg' ⟨.inr (.inr (.inr (.inr (.inl rfl)))), hl.good hr⟩))
theorem Spec.CfgMembers.good : ∀ {l : List (Str × JVal)} {ts : List CfgTok}, CfgMembers l ts →
    ∀ {r : List CfgTok}, CfgGood false r → CfgGood false (ts ++ r)
  | _, _, .last hg hk h1 h2 hv hg', _, hr => by
    simp only [List.append_assoc, List.cons_append, List.nil_append]
    exact CfgGood.gap hg ⟨rfl, hk, CfgGood.gap h1 ⟨.inr (.inr (.inr (.inr (.inr rfl)))),
      CfgGood.gap h2 (hv.good (CfgGood.gap hg' ⟨.inr (.inr (.inr (.inl rfl))), hr⟩))⟩⟩
  | _, _, .more hg hk h1 h2 hv hg' hl, _, hr => by
    simp only [List.append_assoc, List.cons_append, List.nil_append]
    exact CfgGood.gap hg ⟨rfl, hk, CfgGood.gap h1 ⟨.inr (.inr (.inr (.inr (.inr rfl)))),
      CfgGood.gap h2 (hv.good (CfgGood.gap hg' ⟨.inr (.inr (.inr (.inr (.inl rfl)))), hl.good hr⟩))⟩⟩
end

/-! ### The replacements on a file -/

theorem mark_plain {c : Char} (h : MarkChar c) : c ≠ '#' ∧ c ≠ '\'' ∧ jsSpace c = false := by
  rcases h with h | h | h | h | h | h <;> (subst h; decide)

theorem blank_plain {c : Char} (h : BlankChar c) : c ≠ '#' ∧ c ≠ '\'' := by
  rcases h with h | h | h | h <;> (subst h; decide)

theorem decChar_plain {c : Char} (h : '0' ≤ c ∧ c ≤ '9') : c ≠ '#' ∧ c ≠ '\'' ∧ jsSpace c = false := by
  refine ⟨by rintro rfl; revert h; decide, by rintro rfl; revert h; decide, ?_⟩
  have a : 48 ≤ c.toNat := h.1
  have b : c.toNat ≤ 57 := h.2
  simp only [jsSpace, Bool.or_eq_false_iff, Bool.and_eq_false_iff, decide_eq_false_iff_not]
  omega

theorem intStr_plain (i : Int) : ∀ c ∈ intStr i, c ≠ '#' ∧ c ≠ '\'' ∧ jsSpace c = false := by
  intro c hc
  cases i with
  | ofNat n => exact decChar_plain ((natStr_digits n).2.1 c hc)
  | negSucc n =>
    rcases List.mem_cons.1 hc with rfl | hc
    · decide
    · exact decChar_plain ((natStr_digits (n + 1)).2.1 c hc)

theorem quotedText_noHash {f : Str} {m : List (Str × Str)} (h : CfgPlain f m) : ∀ c ∈ quotedText f m, c ≠ '#' := by
  intro c hc
  simp only [quotedText, List.mem_append, List.mem_flatMap, List.mem_singleton] at hc
  rcases hc with ((rfl | hc) | rfl) | ⟨p, hp, ((hc | rfl) | hc) | rfl⟩
  · decide
  · exact (h.1 c hc).2.2.2.1
  · decide
  · exact (blank_plain ((h.2 p hp).1.2 c hc)).1
  · decide
  · exact ((h.2 p hp).2 c hc).2.2.2.1
  · decide

theorem stripComments_file : ∀ {b : Bool} {ts : List CfgTok}, CfgGood b ts →
    stripComments (cfgText ts) = ts.flatMap noComment
  | _, [], _ => by simp [cfgText, stripComments]
  | _, .blank c :: ts, h => by
    have := stripComments_plain (a := [c]) (by simp [(blank_plain h.1).1]) (cfgText ts)
    exact this.trans (by rw [stripComments_file h.2]; rfl)
  | _, .mark c :: ts, h => by
    have := stripComments_plain (a := [c]) (by simp [(mark_plain h.1).1]) (cfgText ts)
    exact this.trans (by rw [stripComments_file h.2]; rfl)
  | _, .int i :: ts, h => by
    have := stripComments_plain (a := intStr i) (fun c hc => (intStr_plain i c hc).1) (cfgText ts)
    exact this.trans (by rw [stripComments_file (b := false) h]; rfl)
  | _, .str f m :: ts, h => by
    have := stripComments_plain (a := quotedText f m) (quotedText_noHash h.2.1) (cfgText ts)
    exact this.trans (by rw [stripComments_file h.2.2]; rfl)
  | _, .comment t :: ts, h => by
    have e : cfgText (.comment t :: ts) = '#' :: (t ++ '\n' :: cfgText ts) := by
      simp [cfgText, CfgTok.text]
    rw [e, stripComments_comment h.1, stripComments_file h.2]
    rfl

theorem joinStrings_pieces {m : List (Str × Str)} {r : Str}
    (hr : r.head?.any jsLineEnd = false ∨ (r.dropWhile jsSpace).head? ≠ some '\'')
    (hm : ∀ p ∈ m, CfgBreak p.1 ∧ ∀ c ∈ p.2, CfgChar c) :
    joinStrings (c!"'" ++ (m.flatMap (fun p => p.1 ++ c!"'" ++ p.2 ++ c!"'") ++ r)) =
      (m.map Prod.snd).flatten ++ (c!"'" ++ joinStrings r) := by
  induction m with
  | nil => exact joinStrings_quote hr
  | cons p m ih =>
    have e : c!"'" ++ ((p :: m).flatMap (fun p => p.1 ++ c!"'" ++ p.2 ++ c!"'") ++ r) =
        '\'' :: (p.1 ++ '\'' :: (p.2 ++ (c!"'" ++ (m.flatMap (fun p => p.1 ++ c!"'" ++ p.2 ++ c!"'") ++ r)))) := by
      simp
    rw [e, joinStrings_break (hm p (by simp)).1, joinStrings_plain fun c hc => ((hm p (by simp)).2 c hc).1,
      ih fun q hq => hm q (by simp [hq])]
    simp

theorem joinStrings_text {f : Str} {m : List (Str × Str)} {r : Str} (h : CfgPlain f m)
    (hr : r.head?.any jsLineEnd = false ∨ (r.dropWhile jsSpace).head? ≠ some '\'') :
    joinStrings (quotedText f m ++ r) = c!"'" ++ wholeText f m ++ c!"'" ++ joinStrings r := by
  have e : quotedText f m ++ r =
      '\'' :: (f ++ (c!"'" ++ (m.flatMap (fun p => p.1 ++ c!"'" ++ p.2 ++ c!"'") ++ r))) := by
    simp [quotedText]
  rw [e, joinStrings_quote, joinStrings_plain fun c hc => (h.1 c hc).1, joinStrings_pieces hr h.2]
  · simp [wholeText]
  · left
    cases f with
    | nil => rfl
    | cons c f => simpa using CfgChar.lineEnd (h.1 c (by simp))

theorem after_text : ∀ {ts : List CfgTok}, CfgGood true ts → ((ts.flatMap noComment).dropWhile jsSpace).head? ≠ some '\''
  | [], _ => by simp
  | .blank c :: ts, h => by
    have e : List.flatMap noComment (.blank c :: ts) = c :: List.flatMap noComment ts := rfl
    rw [e, List.dropWhile_cons, if_pos (blank_space h.1)]
    exact after_text h.2
  | .comment _ :: ts, h => by
    have e : ∀ x, List.flatMap noComment (.comment x :: ts) = '\n' :: List.flatMap noComment ts := fun _ => rfl
    rw [e, List.dropWhile_cons, if_pos (by decide)]
    exact after_text h.2
  | .mark c :: ts, h => by
    have e : List.flatMap noComment (.mark c :: ts) = c :: List.flatMap noComment ts := rfl
    rw [e, List.dropWhile_cons, if_neg (by simp [(mark_plain h.1).2.2])]
    simpa using (mark_plain h.1).2.1
  | .int i :: ts, h => by
    obtain ⟨c, s, hs, -⟩ := intStr_start i
    have e : List.flatMap noComment (.int i :: ts) = c :: (s ++ List.flatMap noComment ts) := by
      have : List.flatMap noComment (.int i :: ts) = intStr i ++ List.flatMap noComment ts := rfl
      rw [this, hs]; rfl
    have := intStr_plain i c (by rw [hs]; simp)
    rw [e, List.dropWhile_cons, if_neg (by simp [this.2.2])]
    simpa using this.2.1
  | .str _ _ :: _, h => absurd h.1 (by decide)

theorem joinStrings_file : ∀ {b : Bool} {ts : List CfgTok}, CfgGood b ts →
    joinStrings (ts.flatMap noComment) = ts.flatMap cfgJoined
  | _, [], _ => by simp [joinStrings]
  | _, .blank c :: ts, h => by
    have := joinStrings_plain (a := [c]) (by simp [(blank_plain h.1).2]) (ts.flatMap noComment)
    exact this.trans (by rw [joinStrings_file h.2]; rfl)
  | _, .comment _ :: ts, h => by
    have := joinStrings_plain (a := c!"\n") (by decide) (ts.flatMap noComment)
    exact this.trans (by rw [joinStrings_file h.2]; rfl)
  | _, .mark c :: ts, h => by
    have := joinStrings_plain (a := [c]) (by simp [(mark_plain h.1).2.1]) (ts.flatMap noComment)
    exact this.trans (by rw [joinStrings_file h.2]; rfl)
  | _, .int i :: ts, h => by
    have := joinStrings_plain (a := intStr i) (fun c hc => (intStr_plain i c hc).2.1) (ts.flatMap noComment)
    exact this.trans (by rw [joinStrings_file (b := false) h]; rfl)
  | _, .str f m :: ts, h => by
    have := joinStrings_text h.2.1 (.inr (after_text h.2.2))
    exact this.trans (by rw [joinStrings_file h.2.2]; rfl)

theorem wholeText_plain {f : Str} {m : List (Str × Str)} (h : CfgPlain f m) : ∀ c ∈ wholeText f m, CfgChar c := by
  intro c hc
  simp only [wholeText, List.mem_append, List.mem_flatten, List.mem_map] at hc
  rcases hc with hc | ⟨_, ⟨p, hp, rfl⟩, hc⟩
  · exact h.1 c hc
  · exact (h.2 p hp).2 c hc

theorem replace_file : ∀ {b : Bool} {ts : List CfgTok}, CfgGood b ts →
    replaceChar '\'' c!"\"" (ts.flatMap cfgJoined) = ts.flatMap jtok
  | _, [], _ => rfl
  | _, .blank c :: ts, h => by
    have := replaceChar_append '\'' c!"\"" [c] (ts.flatMap cfgJoined)
    exact this.trans (by rw [replaceChar_lacking _ (by simp [(blank_plain h.1).2]), replace_file h.2]; rfl)
  | _, .comment _ :: ts, h => by
    have := replaceChar_append '\'' c!"\"" c!"\n" (ts.flatMap cfgJoined)
    exact this.trans (by rw [replace_file h.2]; rfl)
  | _, .mark c :: ts, h => by
    have := replaceChar_append '\'' c!"\"" [c] (ts.flatMap cfgJoined)
    exact this.trans (by rw [replaceChar_lacking _ (by simp [(mark_plain h.1).2.1]), replace_file h.2]; rfl)
  | _, .int i :: ts, h => by
    have := replaceChar_append '\'' c!"\"" (intStr i) (ts.flatMap cfgJoined)
    exact this.trans (by
      rw [replaceChar_lacking _ (fun c hc => (intStr_plain i c hc).2.1), replace_file (b := false) h]; rfl)
  | _, .str f m :: ts, h => by
    have := replaceChar_append '\'' c!"\"" (c!"'" ++ wholeText f m ++ c!"'") (ts.flatMap cfgJoined)
    refine this.trans ?_
    rw [replaceChar_append, replaceChar_append, replace_file h.2.2,
      replaceChar_lacking (a := wholeText f m) _ fun c hc => (wholeText_plain h.2.1 c hc).1]
    rfl

/-! ### Reading the result -/

/-- The parts as JSON. -/
def jparts (ts : List CfgTok) : Str := ts.flatMap jtok

theorem jparts_append (a b : List CfgTok) : jparts (a ++ b) = jparts a ++ jparts b := by simp [jparts]
theorem jparts_mark (c : Char) (b : List CfgTok) : jparts (.mark c :: b) = c :: jparts b := rfl
theorem jparts_str (f : Str) (m : List (Str × Str)) (b : List CfgTok) :
    jparts (.str f m :: b) = '"' :: (wholeText f m ++ '"' :: jparts b) := by
  simp [jparts, jtok]

theorem skipBlank_gap {g : List CfgTok} (h : CfgGap g) (r : Str) :
    skipBlank .json (jparts g ++ r) = skipBlank .json r := by
  induction h with
  | nil => rfl
  | @blank c ts hc _ ih =>
    have e : jparts (.blank c :: ts) ++ r = c :: (jparts ts ++ r) := rfl
    unfold BlankChar at hc
    rw [e, skipBlank, if_pos hc]
    exact ih
  | @comment t ts hc _ ih =>
    have e : jparts (.comment t :: ts) ++ r = '\n' :: (jparts ts ++ r) := rfl
    rw [e, skipBlank, if_pos (by decide)]
    exact ih

theorem skipBlank_mark {c : Char} (h : MarkChar c ∨ c = '"') (r : Str) : skipBlank .json (c :: r) = c :: r := by
  rcases h with (h | h | h | h | h | h) | h <;> (subst h; exact skipBlank_stop _ (by decide) (by decide) r)

theorem gap_ends {g : List CfgTok} (h : CfgGap g) {r : Str} (hr : intEnds r) : intEnds (jparts g ++ r) := by
  cases h with
  | nil => exact hr
  | @blank c ts hc _ =>
    intro x hx
    have : c = x := by simpa [jparts, jtok, noComment, CfgTok.text] using hx
    subst this
    rcases hc with h | h | h | h <;> (subst h; decide)
  | comment _ _ =>
    intro x hx
    have : '\n' = x := by simpa [jparts, jtok, noComment, CfgTok.text] using hx
    subst this
    decide

theorem mark_ends {c : Char} (h : MarkChar c) (r : Str) : intEnds (c :: r) := by
  intro x hx
  have : c = x := by simpa using hx
  subst this
  rcases h with h | h | h | h | h | h <;> (subst h; decide)

theorem wholeText_json {f : Str} {m : List (Str × Str)} (h : CfgPlain f m) :
    (wholeText f m).flatMap jsonChar = wholeText f m := by
  have : ∀ s : Str, (∀ c ∈ s, CfgChar c) → s.flatMap jsonChar = s := by
    intro s hs
    induction s with
    | nil => rfl
    | cons c s ih =>
      obtain ⟨-, h1, h2, -, h3, -⟩ := hs c (by simp)
      have e : jsonChar c = [c] := by
        have n1 : c ≠ '\x08' := by rintro rfl; revert h3; decide
        have n2 : c ≠ '\t' := by rintro rfl; revert h3; decide
        have n3 : c ≠ '\n' := by rintro rfl; revert h3; decide
        have n4 : c ≠ '\x0c' := by rintro rfl; revert h3; decide
        have n5 : c ≠ '\r' := by rintro rfl; revert h3; decide
        rw [jsonChar, if_neg n1, if_neg n2, if_neg n3, if_neg n4, if_neg n5, if_neg h1, if_neg h2, if_neg (by omega)]
      rw [List.flatMap_cons, e, ih fun x hx => hs x (by simp [hx])]
      rfl
  exact this _ (wholeText_plain h)

/-- Every value begins with a character that is neither blank nor a closing mark. -/
theorem Spec.CfgWrites.start {v : JVal} {ts : List CfgTok} (h : CfgWrites v ts) :
    ∃ c s, jparts ts = c :: s ∧ valueStart c := by
  cases h with
  | @int i =>
    obtain ⟨c, s, h, h'⟩ := intStr_start i
    exact ⟨c, s, by simpa [jparts, jtok, noComment, CfgTok.text] using h, by unfold valueStart; tauto⟩
  | str _ => exact ⟨'"', _, jparts_str _ _ _, by unfold valueStart; tauto⟩
  | noItems _ => exact ⟨'[', _, rfl, by unfold valueStart; tauto⟩
  | items _ => exact ⟨'[', _, rfl, by unfold valueStart; tauto⟩
  | noMembers _ => exact ⟨'{', _, rfl, by unfold valueStart; tauto⟩
  | members _ => exact ⟨'{', _, rfl, by unfold valueStart; tauto⟩

theorem gap_value {g ts : List CfgTok} {v : JVal} (hg : CfgGap g) (h : CfgWrites v ts) (r : Str) :
    (skipBlank .json (jparts g ++ (jparts ts ++ r))).head? ≠ some ']' := by
  obtain ⟨c, s, e, hc⟩ := h.start
  rw [skipBlank_gap hg, e, List.cons_append, skipBlank_stop _ (valueStart_stop hc).1 (valueStart_stop hc).2.1]
  intro x
  have : c = ']' := by simpa using x
  subst this
  exact absurd hc (by unfold valueStart; decide)

theorem Spec.CfgItems.open {l : List JVal} {ts : List CfgTok} (h : CfgItems l ts) (r : Str) :
    (skipBlank .json (jparts ts ++ r)).head? ≠ some ']' := by
  cases h with
  | last hg hv _ =>
    simp only [jparts_append, List.append_assoc]
    exact gap_value hg hv _
  | more hg hv _ _ =>
    simp only [jparts_append, List.append_assoc]
    exact gap_value hg hv _

theorem Spec.CfgMembers.open {l : List (Str × JVal)} {ts : List CfgTok} (h : CfgMembers l ts) (r : Str) :
    (skipBlank .json (jparts ts ++ r)).head? ≠ some '}' := by
  cases h with
  | last hg _ _ _ _ _ =>
    rw [jparts_append, List.append_assoc, skipBlank_gap hg, jparts_str, List.cons_append, skipBlank_mark (.inr rfl)]
    simp
  | more hg _ _ _ _ _ _ =>
    rw [jparts_append, List.append_assoc, skipBlank_gap hg, jparts_str, List.cons_append, skipBlank_mark (.inr rfl)]
    simp

theorem skip_key {g : List CfgTok} {f : Str} {m : List (Str × Str)} (hg : CfgGap g) (hk : CfgPlain f m) (b : List CfgTok) (r : Str) :
    skipBlank .json (jparts (g ++ .str f m :: b) ++ r) =
      '"' :: ((wholeText f m).flatMap jsonChar ++ '"' :: (jparts b ++ r)) := by
  rw [jparts_append, List.append_assoc, skipBlank_gap hg, jparts_str, List.cons_append, skipBlank_mark (.inr rfl), wholeText_json hk]
  simp

theorem skip_mark {g : List CfgTok} (hg : CfgGap g) {c : Char} (hc : MarkChar c) (b : List CfgTok) (r : Str) :
    skipBlank .json (jparts (g ++ .mark c :: b) ++ r) = c :: (jparts b ++ r) := by
  rw [jparts_append, List.append_assoc, skipBlank_gap hg, jparts_mark, List.cons_append, skipBlank_mark (.inl hc)]

mutual
theorem Spec.CfgWrites.read : ∀ {v : JVal} {ts : List CfgTok}, CfgWrites v ts → ∀ {n : Nat} {r : Str}, ts.length ≤ n → intEnds r →
    readValue .json n (jparts ts ++ r) = some (v, r)
  | _, _, .int (i := i), n, r, hn, hr => by
    cases n with
    | zero => simp at hn
    | succ n =>
      have := readValue_int (d := .json) (b := []) (by simp) i hr n
      simpa [jparts, jtok, noComment, CfgTok.text] using this
  | _, _, .str h, n, r, hn, hr => by
    cases n with
    | zero => simp at hn
    | succ n => exact readValue_str n (skip_key .nil h [] r)
  | _, _, .noItems hg, n, r, hn, hr => by
    cases n with
    | zero => simp at hn
    | succ n =>
      rw [jparts_mark, List.cons_append]
      exact readValue_arr0 n (skipBlank_mark (.inl (.inl rfl)) _) (skip_mark hg (.inr (.inl rfl)) [] r)
  | _, _, .items h, n, r, hn, hr => by
    cases n with
    | zero => simp at hn
    | succ n =>
      rw [jparts_mark, List.cons_append, readValue_arr n (skipBlank_mark (.inl (.inl rfl)) _) (h.open r),
        h.read (by simpa using hn)]
      rfl
  | _, _, .noMembers hg, n, r, hn, hr => by
    cases n with
    | zero => simp at hn
    | succ n =>
      rw [jparts_mark, List.cons_append]
      exact readValue_obj0 n (skipBlank_mark (.inl (.inr (.inr (.inl rfl)))) _)
        (skip_mark hg (.inr (.inr (.inr (.inl rfl)))) [] r)
  | _, _, .members h, n, r, hn, hr => by
    cases n with
    | zero => simp at hn
    | succ n =>
      rw [jparts_mark, List.cons_append, readValue_obj n (skipBlank_mark (.inl (.inr (.inr (.inl rfl)))) _) (h.open r),
        h.read (by simpa using hn)]
      rfl
theorem Spec.CfgItems.read : ∀ {l : List JVal} {ts : List CfgTok}, CfgItems l ts → ∀ {n : Nat} {r : Str}, ts.length ≤ n →
    readItems .json n (jparts ts ++ r) = some (l, r)
  | _, _, .last (g := g) (ts := ts) (g' := g') hg hv hg', n, r, hn => by
    cases n with
    | zero => simp at hn
    | succ n =>
      have a := hv.read (n := n) (r := jparts (g' ++ [.mark ']']) ++ r) (by simp at hn; omega)
        (by rw [jparts_append, List.append_assoc]; exact gap_ends hg' (mark_ends (.inr (.inl rfl)) _))
      rw [← readValue_congr (skipBlank_gap hg _)] at a
      have := readItems_last a (skip_mark hg' (.inr (.inl rfl)) [] r)
      rw [jparts_append, jparts_append]
      simp only [List.append_assoc] at this ⊢
      exact this
  | _, _, .more (g := g) (ts := ts) (g' := g') (us := us) hg hv hg' hl, n, r, hn => by
    cases n with
    | zero => simp at hn
    | succ n =>
      have a := hv.read (n := n) (r := jparts (g' ++ .mark ',' :: us) ++ r) (by simp at hn; omega)
        (by rw [jparts_append, List.append_assoc]; exact gap_ends hg' (mark_ends (.inr (.inr (.inr (.inr (.inl rfl))))) _))
      rw [← readValue_congr (skipBlank_gap hg _)] at a
      have := readItems_more a (skip_mark hg' (.inr (.inr (.inr (.inr (.inl rfl))))) us r)
      rw [hl.read (by simp at hn; omega)] at this
      rw [jparts_append, jparts_append]
      simp only [List.append_assoc] at this ⊢
      exact this
theorem Spec.CfgMembers.read : ∀ {l : List (Str × JVal)} {ts : List CfgTok}, CfgMembers l ts → ∀ {n : Nat} {r : Str},
    ts.length ≤ n → readMembers .json n (jparts ts ++ r) = some (l, r)
  | _, _, .last (g := g) (g1 := g1) (g2 := g2) (ts := ts) (g' := g') hg hk h1 h2 hv hg', n, r, hn => by
    cases n with
    | zero => simp at hn
    | succ n =>
      have a := hv.read (n := n) (r := jparts (g' ++ [.mark '}']) ++ r) (by simp at hn; omega)
        (by rw [jparts_append, List.append_assoc]; exact gap_ends hg' (mark_ends (.inr (.inr (.inr (.inl rfl)))) _))
      rw [← readValue_congr (skipBlank_gap h2 _)] at a
      refine readMembers_last (skip_key hg hk _ r) (skip_mark h1 (.inr (.inr (.inr (.inr (.inr rfl))))) _ r) ?_
        (skip_mark hg' (.inr (.inr (.inr (.inl rfl)))) [] r)
      rw [jparts_append, jparts_append]
      simpa only [List.append_assoc] using a
  | _, _, .more (g := g) (g1 := g1) (g2 := g2) (ts := ts) (g' := g') (us := us) hg hk h1 h2 hv hg' hl, n, r, hn => by
    cases n with
    | zero => simp at hn
    | succ n =>
      have a := hv.read (n := n) (r := jparts (g' ++ .mark ',' :: us) ++ r) (by simp at hn; omega)
        (by rw [jparts_append, List.append_assoc]; exact gap_ends hg' (mark_ends (.inr (.inr (.inr (.inr (.inl rfl))))) _))
      rw [← readValue_congr (skipBlank_gap h2 _)] at a
      have := readMembers_more (skip_key hg hk _ r)
        (skip_mark h1 (.inr (.inr (.inr (.inr (.inr rfl))))) (g2 ++ (ts ++ (g' ++ .mark ',' :: us))) r)
        (n := n) (v := _) (r := jparts (g' ++ .mark ',' :: us) ++ r)
        (by rw [jparts_append, jparts_append]; simp only [List.append_assoc] at a ⊢; exact a)
        (skip_mark hg' (.inr (.inr (.inr (.inr (.inl rfl))))) us r)
      rw [hl.read (by simp at hn; omega)] at this
      exact this
end

theorem jtok_pos : ∀ t : CfgTok, 1 ≤ (jtok t).length
  | .mark _ => Nat.le_refl _
  | .blank _ => Nat.le_refl _
  | .comment _ => Nat.le_refl _
  | .int i => by
    obtain ⟨c, s, h, -⟩ := intStr_start i
    show 1 ≤ (intStr i).length
    rw [h]; simp
  | .str _ _ => by simp [jtok]

theorem jparts_length : ∀ ts : List CfgTok, ts.length ≤ (jparts ts).length
  | [] => Nat.le_refl _
  | t :: ts => by
    have a := jparts_length ts
    have b := jtok_pos t
    have : jparts (t :: ts) = jtok t ++ jparts ts := rfl
    rw [this, List.length_append, List.length_cons]; omega

end Gyp
