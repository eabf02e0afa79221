import Verif.Spec.Pbx
import Verif.Proofs.LoadAll
import Mathlib.Tactic.IntervalCases
import Mathlib.Data.List.Nodup
/-
Reading back what `Model/Pbx.lean` prints.
-/
namespace Gyp
open Spec

/-! ### Gaps -/

/-- Text that a reader skips. -/
def Skipped (w : Str) : Prop := ∀ x, gap .blank (w ++ x) = gap .blank x

theorem skipped_nil : Skipped [] := fun _ => rfl

theorem skipped_append {a b : Str} (ha : Skipped a) (hb : Skipped b) : Skipped (a ++ b) := fun x => by
  rw [List.append_assoc, ha, hb]

theorem skipped_space : Skipped c!" " := fun _ => by simp [gap]
theorem skipped_newline : Skipped c!"\n" := fun _ => by simp [gap]
theorem skipped_tabs : ∀ n, Skipped (pbxTabs n)
  | 0 => skipped_nil
  | n + 1 => fun x => by
    show gap .blank ('\t' :: (pbxTabs n ++ x)) = _
    rw [gap]; exact skipped_tabs n x

theorem skipped_sep (st : PbxStyle) : Skipped st.sep := by
  unfold PbxStyle.sep; split
  · exact skipped_space
  · exact skipped_newline

theorem skipped_styleTabs (st : PbxStyle) (n : Nat) : Skipped (st.tabs n) := by
  unfold PbxStyle.tabs; split
  · exact skipped_nil
  · exact skipped_tabs n

/-- A comment's text, where the reader is in the comment. -/
theorem gap_block_cons {c : Char} {s : Str} (h : ∀ t, c :: s ≠ '*' :: '/' :: t) :
    gap .block (c :: s) = gap .block s := by
  rw [gap]
  intro t h1 h2
  subst h1 h2
  exact h t rfl

theorem replaceStr_cons_no {old new : Str} {c : Char} {s : Str} (h : old.isPrefixOf (c :: s) = false) :
    replaceStr old new (c :: s) = c :: replaceStr old new s := by
  rw [replaceStr.eq_def]; simp [h]

theorem gap_block_body (x : Str) : ∀ (n : Nat) (s : Str), s.length ≤ n →
    gap .block (replaceStr c!"*/" c!"(*)/" s ++ (c!" */" ++ x)) = gap .blank x
  | _, [], _ => by
    rw [replaceStr.eq_def]
    show gap .block (' ' :: '*' :: '/' :: x) = _
    rw [gap_block_cons (by intro t h; simp at h)]
    conv => lhs; rw [gap]
  | 0, _ :: _, h => by simp at h
  | n + 1, c :: s, h => by
    by_cases hp : (c!"*/").isPrefixOf (c :: s) = true
    · obtain ⟨t, ht⟩ := List.isPrefixOf_iff_prefix.mp hp
      have hc : c = '*' := by injection ht with h1 _; exact h1.symm
      have hs : s = '/' :: t := by injection ht with _ h2; exact h2.symm
      subst hc hs
      rw [replaceStr.eq_def]
      simp only [hp, ne_eq, reduceCtorEq, not_false_eq_true, and_self, if_true]
      show gap .block ('(' :: '*' :: ')' :: '/' :: (replaceStr c!"*/" c!"(*)/" t ++ (c!" */" ++ x))) = _
      rw [gap_block_cons (by intro t h; simp at h), gap_block_cons (by intro t h; simp at h),
        gap_block_cons (by intro t h; simp at h), gap_block_cons (by intro t h; simp at h)]
      exact gap_block_body x n t (by simp at h; omega)
    · have hp' : (c!"*/").isPrefixOf (c :: s) = false := eq_false_of_ne_true hp
      rw [replaceStr_cons_no hp', List.cons_append, gap_block_cons]
      · exact gap_block_body x n s (by simp at h; omega)
      · intro t ht
        injection ht with h1 h2
        subst h1
        cases s with
        | nil =>
          rw [replaceStr.eq_def] at h2
          simp at h2
        | cons d s =>
          by_cases hp2 : (c!"*/").isPrefixOf (d :: s) = true
          · rw [replaceStr.eq_def] at h2
            simp [hp2] at h2
          · have hp2' : (c!"*/").isPrefixOf (d :: s) = false := eq_false_of_ne_true hp2
            rw [replaceStr_cons_no hp2'] at h2
            injection h2 with h3 _
            subst h3
            simp [List.isPrefixOf] at hp'

theorem skipped_comment (c : Str) : Skipped (pbxComment c) := fun x => by
  show gap .blank ('/' :: '*' :: ' ' :: (replaceStr c!"*/" c!"(*)/" c ++ c!" */" ++ x)) = _
  rw [gap, gap_block_cons (by intro t h; simp at h), List.append_assoc]
  exact gap_block_body x _ c (Nat.le_refl _)

theorem gap_stay {c : Char} {s : Str} (h1 : c ≠ ' ') (h2 : c ≠ '\t') (h3 : c ≠ '\n')
    (h4 : c = '/' → ∀ t, s ≠ '/' :: t ∧ s ≠ '*' :: t) : gap .blank (c :: s) = c :: s := by
  rw [gap]
  · intro t ht; injection ht with e; exact h1 e
  · intro t ht; injection ht with e; exact h2 e
  · intro t ht; injection ht with e; exact h3 e
  · intro t ht; injection ht with e e'; exact (h4 e t).1 e'
  · intro t ht; injection ht with e e'; exact (h4 e t).2 e'

/-! ### Texts -/

/-- `p` is read as the text `s`, whatever follows. -/
def TextReads (p s : Str) : Prop :=
  (∃ c t, p = c :: t ∧ c ≠ ')' ∧ c ≠ '}' ∧ c ≠ '(' ∧ c ≠ '{') ∧
  ∀ rest, After rest → gap .blank (p ++ rest) = p ++ rest ∧
    ∃ r, plistText (p ++ rest) = some (s, r) ∧ gap .blank r = gap .blank rest

theorem after_not_token {rest : Str} (h : After rest) :
    rest.takeWhile tokenChar = [] ∧ rest.dropWhile tokenChar = rest := by
  obtain ⟨c, r, rfl, rfl | rfl | rfl⟩ := h <;> exact ⟨rfl, rfl⟩

theorem takeWhile_tokens {f : Char → Bool} {s rest : Str} (h : ∀ c ∈ s, f c = true) (hr : rest.takeWhile f = []) :
    (s ++ rest).takeWhile f = s := by
  induction s with
  | nil => simpa using hr
  | cons c s ih =>
    rw [List.cons_append, List.takeWhile_cons_of_pos (h c (by simp)), ih fun d hd => h d (by simp [hd])]

theorem dropWhile_all {f : Char → Bool} {s rest : Str} (h : ∀ c ∈ s, f c = true) (hr : rest.dropWhile f = rest) :
    (s ++ rest).dropWhile f = rest := by
  induction s with
  | nil => simpa using hr
  | cons c s ih =>
    rw [List.cons_append, List.dropWhile_cons_of_pos (h c (by simp)), ih fun d hd => h d (by simp [hd])]

theorem plistText_token {s rest : Str} (hne : s ≠ []) (h : ∀ c ∈ s, tokenChar c = true) (hr : After rest) :
    plistText (s ++ rest) = some (s, rest) := by
  cases s with
  | nil => exact absurd rfl hne
  | cons c t =>
    have hc : c ≠ '"' := by rintro rfl; exact absurd (h '"' (by simp)) (by decide)
    rw [plistText]
    · rw [takeWhile_tokens h (after_not_token hr).1, dropWhile_all h (after_not_token hr).2]; simp
    · intro r hr; injection hr with e; exact hc e

theorem textReads_token {s : Str} (hne : s ≠ []) (h : ∀ c ∈ s, tokenChar c = true) (hs : ¬ c!"//" <+: s) :
    TextReads s s := by
  cases s with
  | nil => exact absurd rfl hne
  | cons c t =>
    have key : ∀ d, tokenChar d = false → c ≠ d := by
      rintro d hd rfl; rw [h c (by simp)] at hd; exact absurd hd (by decide)
    refine ⟨⟨c, t, rfl, key _ (by decide), key _ (by decide), key _ (by decide), key _ (by decide)⟩, fun rest hr => ⟨?_, rest, ?_, rfl⟩⟩
    · refine gap_stay (key _ (by decide)) (key _ (by decide)) (key _ (by decide)) ?_
      rintro rfl u
      cases t with
      | nil => obtain ⟨d, r, rfl, rfl | rfl | rfl⟩ := hr <;> simp
      | cons d t =>
        have hd : d ≠ '*' := by rintro rfl; exact absurd (h '*' (by simp)) (by decide)
        have hd2 : d ≠ '/' := by rintro rfl; exact hs ⟨t, rfl⟩
        refine ⟨fun e => ?_, fun e => ?_⟩
        · injection e with e _; exact hd2 e
        · injection e with e _; exact hd e
    · exact plistText_token hne h hr

theorem textReads_id {s : Str} (h : PlainId s) : TextReads s s := by
  refine textReads_token h.1 (fun c hc => by simp [tokenChar, h.2 c hc]) ?_
  rintro ⟨t, rfl⟩
  exact absurd (h.2 '/' (by simp)) (by decide)

theorem readQuoted_slashed {e x : Char} (he : e ≠ 'U') (hx : slashed e = some x) (r : Str) :
    readQuoted ('\\' :: e :: r) = (readQuoted r).map fun y => (x :: y.1, y.2) := by
  rw [readQuoted.eq_def]
  simp only [if_neg he, hx]
  cases readQuoted r <;> rfl

theorem readQuoted_hex {a b x : Char} (hx : fourHex '0' '0' a b = some x) (r : Str) :
    readQuoted ('\\' :: 'U' :: '0' :: '0' :: a :: b :: r) = (readQuoted r).map fun y => (x :: y.1, y.2) := by
  rw [readQuoted, if_pos rfl]
  simp only [hx]
  cases readQuoted r <;> rfl

theorem readQuoted_plain {c : Char} (h1 : c ≠ '\\') (h2 : c ≠ '"') (r : Str) :
    readQuoted (c :: r) = (readQuoted r).map fun y => (c :: y.1, y.2) := by
  rw [readQuoted]
  · exact h2
  · intro e r' h; exact absurd h h1
  · intro h; exact absurd h h1

/-- One character in quotation marks. -/
theorem readQuoted_char (alt : Bool) (c : Char) (hc : c ≠ '\r') (r : Str) :
    readQuoted (pbxChar alt c ++ r) = (readQuoted r).map fun x => (c :: x.1, x.2) := by
  by_cases h32 : c.toNat < 32
  · obtain ⟨n, hn, rfl⟩ : ∃ n, n < 32 ∧ c = Char.ofNat n := ⟨c.toNat, h32, (Char.ofNat_toNat c).symm⟩
    clear h32
    cases alt <;> interval_cases n <;> first
      | exact absurd rfl hc
      | exact readQuoted_slashed (by decide) (by decide) r
      | exact readQuoted_plain (by decide) (by decide) r
      | exact readQuoted_hex (by decide) r
  · by_cases h1 : c = '\\'
    · subst h1; exact readQuoted_slashed (by decide) (by decide) r
    · by_cases h2 : c = '"'
      · subst h2; exact readQuoted_slashed (by decide) (by decide) r
      · have : pbxChar alt c = [c] := by simp [pbxChar, h1, h2, h32]
        rw [this]
        exact readQuoted_plain h1 h2 r

theorem readQuoted_all (alt : Bool) (rest : Str) : ∀ s : Str, '\r' ∉ s →
    readQuoted (s.flatMap (pbxChar alt) ++ '"' :: rest) = some (s, rest)
  | [], _ => rfl
  | c :: s, h => by
    rw [List.flatMap_cons, List.append_assoc, readQuoted_char alt c (by rintro rfl; simp at h),
      readQuoted_all alt rest s (by intro hs; exact h (by simp [hs]))]
    rfl

theorem bareChar_iff (c : Char) : pbxBareChar c = true ↔ (c.isAlphanum = true ∨ c ∈ ['$', '.', '/', '_']) := by
  simp [pbxBareChar, or_assoc]

theorem hasSub_infix (t s : Str) : hasSub t s = true ↔ t <:+: s := by
  induction s with
  | nil => simp [hasSub]
  | cons c s ih =>
    rw [hasSub, Bool.or_eq_true, ih, List.infix_cons_iff]
    unfold startsWith
    rw [List.isPrefixOf_iff_prefix]

theorem textReads_string (alt : Bool) {s : Str} (h : PlainText s) : TextReads (pbxString alt s) s := by
  unfold pbxString
  split
  · rename_i hb
    rw [Bool.and_eq_true] at hb
    obtain ⟨hu, hq⟩ := hb
    have hq' : ¬ c!"___" <:+: s := by
      intro hi; rw [(hasSub_infix _ _).mpr hi] at hq; exact absurd hq (by decide)
    unfold pbxUnquoted at hu
    by_cases hl : s.getLast? = some '\n'
    · exfalso
      obtain ⟨t, rfl⟩ : ∃ t, s = t ++ c!"\n" := by
        obtain ⟨t, ht⟩ := List.getLast?_eq_some_iff.mp hl
        exact ⟨t, ht⟩
      refine h.2.2 t rfl ⟨?_, ?_, ?_⟩
      · simp [hl] at hu; exact hu.1
      · simp [hl] at hu; intro c hc; exact (bareChar_iff c).mp (hu.2 c hc)
      · intro hi; exact hq' (hi.trans (List.infix_append' [] t c!"\n"))
    · simp [hl] at hu
      have hbare : Bare s := ⟨hu.1, fun c hc => (bareChar_iff c).mp (hu.2 c hc), hq'⟩
      refine textReads_token hu.1 (fun c hc => ?_) (h.2.1 hbare)
      rcases hbare.2.1 c hc with e | e
      · simp [tokenChar, e]
      · simp at e; rcases e with rfl | rfl | rfl | rfl <;> decide
  · refine ⟨⟨'"', _, rfl, by decide, by decide, by decide, by decide⟩, fun rest _ => ⟨?_, rest, ?_, rfl⟩⟩
    · exact gap_stay (by decide) (by decide) (by decide) (by intro e; exact absurd e (by decide))
    · show plistText ('"' :: (s.flatMap (pbxChar alt) ++ c!"\"" ++ rest)) = _
      rw [plistText, List.append_assoc]
      exact readQuoted_all alt rest s h.1

theorem textReads_int (i : Int) : TextReads (intStr i) (intStr i) := by
  have hd : ∀ n, ∀ c ∈ Nat.toDigits 10 n, c.isDigit = true := fun n c hc => Nat.isDigit_of_mem_toDigits (b := 10) (by decide) (by decide) hc
  have htok : ∀ c ∈ intStr i, c.isDigit = true ∨ c = '-' := by
    intro c hc
    cases i with
    | ofNat n => exact .inl (hd n c hc)
    | negSucc n =>
      rcases List.mem_cons.mp hc with rfl | hc
      · exact .inr rfl
      · exact .inl (hd _ c hc)
  refine textReads_token ?_ (fun c hc => ?_) ?_
  · cases i with
    | ofNat n => exact Nat.toDigits_ne_nil
    | negSucc n => exact List.cons_ne_nil _ _
  · rcases htok c hc with e | rfl
    · simp [tokenChar, Char.isAlphanum, e]
    · decide
  · rintro ⟨t, ht⟩
    rcases htok '/' (by rw [← ht]; simp) with e | e
    · exact absurd e (by decide)
    · exact absurd e (by decide)

theorem textReads_ref {id : Str} (comment : Option Str) (h : PlainId id) : TextReads (pbxRef id comment) id := by
  unfold pbxRef
  cases comment with
  | none => exact textReads_id h
  | some c =>
    dsimp only
    split
    · exact textReads_id h
    · obtain ⟨⟨x, t, rfl, hx⟩, hr⟩ := textReads_id h
      refine ⟨⟨x, _, rfl, hx⟩, fun rest _ => ?_⟩
      obtain ⟨g, -⟩ := hr (' ' :: (pbxComment c ++ rest)) ⟨' ', _, rfl, .inl rfl⟩
      rw [List.append_assoc, List.cons_append]
      refine ⟨g, ' ' :: (pbxComment c ++ rest), plistText_token h.1 (fun c hc => by simp [tokenChar, h.2 c hc]) ⟨' ', _, rfl, .inl rfl⟩, ?_⟩
      exact (skipped_append skipped_space (skipped_comment c)) rest

/-! ### Values -/

/-- `p` is read as `w`, whatever follows. -/
def PrintsAs (p : Str) (w : Plist) : Prop :=
  (∃ c t, p = c :: t ∧ c ≠ ')' ∧ c ≠ '}') ∧
  ∀ rest, After rest → gap .blank (p ++ rest) = p ++ rest ∧
    ∃ N, ∀ n ≥ N, ∃ r, readVal n (p ++ rest) = some (w, r) ∧ gap .blank r = gap .blank rest

theorem readVal_gap (n : Nat) (s : Str) (h : gap .blank (gap .blank s) = gap .blank s) :
    readVal n (gap .blank s) = readVal n s := by
  cases n with
  | zero => rfl
  | succ n => rw [readVal, h, ← readVal]

theorem TextReads.printsAs {p s : Str} (h : TextReads p s) : PrintsAs p (.text s) := by
  obtain ⟨⟨c, t, rfl, h1, h2, h3, h4⟩, hr⟩ := h
  refine ⟨⟨c, t, rfl, h1, h2⟩, fun rest ha => ?_⟩
  obtain ⟨g, r, hread, hg⟩ := hr rest ha
  refine ⟨g, 1, fun n hn => ⟨r, ?_, hg⟩⟩
  obtain ⟨m, rfl⟩ : ∃ m, n = m + 1 := ⟨n - 1, by omega⟩
  rw [readVal, g]
  split
  · rename_i e; injection e with e _; exact absurd e h3
  · rename_i e; injection e with e _; exact absurd e h4
  · rw [hread]; rfl

/-- `t` at the beginning of the items of a list gives the items `ws`. -/
def ItemsRead (t : Str) (ws : List Plist) : Prop :=
  ∀ x ws' r N, (∀ n ≥ N, plistItems n x = some (ws', r)) →
    ∃ M, ∀ n ≥ M, plistItems n (t ++ x) = some (ws ++ ws', r)

/-- `t` at the beginning of the pairs of a dictionary gives the pairs `ws`. -/
def PairsRead (t : Str) (ws : List (Str × Plist)) : Prop :=
  ∀ x ws' r N, (∀ n ≥ N, readPairs n x = some (ws', r)) →
    ∃ M, ∀ n ≥ M, readPairs n (t ++ x) = some (ws ++ ws', r)

theorem ItemsRead.append {a b : Str} {v w : List Plist} (ha : ItemsRead a v) (hb : ItemsRead b w) :
    ItemsRead (a ++ b) (v ++ w) := by
  intro x ws' r N h
  obtain ⟨M, hM⟩ := hb x ws' r N h
  obtain ⟨M', hM'⟩ := ha _ _ r M hM
  exact ⟨M', fun n hn => by rw [List.append_assoc, hM' n hn, List.append_assoc]⟩

theorem PairsRead.append {a b : Str} {v w : List (Str × Plist)} (ha : PairsRead a v) (hb : PairsRead b w) :
    PairsRead (a ++ b) (v ++ w) := by
  intro x ws' r N h
  obtain ⟨M, hM⟩ := hb x ws' r N h
  obtain ⟨M', hM'⟩ := ha _ _ r M hM
  exact ⟨M', fun n hn => by rw [List.append_assoc, hM' n hn, List.append_assoc]⟩

theorem Skipped.items {w : Str} (h : Skipped w) : ItemsRead w [] := by
  intro x ws' r N hN
  refine ⟨N + 1, fun n hn => ?_⟩
  have e := hN n (by omega)
  obtain ⟨m, rfl⟩ : ∃ m, n = m + 1 := ⟨n - 1, by omega⟩
  rw [plistItems] at e ⊢
  rw [h x]; simpa using e

theorem Skipped.pairs {w : Str} (h : Skipped w) : PairsRead w [] := by
  intro x ws' r N hN
  refine ⟨N + 1, fun n hn => ?_⟩
  have e := hN n (by omega)
  obtain ⟨m, rfl⟩ : ∃ m, n = m + 1 := ⟨n - 1, by omega⟩
  rw [readPairs] at e ⊢
  rw [h x]; simpa using e

theorem itemsRead_one {p : Str} {w : Plist} (h : PrintsAs p w) : ItemsRead (p ++ c!",") [w] := by
  intro x ws' r N hN
  obtain ⟨⟨c, t, rfl, h1, h2⟩, hr⟩ := h
  obtain ⟨g, M, hM⟩ := hr (',' :: x) ⟨',', x, rfl, .inr (.inl rfl)⟩
  refine ⟨max N M + 1, fun n hn => ?_⟩
  obtain ⟨m, rfl⟩ : ∃ m, n = m + 1 := ⟨n - 1, by omega⟩
  obtain ⟨r', hv, hg⟩ := hM m (by omega)
  rw [List.append_assoc]
  show plistItems (m + 1) (c :: t ++ ',' :: x) = _
  rw [plistItems, g]
  split
  · rename_i e; injection e with e _; exact absurd e h1
  · rw [hv]
    have hg' : gap .blank r' = ',' :: x := by
      rw [hg, gap_stay (by decide) (by decide) (by decide) (by intro e; exact absurd e (by decide))]
    simp only [hg', hN m (by omega)]
    rfl

theorem pairsRead_one {kp k p : Str} {w : Plist} (hk : TextReads kp k) (h : PrintsAs p w) :
    PairsRead (kp ++ c!" = " ++ p ++ c!";") [(k, w)] := by
  intro x ws' r N hN
  obtain ⟨⟨c, t, rfl, h1, h2, h3, h4⟩, hr⟩ := hk
  obtain ⟨-, hp⟩ := h
  obtain ⟨g, r1, hread, hg1⟩ := hr (' ' :: '=' :: ' ' :: (p ++ ';' :: x)) ⟨' ', _, rfl, .inl rfl⟩
  obtain ⟨gp, M, hM⟩ := hp (';' :: x) ⟨';', x, rfl, .inr (.inr rfl)⟩
  refine ⟨max N M + 1, fun n hn => ?_⟩
  obtain ⟨m, rfl⟩ : ∃ m, n = m + 1 := ⟨n - 1, by omega⟩
  obtain ⟨r', hv, hg⟩ := hM m (by omega)
  have e0 : c :: t ++ c!" = " ++ p ++ c!";" ++ x = c :: t ++ ' ' :: '=' :: ' ' :: (p ++ ';' :: x) := by simp
  have hg1' : gap .blank r1 = '=' :: ' ' :: (p ++ ';' :: x) := by
    rw [hg1, gap, gap_stay (by decide) (by decide) (by decide) (by intro e; exact absurd e (by decide))]
  have hv' : readVal m (' ' :: (p ++ ';' :: x)) = some (w, r') := by
    rw [← hv]
    cases m with
    | zero => rfl
    | succ m => conv => lhs; rw [readVal, gap, ← readVal]
  have hg' : gap .blank r' = ';' :: x := by
    rw [hg, gap_stay (by decide) (by decide) (by decide) (by intro e; exact absurd e (by decide))]
  rw [e0, readPairs, g]
  split
  · rename_i e; injection e with e _; exact absurd e h2
  · rw [hread]
    simp only [hg1', hv', hg', hN m (by omega)]
    rfl

theorem plistItems_end (x : Str) : ∀ n ≥ 1, plistItems n (')' :: x) = some ([], x) := by
  intro n hn
  obtain ⟨m, rfl⟩ : ∃ m, n = m + 1 := ⟨n - 1, by omega⟩
  rw [plistItems, gap_stay (by decide) (by decide) (by decide) (by intro e; exact absurd e (by decide))]
  rfl

theorem readPairs_end (x : Str) : ∀ n ≥ 1, readPairs n ('}' :: x) = some ([], x) := by
  intro n hn
  obtain ⟨m, rfl⟩ : ∃ m, n = m + 1 := ⟨n - 1, by omega⟩
  rw [readPairs, gap_stay (by decide) (by decide) (by decide) (by intro e; exact absurd e (by decide))]
  rfl

theorem printsAs_list {t : Str} {ws : List Plist} (h : ItemsRead t ws) : PrintsAs ('(' :: (t ++ c!")")) (.list ws) := by
  refine ⟨⟨'(', _, rfl, by decide, by decide⟩, fun rest ha => ?_⟩
  have g : gap .blank ('(' :: (t ++ c!")") ++ rest) = '(' :: (t ++ c!")") ++ rest :=
    gap_stay (by decide) (by decide) (by decide) (by intro e; exact absurd e (by decide))
  obtain ⟨M, hM⟩ := h (')' :: rest) [] rest 1 (plistItems_end rest)
  refine ⟨g, M + 1, fun n hn => ⟨rest, ?_, rfl⟩⟩
  obtain ⟨m, rfl⟩ : ∃ m, n = m + 1 := ⟨n - 1, by omega⟩
  have e : t ++ c!")" ++ rest = t ++ ')' :: rest := by simp
  rw [readVal, g, List.cons_append, e]
  simp [hM m (by omega)]

theorem printsAs_dict {t : Str} {ws : List (Str × Plist)} (h : PairsRead t ws) :
    PrintsAs ('{' :: (t ++ c!"}")) (.dict ws) := by
  refine ⟨⟨'{', _, rfl, by decide, by decide⟩, fun rest ha => ?_⟩
  have g : gap .blank ('{' :: (t ++ c!"}") ++ rest) = '{' :: (t ++ c!"}") ++ rest :=
    gap_stay (by decide) (by decide) (by decide) (by intro e; exact absurd e (by decide))
  obtain ⟨M, hM⟩ := h ('}' :: rest) [] rest 1 (readPairs_end rest)
  refine ⟨g, M + 1, fun n hn => ⟨rest, ?_, rfl⟩⟩
  obtain ⟨m, rfl⟩ : ∃ m, n = m + 1 := ⟨n - 1, by omega⟩
  have e : t ++ c!"}" ++ rest = t ++ '}' :: rest := by simp
  rw [readVal, g, List.cons_append, e]
  simp [hM m (by omega)]

theorem itemsRead_all {pre post : Str} (hpre : Skipped pre) (hpost : Skipped post) {ps : List Str} {ws : List Plist}
    (h : List.Forall₂ PrintsAs ps ws) : ItemsRead (ps.flatMap fun p => pre ++ p ++ ',' :: post) ws := by
  induction h with
  | nil => exact skipped_nil.items
  | @cons p w ps ws hp _ ih =>
    have e : pre ++ p ++ ',' :: post = pre ++ ((p ++ c!",") ++ post) := by simp
    rw [List.flatMap_cons, e]
    have := (hpre.items.append ((itemsRead_one hp).append hpost.items)).append ih
    simpa using this

/-- A key and a value as printed, and as read. -/
def PairReads (alt : Bool) (p : Str × Str) (w : Str × Plist) : Prop :=
  p.1 = w.1 ∧ TextReads (pbxString alt p.1) p.1 ∧ PrintsAs p.2 w.2

theorem pairsRead_line {alt : Bool} {pre post : Str} (hpre : Skipped pre) (hpost : Skipped post)
    {p : Str × Str} {w : Str × Plist} (h : PairReads alt p w) :
    PairsRead (pre ++ pbxString alt p.1 ++ c!" = " ++ p.2 ++ ';' :: post) [w] := by
  obtain ⟨h1, h2, h3⟩ := h
  have e : pre ++ pbxString alt p.1 ++ c!" = " ++ p.2 ++ ';' :: post =
      pre ++ ((pbxString alt p.1 ++ c!" = " ++ p.2 ++ c!";") ++ post) := by simp
  rw [e]
  have := hpre.pairs.append ((pairsRead_one h2 h3).append hpost.pairs)
  rw [h1] at this
  simpa [h1] using this

theorem pairsRead_all {alt : Bool} {pre post : Str} (hpre : Skipped pre) (hpost : Skipped post)
    {ps : List (Str × Str)} {ws : List (Str × Plist)} (h : List.Forall₂ (PairReads alt) ps ws) :
    PairsRead (ps.flatMap fun p => pre ++ pbxString alt p.1 ++ c!" = " ++ p.2 ++ ';' :: post) ws := by
  induction h with
  | nil => exact skipped_nil.pairs
  | @cons p w ps ws hp _ ih =>
    rw [List.flatMap_cons]
    exact (pairsRead_line hpre hpost hp).append ih

/-! ### Sorting alike -/

theorem forall₂_insertSorted {α β : Type} {R : Str × α → Str × β → Prop} (hR : ∀ a b, R a b → a.1 = b.1)
    {x : Str × α} {y : Str × β} (hxy : R x y) {l : List (Str × α)} {m : List (Str × β)} (h : List.Forall₂ R l m) :
    List.Forall₂ R (insertSorted keyLe x l) (insertSorted keyLe y m) := by
  induction h with
  | nil => exact .cons hxy .nil
  | @cons a b l m hab hlm ih =>
    have e : keyLe x a = keyLe y b := by unfold keyLe; rw [hR _ _ hxy, hR _ _ hab]
    unfold insertSorted
    rw [e]
    split
    · exact .cons hxy (.cons hab hlm)
    · exact .cons hab ih

theorem forall₂_pySorted {α β : Type} {R : Str × α → Str × β → Prop} (hR : ∀ a b, R a b → a.1 = b.1)
    {l : List (Str × α)} {m : List (Str × β)} (h : List.Forall₂ R l m) :
    List.Forall₂ R (pySorted keyLe l) (pySorted keyLe m) := by
  induction h with
  | nil => exact .nil
  | @cons a b l m hab hlm ih => exact forall₂_insertSorted hR hab ih

/-! ### All values -/

theorem printsAs_flat (alt : Bool) {l : List PbxVal} {p : Str} (hl : PlainItems l) (hlen : l.length ≤ 1)
    (h : pbxFlat alt l = some p) : PrintsAs p (said true (.list l)) := by
  match l, hl, hlen, h with
  | [], _, _, h =>
    simp only [pbxFlat, Option.some.injEq] at h
    subst h
    rw [said]
    exact (textReads_string alt ⟨by simp, fun hb => absurd rfl hb.1, by intro t ht; simp at ht⟩).printsAs
  | [.text s], hl, _, h =>
    simp only [pbxFlat, Option.some.injEq] at h
    subst h
    rw [said]
    simp only [PlainItems, Plain] at hl
    exact (textReads_string alt hl.1).printsAs
  | [.int _], _, _, h => simp [pbxFlat] at h
  | [.ref _ _], _, _, h => simp [pbxFlat] at h
  | [.list _], _, _, h => simp [pbxFlat] at h
  | [.dict _], _, _, h => simp [pbxFlat] at h
  | _ :: _ :: _, _, hlen, _ => simp at hlen

theorem said_list_long {flat : Bool} {l : List PbxVal} (h : ¬ (flat = true ∧ l.length ≤ 1)) :
    said flat (.list l) = .list (saidItems flat l) := by
  rw [said]
  · rintro rfl rfl; exact h ⟨rfl, by simp⟩
  · rintro s rfl rfl; exact h ⟨rfl, by simp⟩

mutual
theorem printsAs_val (st : PbxStyle) (flat : Bool) : ∀ (n : Nat) (v : PbxVal) (p : Str), Plain v →
    pbxVal st flat n v = some p → PrintsAs p (said flat v)
  | _, .text s, p, hv, h => by
    simp only [pbxVal, Option.some.injEq] at h
    subst h
    simp only [Plain] at hv
    rw [said]; exact (textReads_string st.alt hv).printsAs
  | _, .int i, p, _, h => by
    simp only [pbxVal, Option.some.injEq] at h
    subst h
    rw [said]; exact (textReads_int i).printsAs
  | _, .ref id comment, p, hv, h => by
    simp only [pbxVal, Option.some.injEq] at h
    subst h
    simp only [Plain] at hv
    rw [said]; exact (textReads_ref comment hv).printsAs
  | n, .list l, p, hv, h => by
    simp only [Plain] at hv
    rw [pbxVal] at h
    by_cases hf : flat = true ∧ l.length ≤ 1
    · rw [if_pos hf] at h
      obtain ⟨rfl, hlen⟩ := hf
      exact printsAs_flat st.alt hv hlen h
    · rw [if_neg hf] at h
      cases hi : pbxItems st flat (n + 1) l with
      | none => rw [hi] at h; exact absurd h (by simp)
      | some ps =>
        rw [hi] at h
        simp only [Option.some.injEq] at h
        subst h
        rw [said_list_long hf]
        have h1 := printsAs_items st flat (n + 1) l ps hv hi
        have h2 := ((skipped_sep st).items.append
          (itemsRead_all (skipped_styleTabs st (n + 1)) (skipped_sep st) h1)).append (skipped_styleTabs st n).items
        have := printsAs_list h2
        simpa using this
  | n, .dict d, p, hv, h => by
    simp only [Plain] at hv
    rw [pbxVal] at h
    cases hi : pbxPairs st flat (n + 1) d with
    | none => rw [hi] at h; exact absurd h (by simp)
    | some ps =>
      rw [hi] at h
      simp only [Option.some.injEq] at h
      subst h
      rw [said]
      have h1 := forall₂_pySorted (fun a b hab => hab.1) (printsAs_pairs st flat (n + 1) d ps hv hi)
      have h2 := ((skipped_sep st).pairs.append
        (pairsRead_all (skipped_styleTabs st (n + 1)) (skipped_sep st) h1)).append (skipped_styleTabs st n).pairs
      have := printsAs_dict h2
      simpa using this

theorem printsAs_items (st : PbxStyle) (flat : Bool) : ∀ (n : Nat) (l : List PbxVal) (ps : List Str), PlainItems l →
    pbxItems st flat n l = some ps → List.Forall₂ PrintsAs ps (saidItems flat l)
  | _, [], ps, _, h => by
    simp only [pbxItems, Option.some.injEq] at h
    subst h
    exact .nil
  | n, v :: l, ps, hv, h => by
    simp only [PlainItems] at hv
    rw [pbxItems] at h
    cases h1 : pbxVal st flat n v with
    | none => rw [h1] at h; exact absurd h (by simp)
    | some p =>
      cases h2 : pbxItems st flat n l with
      | none => rw [h1, h2] at h; exact absurd h (by simp)
      | some qs =>
        rw [h1, h2] at h
        simp only [Option.some.injEq] at h
        subst h
        rw [saidItems]
        exact .cons (printsAs_val st flat n v p hv.1 h1) (printsAs_items st flat n l qs hv.2 h2)

theorem printsAs_pairs (st : PbxStyle) (flat : Bool) : ∀ (n : Nat) (d : List (Str × PbxVal)) (ps : List (Str × Str)),
    PlainPairs d → pbxPairs st flat n d = some ps → List.Forall₂ (PairReads st.alt) ps (saidPairs flat d)
  | _, [], ps, _, h => by
    simp only [pbxPairs, Option.some.injEq] at h
    subst h
    exact .nil
  | n, (k, v) :: d, ps, hv, h => by
    simp only [PlainPairs] at hv
    rw [pbxPairs] at h
    cases h1 : pbxVal st flat n v with
    | none => rw [h1] at h; exact absurd h (by simp)
    | some p =>
      cases h2 : pbxPairs st flat n d with
      | none => rw [h1, h2] at h; exact absurd h (by simp)
      | some qs =>
        rw [h1, h2] at h
        simp only [Option.some.injEq] at h
        subst h
        rw [saidPairs]
        exact .cons ⟨rfl, textReads_string st.alt hv.1.1, printsAs_val st flat n v p hv.1.2 h1⟩
          (printsAs_pairs st flat n d qs hv.2 h2)
end

/-! ### Properties -/

theorem pbxString_settings {a : Str} (h : PlainId a) :
    pbxString true (c!"{ATTRIBUTES = (" ++ a ++ c!", ); }") = '"' :: (c!"{ATTRIBUTES = (" ++ a ++ c!", ); }") ++ c!"\"" := by
  have hu : pbxUnquoted (c!"{ATTRIBUTES = (" ++ a ++ c!", ); }") = false := by
    have hl : (c!"{ATTRIBUTES = (" ++ a ++ c!", ); }").getLast? = some '}' := by rw [List.getLast?_append]; rfl
    unfold pbxUnquoted
    rw [hl]
    simp only [Option.some.injEq, Char.reduceEq, if_false]
    rw [Bool.and_eq_false_iff]; right
    show (pbxBareChar '{' && _) = false
    rfl
  have hc : ∀ s : Str, (∀ c ∈ s, c.isAlphanum = true) → s.flatMap (pbxChar true) = s := by
    intro s hs
    induction s with
    | nil => rfl
    | cons c s ih =>
      rw [List.flatMap_cons, ih fun d hd => hs d (by simp [hd])]
      have h0 := hs c (by simp)
      have h1 : c ≠ '\\' := by rintro rfl; exact absurd h0 (by decide)
      have h2 : c ≠ '"' := by rintro rfl; exact absurd h0 (by decide)
      have h3 : ¬ c.toNat < 32 := by
        intro hlt
        obtain ⟨n, hn, rfl⟩ : ∃ n, n < 32 ∧ c = Char.ofNat n := ⟨c.toNat, hlt, (Char.ofNat_toNat c).symm⟩
        have : ∀ n < 32, (Char.ofNat n).isAlphanum = false := by decide
        rw [this n hn] at h0
        exact absurd h0 (by decide)
      simp [pbxChar, h1, h2, h3]
  unfold pbxString
  rw [hu, Bool.false_and, if_neg (by decide), List.flatMap_append, List.flatMap_append, hc a h.2]
  rfl

theorem printsAs_settings {a : Str} (h : PlainId a) :
    PrintsAs (c!"{ATTRIBUTES = (" ++ a ++ c!", ); }") (.dict [(c!"ATTRIBUTES", .list [.text a])]) := by
  have h1 := printsAs_list ((itemsRead_one (textReads_id h).printsAs).append skipped_space.items)
  have h2 := printsAs_dict ((pairsRead_one (textReads_id (s := c!"ATTRIBUTES") ⟨by decide, by decide⟩) h1).append
    skipped_space.pairs)
  simpa using h2

theorem stripQuotes_quoted (s : Str) : stripQuotes ('"' :: s ++ c!"\"") = s := by
  unfold stripQuotes
  have h1 : ('"' :: s ++ c!"\"").length > 1 := by simp
  have h2 : ('"' :: s ++ c!"\"").head? = some '"' := rfl
  have h3 : ('"' :: s ++ c!"\"").getLast? = some '"' := by rw [List.getLast?_append]; rfl
  rw [if_pos ⟨h1, h2, h3⟩]
  simp

theorem printsAs_prop {cls key p : Str} {tabs : Nat} {v : PbxVal} {w : Plist} (hw : PropSaid cls key v w)
    (h : pbxProp cls tabs key v = some p) : PrintsAs p w := by
  unfold pbxProp at h
  cases hw with
  | target hc hk hid =>
    rw [if_pos ⟨hk, hc⟩] at h
    simp only [Option.some.injEq] at h
    subst h
    refine (textReads_string _ ⟨?_, ?_, ?_⟩).printsAs
    · intro hm; exact absurd (hid.2 _ hm) (by decide)
    · rintro - ⟨t, rfl⟩
      exact absurd (hid.2 '/' (by simp)) (by decide)
    · rintro t rfl
      exact absurd (hid.2 '\n' (by simp)) (by decide)
  | @settings a hc hk hid =>
    subst hc hk
    rw [if_neg (by decide)] at h
    simp only [pbxVal, Option.some.injEq, and_self, if_true] at h
    have e : (pbxStyle c!"PBXBuildFile").alt = true := rfl
    rw [e, pbxString_settings hid, stripQuotes_quoted] at h
    subst h
    exact printsAs_settings hid
  | other hc hk hv =>
    rw [if_neg fun e => hc ⟨e.2, e.1⟩] at h
    dsimp only at h
    cases hp : pbxVal (pbxStyle cls) (decide (key = c!"buildSettings" ∧ cls = c!"XCBuildConfiguration")) tabs v with
    | none => rw [hp] at h; exact absurd h (by simp)
    | some q =>
      rw [hp] at h
      simp only [Option.some.injEq] at h
      rw [if_neg fun e => hk ⟨e.2, e.1⟩] at h
      subst h
      exact printsAs_val _ _ _ _ _ hv hp

theorem pairsRead_kv {cls key t : Str} {tabs : Nat} {v : PbxVal} {w : Plist} (hk : PlainText key)
    (hw : PropSaid cls key v w) (h : pbxKV cls tabs key v = some t) : PairsRead t [(key, w)] := by
  unfold pbxKV at h
  obtain ⟨p, hp, rfl⟩ := Option.map_eq_some_iff.mp h
  exact pairsRead_line (skipped_styleTabs _ _) (skipped_sep _) (p := (key, p)) (w := (key, w))
    ⟨rfl, textReads_string _ hk, printsAs_prop hw hp⟩

theorem pbxTexts_read {α : Type} {f : α → Option Str} {R : α → List (Str × Plist) → Prop} :
    ∀ (l : List α) (t : Str), pbxTexts f l = some t →
      (∀ a ∈ l, ∀ p, f a = some p → ∃ ws, R a ws ∧ PairsRead p ws) →
      ∃ wss, List.Forall₂ R l wss ∧ PairsRead t wss.flatten
  | [], t, h, _ => by
    simp only [pbxTexts, Option.some.injEq] at h
    subst h
    exact ⟨[], .nil, skipped_nil.pairs⟩
  | a :: l, t, h, hf => by
    rw [pbxTexts] at h
    cases h1 : f a with
    | none => rw [h1] at h; exact absurd h (by simp)
    | some p =>
      cases h2 : pbxTexts f l with
      | none => rw [h1, h2] at h; exact absurd h (by simp)
      | some ts =>
        rw [h1, h2] at h
        simp only [Option.some.injEq] at h
        subst h
        obtain ⟨ws, hR, hp⟩ := hf a (by simp) p h1
        obtain ⟨wss, hRs, hps⟩ := pbxTexts_read l ts h2 fun b hb => hf b (by simp [hb])
        exact ⟨ws :: wss, .cons hR hRs, hp.append hps⟩

/-- One pair for each. -/
theorem pbxTexts_read_one {α : Type} {f : α → Option Str} {R : α → Str × Plist → Prop} {l : List α} {t : Str}
    (h : pbxTexts f l = some t) (hf : ∀ a ∈ l, ∀ p, f a = some p → ∃ w, R a w ∧ PairsRead p [w]) :
    ∃ ws, List.Forall₂ R l ws ∧ PairsRead t ws := by
  obtain ⟨wss, h1, h2⟩ := pbxTexts_read (R := fun a ws => ∃ w, ws = [w] ∧ R a w) l t h fun a ha p hp => by
    obtain ⟨w, hR, hw⟩ := hf a ha p hp
    exact ⟨[w], ⟨w, rfl, hR⟩, hw⟩
  refine ⟨wss.flatten, ?_, h2⟩
  clear h2 h hf
  induction h1 with
  | nil => exact .nil
  | cons hab _ ih =>
    obtain ⟨w, rfl, hR⟩ := hab
    exact .cons hR ih

theorem forall₂_akeys {α β : Type} {R : Str × α → Str × β → Prop} (hR : ∀ a b, R a b → a.1 = b.1)
    {l : List (Str × α)} {m : List (Str × β)} (h : List.Forall₂ R l m) : akeys l = akeys m := by
  induction h with
  | nil => rfl
  | cons hab _ ih =>
    show _ :: akeys _ = _ :: akeys _
    rw [hR _ _ hab, ih]

theorem akeys_pySorted {α : Type} (le : Str × α → Str × α → Bool) (l : List (Str × α)) :
    (akeys (pySorted le l)).Perm (akeys l) := (pySorted_perm le l).map _

theorem plainId_text {s : Str} (h : PlainId s) : PlainText s := by
  refine ⟨?_, ?_, ?_⟩
  · intro hm; exact absurd (h.2 _ hm) (by decide)
  · rintro - ⟨t, rfl⟩
    exact absurd (h.2 '/' (by simp)) (by decide)
  · rintro t rfl
    exact absurd (h.2 '\n' (by simp)) (by decide)

theorem object_read {o : PbxObject} (ho : PlainObject o) {t : Str} (h : pbxObject o = some t) :
    ∃ w, (w.1 = o.id ∧ ObjectSaid o w.2) ∧ PairsRead t [w] := by
  unfold pbxObject at h
  dsimp only at h
  cases h1 : pbxKV o.cls 3 c!"isa" (.text o.cls) with
  | none => rw [h1] at h; exact absurd h (by simp)
  | some isa =>
    cases h2 : pbxTexts (fun p : Str × PbxVal => pbxKV o.cls 3 p.1 p.2) (pySorted keyLe o.props) with
    | none => rw [h1, h2] at h; exact absurd h (by simp)
    | some props =>
      rw [h1, h2] at h
      simp only [Option.some.injEq] at h
      subst h
      have r1 : PairsRead isa [(c!"isa", .text o.cls)] := by
        have := PropSaid.other (cls := o.cls) (key := c!"isa") (v := .text o.cls) (by simp) (by simp)
          (by simp only [Plain]; exact plainId_text ho.cls)
        rw [said] at this
        exact pairsRead_kv (plainId_text ⟨by decide, by decide⟩) this h1
      obtain ⟨ws, hws, r2⟩ := pbxTexts_read_one
        (R := fun p w => p.1 = w.1 ∧ PropSaid o.cls p.1 p.2 w.2) h2 fun p hp q hq => by
          have hm : (p.1, p.2) ∈ o.props := (pySorted_perm keyLe o.props).mem_iff.mp hp
          obtain ⟨hk, x, hx⟩ := ho.props _ _ hm
          exact ⟨(p.1, x), ⟨rfl, hx⟩, pairsRead_kv hk hx hq⟩
      have hkeys : (akeys ws).Perm (akeys o.props) := by
        rw [← forall₂_akeys (fun a b hab => hab.1) hws]
        exact akeys_pySorted _ _
      have hnd : (akeys ((c!"isa", Plist.text o.cls) :: ws)).Nodup := (hkeys.cons c!"isa").nodup_iff.mpr ho.keys
      refine ⟨(o.id, .dict ((c!"isa", .text o.cls) :: ws)), ⟨rfl, _, rfl, ?_, ?_, hkeys.cons _⟩, ?_⟩
      · exact aget_of_mem hnd (by simp)
      · intro k v hm
        obtain ⟨w, hw, e, hs⟩ := forall₂_mem_left hws ((pySorted_perm keyLe o.props).mem_iff.mpr hm)
        refine ⟨w.2, hs, aget_of_mem hnd ?_⟩
        simp only at e
        rw [e]
        exact List.mem_cons_of_mem _ hw
      · have hb1 : Skipped (if (pbxStyle o.cls).single = true then [] else c!"\n") := by
          split
          · exact skipped_nil
          · exact skipped_newline
        have hb2 : Skipped (if (pbxStyle o.cls).single = true then [] else pbxTabs 2) := by
          split
          · exact skipped_nil
          · exact skipped_tabs 2
        have hd := printsAs_dict ((hb1.pairs.append (r1.append r2)).append hb2.pairs)
        have hp := (skipped_tabs 2).pairs.append ((pairsRead_one (textReads_ref o.comment ho.id) hd).append skipped_newline.pairs)
        simpa using hp

/-! ### The file -/

theorem mem_pbxClasses (objects : List PbxObject) (c : Str) :
    c ∈ pbxClasses objects ↔ ∃ o ∈ objects, o.cls = c := by
  induction objects with
  | nil => simp [pbxClasses]
  | cons o l ih =>
    unfold pbxClasses
    dsimp only
    split
    · rename_i hm
      rw [ih]
      constructor
      · rintro ⟨x, hx, e⟩; exact ⟨x, by simp [hx], e⟩
      · rintro ⟨x, hx, e⟩
        rcases List.mem_cons.mp hx with rfl | hx
        · rw [← e]; exact ih.mp (e ▸ hm)|>.elim fun y hy => ⟨y, hy.1, hy.2.trans e.symm ▸ rfl⟩
        · exact ⟨x, hx, e⟩
    · rw [List.mem_cons, ih]
      constructor
      · rintro (rfl | ⟨x, hx, e⟩)
        · exact ⟨o, by simp, rfl⟩
        · exact ⟨x, by simp [hx], e⟩
      · rintro ⟨x, hx, e⟩
        rcases List.mem_cons.mp hx with rfl | hx
        · exact .inl e.symm
        · exact .inr ⟨x, hx, e⟩

theorem pbxClasses_nodup (objects : List PbxObject) : (pbxClasses objects).Nodup := by
  induction objects with
  | nil => exact List.nodup_nil
  | cons o l ih =>
    unfold pbxClasses
    dsimp only
    split
    · exact ih
    · rename_i hm; exact List.nodup_cons.mpr ⟨hm, ih⟩

theorem gap_block_free {s : Str} (x : Str) (h : '*' ∉ s) : gap .block (s ++ x) = gap .block x := by
  induction s with
  | nil => rfl
  | cons c s ih =>
    rw [List.cons_append, gap_block_cons, ih fun hm => h (by simp [hm])]
    intro t e
    injection e with e _
    exact h (by simp [e])

theorem skipped_class {s : Str} (h : '*' ∉ s) : Skipped (c!"/*" ++ s ++ c!"*/") := fun x => by
  rw [List.append_assoc, List.append_assoc]
  show gap .blank ('/' :: '*' :: (s ++ (c!"*/" ++ x))) = _
  rw [gap, gap_block_free _ h]
  show gap .block ('*' :: '/' :: x) = _
  conv => lhs; rw [gap]

/-- The objects in the order of the file. -/
def fileOrder (objects : List PbxObject) : List PbxObject :=
  (pySorted strLe (pbxClasses objects)).flatMap fun c =>
    pySorted (fun a b => strLe a.id b.id) (objects.filter fun o => o.cls = c)

theorem mem_fileOrder (objects : List PbxObject) (o : PbxObject) : o ∈ fileOrder objects ↔ o ∈ objects := by
  unfold fileOrder
  rw [List.mem_flatMap]
  constructor
  · rintro ⟨c, _, hm⟩
    exact (List.mem_filter.mp ((pySorted_perm _ _).mem_iff.mp hm)).1
  · intro hm
    refine ⟨o.cls, (pySorted_perm _ _).mem_iff.mpr ((mem_pbxClasses _ _).mpr ⟨o, hm, rfl⟩), ?_⟩
    exact (pySorted_perm _ _).mem_iff.mpr (List.mem_filter.mpr ⟨hm, by simp⟩)

theorem fileOrder_perm {objects : List PbxObject} (hn : (objects.map PbxObject.id).Nodup) :
    (fileOrder objects).Perm objects := by
  have hn' : objects.Nodup := List.Nodup.of_map _ hn
  refine (List.perm_ext_iff_of_nodup ?_ hn').mpr (mem_fileOrder objects)
  unfold fileOrder
  refine List.nodup_flatMap.mpr ⟨fun c _ => (pySorted_perm _ _).nodup_iff.mpr (hn'.filter _), ?_⟩
  have hc : (pySorted strLe (pbxClasses objects)).Nodup := (pySorted_perm _ _).nodup_iff.mpr (pbxClasses_nodup objects)
  refine hc.imp ?_
  intro a b hab o h1 h2
  have e1 := (List.mem_filter.mp ((pySorted_perm _ _).mem_iff.mp h1)).2
  have e2 := (List.mem_filter.mp ((pySorted_perm _ _).mem_iff.mp h2)).2
  simp only [decide_eq_true_eq] at e1 e2
  exact hab (e1.symm.trans e2)

theorem section_read {objects : List PbxObject} (ho : ∀ o ∈ objects, PlainObject o) {c t : Str}
    (hc : c ∈ pbxClasses objects) (h : pbxSection objects c = some t) :
    ∃ ws, List.Forall₂ (fun o w => w.1 = o.id ∧ ObjectSaid o w.2)
      (pySorted (fun a b => strLe a.id b.id) (objects.filter fun o => o.cls = c)) ws ∧ PairsRead t ws := by
  unfold pbxSection at h
  cases h1 : pbxTexts pbxObject (pySorted (fun a b => strLe a.id b.id) (objects.filter fun o => o.cls = c)) with
  | none => rw [h1] at h; exact absurd h (by simp)
  | some u =>
    rw [h1] at h
    simp only [Option.some.injEq] at h
    subst h
    obtain ⟨ws, hws, hr⟩ := pbxTexts_read_one h1 fun o hm p hp => object_read
      (ho o (List.mem_filter.mp ((pySorted_perm _ _).mem_iff.mp hm)).1) hp
    refine ⟨ws, hws, ?_⟩
    obtain ⟨o, hm, rfl⟩ := (mem_pbxClasses _ _).mp hc
    have hstar : '*' ∉ o.cls := fun hm' => absurd ((ho o hm).cls.2 _ hm') (by decide)
    have e1 : Skipped (c!"\n" ++ (c!"/*" ++ (c!" Begin " ++ o.cls ++ c!" section ") ++ c!"*/") ++ c!"\n") :=
      skipped_append (skipped_append skipped_newline (skipped_class (by simp [hstar]))) skipped_newline
    have e2 : Skipped ((c!"/*" ++ (c!" End " ++ o.cls ++ c!" section ") ++ c!"*/") ++ c!"\n") :=
      skipped_append (skipped_class (by simp [hstar])) skipped_newline
    have := (e1.pairs.append hr).append e2.pairs
    simpa using this

theorem forall₂_flatten {α β γ : Type} {R : β → γ → Prop} {f : α → List β} {l : List α} {wss : List (List γ)}
    (h : List.Forall₂ (fun a ws => List.Forall₂ R (f a) ws) l wss) : List.Forall₂ R (l.flatMap f) wss.flatten := by
  induction h with
  | nil => exact .nil
  | cons hab _ ih =>
    rw [List.flatMap_cons, List.flatten_cons]
    exact List.rel_append hab ih

theorem objects_read {objects : List PbxObject} (ho : ∀ o ∈ objects, PlainObject o) {t : Str}
    (h : pbxObjects objects = some t) :
    ∃ ws, List.Forall₂ (fun o w => w.1 = o.id ∧ ObjectSaid o w.2) (fileOrder objects) ws ∧
      PairsRead t [(c!"objects", .dict ws)] := by
  unfold pbxObjects at h
  obtain ⟨u, hu, rfl⟩ := Option.map_eq_some_iff.mp h
  obtain ⟨wss, h1, h2⟩ := pbxTexts_read _ _ hu fun c hc p hp =>
    section_read ho ((pySorted_perm _ _).mem_iff.mp hc) hp
  refine ⟨wss.flatten, forall₂_flatten h1, ?_⟩
  have hd := printsAs_dict ((skipped_newline.pairs.append h2).append (skipped_tabs 1).pairs)
  have hp := (skipped_tabs 1).pairs.append
    ((pairsRead_one (textReads_id (s := c!"objects") ⟨by decide, by decide⟩) hd).append skipped_newline.pairs)
  simpa [pbxTabs] using hp

theorem forall₂_object_ids {l : List PbxObject} {ws : List (Str × Plist)}
    (h : List.Forall₂ (fun o w => w.1 = o.id ∧ ObjectSaid o w.2) l ws) : akeys ws = l.map PbxObject.id := by
  induction h with
  | nil => rfl
  | cons hab _ ih =>
    show _ :: akeys _ = _ :: _
    rw [hab.1, ih]

theorem fileSays_dict {t pre : Str} {ws : List (Str × Plist)} (hpre : Skipped pre) (h : PairsRead t ws) :
    FileSays (pre ++ '{' :: (t ++ c!"}\n")) (.dict ws) := by
  obtain ⟨M, hM⟩ := h ('}' :: c!"\n") [] c!"\n" 1 (readPairs_end _)
  refine ⟨M + 1, fun n hn => ⟨c!"\n", ?_, rfl⟩⟩
  obtain ⟨m, rfl⟩ : ∃ m, n = m + 1 := ⟨n - 1, by omega⟩
  rw [readVal, hpre, gap_stay (by decide) (by decide) (by decide) (by intro e; exact absurd e (by decide))]
  simp [hM m (by omega)]

end Gyp
