import Verif.Spec.Json
import Verif.Props.Shard
/-
C65: the settings that `configure` writes are read back by `gyp` and by `build`.
-/
namespace Gyp
open Spec

/-! ### Strings -/

theorem jsonHex_hexLower {n : Nat} (h : n < 16) : jsonHex (hexLower n) = some n := by
  have : ∀ m : Fin 16, jsonHex (hexLower m.val) = some m.val := by decide +kernel
  exact this ⟨n, h⟩

theorem readString_u {a b c e : Char} {x y z w : Nat} (ha : jsonHex a = some x) (hb : jsonHex b = some y)
    (hc : jsonHex c = some z) (he : jsonHex e = some w) (r : Str)
    (hn : ((x * 16 + y) * 16 + z) * 16 + w < 0xD800) :
    readString ('\\' :: 'u' :: a :: b :: c :: e :: r) =
      (readString r).map fun p => (Char.ofNat (((x * 16 + y) * 16 + z) * 16 + w) :: p.1, p.2) := by
  conv => lhs; rw [readString]
  simp only [ha, hb, hc, he]
  rw [if_pos (Or.inl hn)]

theorem readString_plain {c : Char} (h1 : c ≠ '"') (h2 : c ≠ '\\') (h3 : ¬ c.toNat < 32) (r : Str) :
    readString (c :: r) = (readString r).map fun p => (c :: p.1, p.2) := by
  conv => lhs; unfold readString
  split
  · rename_i h; cases h
  · rename_i h; cases h; exact absurd rfl h1
  · rename_i h; cases h; exact absurd rfl h2
  · rename_i h; cases h; exact absurd rfl h2
  · rename_i h; cases h; rw [if_neg h3]

theorem readString_char (c : Char) (r : Str) :
    readString (jsonChar c ++ r) = (readString r).map fun p => (c :: p.1, p.2) := by
  unfold jsonChar
  by_cases h1 : c = '\x08'
  · subst h1; rw [if_pos rfl]; show readString ('\\' :: 'b' :: r) = _; rw [readString]; rfl
    all_goals (intros; rename_i h _; exact absurd h (by decide))
  rw [if_neg h1]
  by_cases h2 : c = '\t'
  · subst h2; rw [if_pos rfl]; show readString ('\\' :: 't' :: r) = _; rw [readString]; rfl
    all_goals (intros; rename_i h _; exact absurd h (by decide))
  rw [if_neg h2]
  by_cases h3 : c = '\n'
  · subst h3; rw [if_pos rfl]; show readString ('\\' :: 'n' :: r) = _; rw [readString]; rfl
    all_goals (intros; rename_i h _; exact absurd h (by decide))
  rw [if_neg h3]
  by_cases h4 : c = '\x0c'
  · subst h4; rw [if_pos rfl]; show readString ('\\' :: 'f' :: r) = _; rw [readString]; rfl
    all_goals (intros; rename_i h _; exact absurd h (by decide))
  rw [if_neg h4]
  by_cases h5 : c = '\r'
  · subst h5; rw [if_pos rfl]; show readString ('\\' :: 'r' :: r) = _; rw [readString]; rfl
    all_goals (intros; rename_i h _; exact absurd h (by decide))
  rw [if_neg h5]
  by_cases h6 : c = '"'
  · subst h6; rw [if_pos rfl]; show readString ('\\' :: '"' :: r) = _; rw [readString]; rfl
    all_goals (intros; rename_i h _; exact absurd h (by decide))
  rw [if_neg h6]
  by_cases h7 : c = '\\'
  · subst h7; rw [if_pos rfl]; show readString ('\\' :: '\\' :: r) = _; rw [readString]; rfl
    all_goals (intros; rename_i h _; exact absurd h (by decide))
  rw [if_neg h7]
  by_cases h8 : c.toNat < 32
  · rw [if_pos h8]
    show readString ('\\' :: 'u' :: '0' :: '0' :: hexLower (c.toNat / 16) :: hexLower (c.toNat % 16) :: r) = _
    have e0 : jsonHex '0' = some 0 := by decide
    rw [readString_u e0 e0 (jsonHex_hexLower (n := c.toNat / 16) (by omega))
      (jsonHex_hexLower (n := c.toNat % 16) (by omega)) r (by omega)]
    have : ((0 * 16 + 0) * 16 + c.toNat / 16) * 16 + c.toNat % 16 = c.toNat := by omega
    rw [this, Char.ofNat_toNat]
  · rw [if_neg h8]
    exact readString_plain h6 h7 h8 r

theorem readString_written (s r : Str) :
    readString (s.flatMap jsonChar ++ '"' :: r) = some (s, r) := by
  induction s with
  | nil => show readString ('"' :: r) = _; rw [readString]
  | cons c s ih =>
    rw [List.flatMap_cons, List.append_assoc, readString_char, ih]
    rfl

/-! ### Integers -/

theorem toDigits_no_zero (n : Nat) :
    ¬ ((Nat.toDigits 10 n).head? = some '0' ∧ (Nat.toDigits 10 n).length ≠ 1) := by
  by_cases h : n = 0
  · subst h; decide
  · rintro ⟨h1, -⟩
    obtain ⟨c, r, e, hc⟩ := toDigits_head n (by omega)
    rw [e] at h1
    have : c = '0' := by simpa using h1
    rw [this] at hc
    exact absurd hc (by decide)

/-- What may follow an integer. -/
def intEnds (r : Str) : Prop := ∀ c ∈ r.head?, decChar c = false ∧ c ≠ '.' ∧ c ≠ 'e' ∧ c ≠ 'E'

theorem decChar_true {c : Char} : decChar c = true ↔ '0' ≤ c ∧ c ≤ '9' := by
  unfold decChar; simp

theorem takeWhile_stop {p : Char → Bool} {a r : Str} (ha : ∀ c ∈ a, p c = true) (hr : ∀ c ∈ r.head?, p c = false) :
    (a ++ r).takeWhile p = a ∧ (a ++ r).dropWhile p = r := by
  induction a with
  | nil =>
    cases r with
    | nil => exact ⟨rfl, rfl⟩
    | cons c r => have := hr c rfl; simp [this]
  | cons c a ih =>
    have h1 := ha c (by simp)
    obtain ⟨h2, h3⟩ := ih fun x hx => ha x (by simp [hx])
    simp [h1, h2, h3]

theorem readInt_nat (n : Nat) {r : Str} (hr : intEnds r) :
    readInt (Nat.toDigits 10 n ++ r) = some ((n : Int), r) := by
  have hd := natStr_digits n
  have e : natStr n = Nat.toDigits 10 n := rfl
  rw [e] at hd
  obtain ⟨h1, h2, h3⟩ := hd
  have hm : (Nat.toDigits 10 n ++ r).head? ≠ some '-' := by
    rw [List.head?_append_of_ne_nil _ h1]
    intro h
    have := h2 '-' (List.mem_of_mem_head? h)
    exact absurd this (by decide)
  obtain ⟨t1, t2⟩ := takeWhile_stop (p := decChar) (a := Nat.toDigits 10 n) (r := r)
    (fun c hc => decChar_true.mpr (h2 c hc)) (fun c hc => (hr c hc).1)
  unfold readInt
  simp only [if_neg hm, t1, t2]
  rw [if_neg (by rintro (h | h); exacts [h1 h, toDigits_no_zero n h])]
  rw [if_neg]
  · have : decValue (Nat.toDigits 10 n) = n := h3
    rw [this]
  · rintro (h | h | h)
    · exact (hr _ h).2.1 rfl
    · exact (hr _ h).2.2.1 rfl
    · exact (hr _ h).2.2.2 rfl

theorem readInt_written (i : Int) {r : Str} (hr : intEnds r) : readInt (intStr i ++ r) = some (i, r) := by
  cases i with
  | ofNat n => exact readInt_nat n hr
  | negSucc n =>
    have h := readInt_nat (n + 1) hr
    show readInt ('-' :: (Nat.toDigits 10 (n + 1) ++ r)) = _
    have hm : (Nat.toDigits 10 (n + 1) ++ r).head? ≠ some '-' := by
      rw [List.head?_append_of_ne_nil _ Nat.toDigits_ne_nil]
      intro h
      have := (natStr_digits (n + 1)).2.1 '-' (List.mem_of_mem_head? h)
      exact absurd this (by decide)
    unfold readInt at h ⊢
    simp only [if_neg hm] at h
    simp only [List.head?_cons, if_true, List.tail_cons]
    split at h
    · cases h
    · rename_i c1
      rw [if_neg c1]
      split at h
      · cases h
      · rename_i c2
        rw [if_neg c2]
        simp only [Option.some.injEq, Prod.mk.injEq] at h ⊢
        exact ⟨by rw [h.1]; rfl, h.2⟩

/-! ### Values -/

/-- Blanks are skipped. -/
theorem skipBlank_blank (d : Dialect) {a : Str} (ha : ∀ c ∈ a, c = ' ' ∨ c = '\n') (r : Str) :
    skipBlank d (a ++ r) = skipBlank d r := by
  induction a with
  | nil => rfl
  | cons c a ih =>
    have h := ha c (by simp)
    have hc : c = ' ' ∨ c = '\t' ∨ c = '\n' ∨ c = '\r' := by
      rcases h with h | h
      · exact .inl h
      · exact .inr (.inr (.inl h))
    rw [List.cons_append, skipBlank, if_pos hc]
    exact ih fun x hx => ha x (by simp [hx])

theorem skipBlank_stop (d : Dialect) {c : Char} (h : ¬ (c = ' ' ∨ c = '\t' ∨ c = '\n' ∨ c = '\r'))
    (h' : c ≠ '#') (r : Str) : skipBlank d (c :: r) = c :: r := by
  rw [skipBlank, if_neg h, if_neg fun x => h' x.2]

mutual
/-- The number of steps that reading the text of a value takes. -/
def jneed : JVal → Nat
  | .arr l => 1 + jneedL l
  | .obj l => 1 + jneedM l
  | .null => 1
  | .bool _ => 1
  | .num _ => 1
  | .str _ => 1
def jneedL : List JVal → Nat
  | [] => 0
  | x :: xs => 1 + max (jneed x) (jneedL xs)
def jneedM : List (Str × JVal) → Nat
  | [] => 0
  | (_, x) :: xs => 1 + max (jneed x) (jneedM xs)
end

/-- Indentation. -/
def IndentText (s : Str) : Prop := ∀ c ∈ s, c = ' '

theorem IndentText.more {s : Str} (h : IndentText s) : IndentText (s ++ c!"  ") := by
  intro c hc
  rcases List.mem_append.mp hc with hc | hc
  · exact h c hc
  · revert hc; simp

theorem IndentText.blank {s : Str} (h : IndentText s) : ∀ c ∈ s, c = ' ' ∨ c = '\n' := fun c hc => .inl (h c hc)

/-- The text of a value starts with one of these. -/
def valueStart (c : Char) : Prop :=
  c = '"' ∨ c = '[' ∨ c = '{' ∨ c = 'n' ∨ c = '-' ∨ ('0' ≤ c ∧ c ≤ '9')

theorem valueStart_stop {c : Char} (h : valueStart c) :
    ¬ (c = ' ' ∨ c = '\t' ∨ c = '\n' ∨ c = '\r') ∧ c ≠ '#' ∧ c ≠ ']' ∧ c ≠ '}' := by
  rcases h with h | h | h | h | h | h
  all_goals try (subst h; decide)
  refine ⟨?_, ?_, ?_, ?_⟩
  · rintro (e | e | e | e) <;> (subst e; exact absurd h (by decide))
  all_goals (intro e; subst e; exact absurd h (by decide))

theorem intStr_start (i : Int) : ∃ c r, intStr i = c :: r ∧ (c = '-' ∨ ('0' ≤ c ∧ c ≤ '9')) := by
  cases i with
  | ofNat n =>
    have h := (natStr_digits n)
    cases e : intStr (Int.ofNat n) with
    | nil => exact absurd e h.1
    | cons c r => exact ⟨c, r, rfl, .inr (h.2.1 c (by show c ∈ intStr (Int.ofNat n); rw [e]; simp))⟩
  | negSucc n => exact ⟨'-', _, rfl, .inl rfl⟩

theorem jsonText_start (ind : Str) (v : JVal) : ∃ c r, jsonText ind v = c :: r ∧ valueStart c := by
  cases v with
  | null => exact ⟨'n', _, by rw [jsonText], by unfold valueStart; simp⟩
  | bool b => exact ⟨'"', _, by rw [jsonText]; rfl, by unfold valueStart; simp⟩
  | num i =>
    obtain ⟨c, r, h, h'⟩ := intStr_start i
    refine ⟨c, r, by rw [jsonText]; exact h, ?_⟩
    unfold valueStart
    tauto
  | str s => exact ⟨'"', _, by rw [jsonText]; rfl, by unfold valueStart; simp⟩
  | arr l => cases l <;> exact ⟨'[', _, by simp only [jsonText, List.cons_append]; try rfl, by unfold valueStart; simp⟩
  | obj l => cases l <;> exact ⟨'{', _, by simp only [jsonText, List.cons_append]; try rfl, by unfold valueStart; simp⟩

/-- What a reader finds after a value. -/
def valueEnds (r : Str) : Prop := ∀ c ∈ r.head?, c = ',' ∨ c = '\n'

theorem valueEnds.int {r : Str} (h : valueEnds r) : intEnds r := by
  intro c hc
  rcases h c hc with h | h <;> (subst h; decide)

/-- `null` is allowed for JSON only. -/
def nullOk (d : Dialect) (v : JVal) : Prop := d = .json ∨ noNull v

theorem skipBlank_value (d : Dialect) (ind : Str) (v : JVal) {b : Str} (hb : ∀ c ∈ b, c = ' ' ∨ c = '\n') (r : Str) :
    skipBlank d (b ++ (jsonText ind v ++ r)) = jsonText ind v ++ r := by
  obtain ⟨c, s, h, hs⟩ := jsonText_start ind v
  rw [skipBlank_blank d hb, h, List.cons_append, skipBlank_stop d (valueStart_stop hs).1 (valueStart_stop hs).2.1]

theorem skipBlank_char (d : Dialect) {c : Char} (h : c = ',' ∨ c = ']' ∨ c = '}' ∨ c = ':' ∨ c = '"' ∨ c = '[' ∨ c = '{') {b : Str}
    (hb : ∀ c ∈ b, c = ' ' ∨ c = '\n') (r : Str) : skipBlank d (b ++ c :: r) = c :: r := by
  rw [skipBlank_blank d hb]
  rcases h with h | h | h | h | h | h | h <;> (subst h; exact skipBlank_stop d (by decide) (by decide) r)

theorem readValue_str {d : Dialect} {s k r : Str} (n : Nat) (h : skipBlank d s = '"' :: (k.flatMap jsonChar ++ '"' :: r)) :
    readValue d (n + 1) s = some (.str k, r) := by
  rw [readValue, h]
  simp only [readString_written]
  rfl

theorem readValue_arr0 {d : Dialect} {s r r' : Str} (n : Nat) (h : skipBlank d s = '[' :: r)
    (h' : skipBlank d r = ']' :: r') : readValue d (n + 1) s = some (.arr [], r') := by
  rw [readValue, h]
  simp only [h']

theorem readValue_arr {d : Dialect} {s r : Str} (n : Nat) (h : skipBlank d s = '[' :: r)
    (h' : (skipBlank d r).head? ≠ some ']') :
    readValue d (n + 1) s = (readItems d n r).map fun p => (.arr p.1, p.2) := by
  rw [readValue, h]
  simp only
  split
  · rename_i e; exact absurd (by rw [e]; rfl) h'
  · rfl

theorem readValue_obj0 {d : Dialect} {s r r' : Str} (n : Nat) (h : skipBlank d s = '{' :: r)
    (h' : skipBlank d r = '}' :: r') : readValue d (n + 1) s = some (.obj [], r') := by
  rw [readValue, h]
  simp only [h']

theorem readValue_obj {d : Dialect} {s r : Str} (n : Nat) (h : skipBlank d s = '{' :: r)
    (h' : (skipBlank d r).head? ≠ some '}') :
    readValue d (n + 1) s = (readMembers d n r).map fun p => (.obj p.1, p.2) := by
  rw [readValue, h]
  simp only
  split
  · rename_i e; exact absurd (by rw [e]; rfl) h'
  · rfl

theorem readItems_last {d : Dialect} {s r r' : Str} {n : Nat} {v : JVal} (h : readValue d n s = some (v, r))
    (h' : skipBlank d r = ']' :: r') : readItems d (n + 1) s = some ([v], r') := by
  rw [readItems, h]
  simp only [h']

theorem readItems_more {d : Dialect} {s r r' : Str} {n : Nat} {v : JVal} (h : readValue d n s = some (v, r))
    (h' : skipBlank d r = ',' :: r') :
    readItems d (n + 1) s = (readItems d n r').map fun p => (v :: p.1, p.2) := by
  rw [readItems, h]
  simp only [h']

theorem readMembers_last {d : Dialect} {s k r r1 r2 r' : Str} {n : Nat} {v : JVal}
    (h0 : skipBlank d s = '"' :: (k.flatMap jsonChar ++ '"' :: r1)) (h1 : skipBlank d r1 = ':' :: r2)
    (h : readValue d n r2 = some (v, r))
    (h' : skipBlank d r = '}' :: r') : readMembers d (n + 1) s = some ([(k, v)], r') := by
  rw [readMembers, h0]
  simp only [readString_written, h1, h, h']

theorem readMembers_more {d : Dialect} {s k r r1 r2 r' : Str} {n : Nat} {v : JVal}
    (h0 : skipBlank d s = '"' :: (k.flatMap jsonChar ++ '"' :: r1)) (h1 : skipBlank d r1 = ':' :: r2)
    (h : readValue d n r2 = some (v, r)) (h' : skipBlank d r = ',' :: r') :
    readMembers d (n + 1) s = (readMembers d n r').map fun p => ((k, v) :: p.1, p.2) := by
  rw [readMembers, h0]
  simp only [readString_written, h1, h, h']

theorem readValue_int {d : Dialect} {b r : Str} (hb : ∀ c ∈ b, c = ' ' ∨ c = '\n') (i : Int) (hr : intEnds r) (n : Nat) :
    readValue d (n + 1) (b ++ (intStr i ++ r)) = some (.num i, r) := by
  obtain ⟨c, s, h, h'⟩ := intStr_start i
  have hi := readInt_written i hr
  rw [readValue, skipBlank_blank d hb]
  rw [h, List.cons_append] at hi ⊢
  have hs : valueStart c := by unfold valueStart; tauto
  rw [skipBlank_stop d (valueStart_stop hs).1 (valueStart_stop hs).2.1]
  have n1 : c ≠ '"' := by rintro rfl; exact absurd h' (by decide)
  have n2 : c ≠ '[' := by rintro rfl; exact absurd h' (by decide)
  have n3 : c ≠ '{' := by rintro rfl; exact absurd h' (by decide)
  have n4 : c ≠ 't' := by rintro rfl; exact absurd h' (by decide)
  have n5 : c ≠ 'f' := by rintro rfl; exact absurd h' (by decide)
  have n6 : c ≠ 'n' := by rintro rfl; exact absurd h' (by decide)
  split
  · rename_i e; cases e; exact absurd rfl n1
  · rename_i e; cases e; exact absurd rfl n2
  · rename_i e; cases e; exact absurd rfl n3
  · have a1 : Spec.after (c :: (s ++ r)) c!"true" = none := by simp [Spec.after, n4]
    have a2 : Spec.after (c :: (s ++ r)) c!"false" = none := by simp [Spec.after, n5]
    have a3 : Spec.after (c :: (s ++ r)) c!"null" = none := by simp [Spec.after, n6]
    rw [a1, a2, a3, hi]
    simp

/-- Blanks. -/
def Blanks (b : Str) : Prop := ∀ c ∈ b, c = ' ' ∨ c = '\n'

theorem Blanks.append {a b : Str} (ha : Blanks a) (hb : Blanks b) : Blanks (a ++ b) := by
  intro c hc
  rcases List.mem_append.mp hc with hc | hc
  · exact ha c hc
  · exact hb c hc

theorem Blanks.nl {b : Str} (hb : Blanks b) : Blanks ('\n' :: b) := by
  intro c hc
  rcases List.mem_cons.mp hc with hc | hc
  · exact .inr hc
  · exact hb c hc

theorem jsonItems_start (ind : Str) (x : JVal) (xs : List JVal) :
    ∃ r, jsonItems ind (x :: xs) = ind ++ (jsonText ind x ++ r) := by
  cases xs with
  | nil => exact ⟨[], by rw [jsonItems, List.append_nil]⟩
  | cons y ys => exact ⟨c!",\n" ++ jsonItems ind (y :: ys), by rw [jsonItems]; simp⟩

theorem jsonMembers_start (ind : Str) (x : Str × JVal) (xs : List (Str × JVal)) :
    ∃ r, jsonMembers ind (x :: xs) = ind ++ ('"' :: r) := by
  obtain ⟨k, x⟩ := x
  cases xs with
  | nil => exact ⟨_, by rw [jsonMembers, jsonString]; simp only [List.append_assoc, List.cons_append, List.nil_append]; rfl⟩
  | cons y ys =>
    exact ⟨_, by rw [jsonMembers, jsonString]; simp only [List.append_assoc, List.cons_append, List.nil_append]; rfl⟩

theorem not_close {d : Dialect} {ind b : Str} (hb : Blanks b) (v : JVal) (r : Str) :
    (skipBlank d (b ++ (jsonText ind v ++ r))).head? ≠ some ']' := by
  rw [skipBlank_value d ind v hb]
  obtain ⟨c, s, h, hs⟩ := jsonText_start ind v
  rw [h]
  intro e
  exact (valueStart_stop hs).2.2.1 (by simpa using e)

theorem valueEnds_comma (r : Str) : valueEnds (',' :: r) := by intro c hc; left; simpa using hc.symm
theorem valueEnds_nl (r : Str) : valueEnds ('\n' :: r) := by intro c hc; right; simpa using hc.symm

mutual
theorem readValue_written (d : Dialect) : ∀ (v : JVal) (b ind r : Str) (n : Nat), jneed v ≤ n → Blanks b → IndentText ind →
    valueEnds r → (d = .json ∨ noNull v) → readValue d n (b ++ (jsonText ind v ++ r)) = some (boolsAsText v, r)
  | .null, b, ind, r, n, hn, hb, hi, hr, hd => by
    cases n with
    | zero => unfold jneed at hn; omega
    | succ n =>
      have hj : d = .json := by
        rcases hd with h | h
        · exact h
        · unfold noNull at h; exact h.elim
      subst hj
      rw [readValue, skipBlank_value _ _ _ hb, jsonText]
      rfl
  | .bool t, b, ind, r, n, hn, hb, hi, hr, hd => by
    cases n with
    | zero => unfold jneed at hn; omega
    | succ n =>
      rw [readValue_str n (k := if t then c!"true" else c!"false") (r := r)
        (by rw [skipBlank_value d ind _ hb, jsonText, jsonString]; simp)]
      cases t <;> rfl
  | .num i, b, ind, r, n, hn, hb, hi, hr, hd => by
    cases n with
    | zero => unfold jneed at hn; omega
    | succ n =>
      rw [jsonText]
      exact readValue_int hb i hr.int n
  | .str s, b, ind, r, n, hn, hb, hi, hr, hd => by
    cases n with
    | zero => unfold jneed at hn; omega
    | succ n =>
      exact readValue_str n (k := s) (r := r) (by rw [skipBlank_value d ind _ hb, jsonText, jsonString]; simp)
  | .arr [], b, ind, r, n, hn, hb, hi, hr, hd => by
    cases n with
    | zero => unfold jneed at hn; omega
    | succ n =>
      exact readValue_arr0 n (r := ']' :: r) (by rw [skipBlank_value d ind _ hb, jsonText]; simp)
        (skipBlank_stop d (by decide) (by decide) r)
  | .arr (x :: xs), b, ind, r, n, hn, hb, hi, hr, hd => by
    cases n with
    | zero => unfold jneed at hn; omega
    | succ n =>
      have ih := readItems_written d (x :: xs) (by simp) (ind ++ c!"  ") ind r n (by unfold jneed at hn; omega) hi.more hi
        (by unfold noNull at hd; exact hd)
      rw [readValue_arr n (r := '\n' :: (jsonItems (ind ++ c!"  ") (x :: xs) ++ '\n' :: (ind ++ ']' :: r)))
        (by rw [skipBlank_value d ind _ hb, jsonText]; simp), ih]
      · rfl
      · obtain ⟨t, ht⟩ := jsonItems_start (ind ++ c!"  ") x xs
        rw [ht]
        have := not_close (d := d) (ind := ind ++ c!"  ") (Blanks.nl (hi.more.blank)) x (t ++ '\n' :: (ind ++ ']' :: r))
        simpa using this
  | .obj [], b, ind, r, n, hn, hb, hi, hr, hd => by
    cases n with
    | zero => unfold jneed at hn; omega
    | succ n =>
      exact readValue_obj0 n (r := '}' :: r) (by rw [skipBlank_value d ind _ hb, jsonText]; simp)
        (skipBlank_stop d (by decide) (by decide) r)
  | .obj (x :: xs), b, ind, r, n, hn, hb, hi, hr, hd => by
    cases n with
    | zero => unfold jneed at hn; omega
    | succ n =>
      have ih := readMembers_written d (x :: xs) (by simp) (ind ++ c!"  ") ind r n (by unfold jneed at hn; omega) hi.more hi
        (by unfold noNull at hd; exact hd)
      rw [readValue_obj n (r := '\n' :: (jsonMembers (ind ++ c!"  ") (x :: xs) ++ '\n' :: (ind ++ '}' :: r)))
        (by rw [skipBlank_value d ind _ hb, jsonText]; simp), ih]
      · rfl
      · obtain ⟨t, ht⟩ := jsonMembers_start (ind ++ c!"  ") x xs
        rw [ht]
        have := skipBlank_char d (c := '"') (by simp) (Blanks.nl (hi.more.blank)) (t ++ '\n' :: (ind ++ '}' :: r))
        simp only [List.cons_append, List.append_assoc] at this ⊢
        rw [this]
        simp
theorem readItems_written (d : Dialect) : ∀ (l : List JVal) (_ : l ≠ []) (ind ind' r : Str) (n : Nat),
    jneedL l ≤ n → IndentText ind → IndentText ind' → (d = .json ∨ noNullL l) →
    readItems d n ('\n' :: (jsonItems ind l ++ '\n' :: (ind' ++ ']' :: r))) = some (boolsAsTextL l, r)
  | [], h, _, _, _, _, _, _, _, _ => absurd rfl h
  | [x], _, ind, ind', r, n, hn, hi, hi', hd => by
    cases n with
    | zero => simp only [jneedL] at hn; omega
    | succ n =>
      have hv := readValue_written d x ('\n' :: ind) ind ('\n' :: (ind' ++ ']' :: r)) n
        (by simp only [jneedL] at hn; omega) (Blanks.nl hi.blank) hi (valueEnds_nl _)
        (by simp only [noNullL, and_true] at hd; exact hd)
      have e := readItems_last hv (skipBlank_char d (c := ']') (by simp) (Blanks.nl hi'.blank) r)
      rw [jsonItems]
      simp only [List.cons_append, List.append_assoc] at e ⊢
      rw [e]
      rfl
  | x :: y :: ys, _, ind, ind', r, n, hn, hi, hi', hd => by
    cases n with
    | zero => simp only [jneedL] at hn; omega
    | succ n =>
      have ih := readItems_written d (y :: ys) (by simp) ind ind' r n (by simp only [jneedL] at hn ⊢; omega) hi hi'
        (by unfold noNullL at hd; exact hd.imp id And.right)
      have hv := readValue_written d x ('\n' :: ind) ind
        (',' :: ('\n' :: (jsonItems ind (y :: ys) ++ '\n' :: (ind' ++ ']' :: r)))) n
        (by simp only [jneedL] at hn; omega) (Blanks.nl hi.blank) hi (valueEnds_comma _)
        (by unfold noNullL at hd; exact hd.imp id And.left)
      have e := readItems_more hv (skipBlank_stop d (by decide) (by decide) _)
      rw [ih] at e
      rw [jsonItems]
      simp only [List.cons_append, List.append_assoc, List.nil_append] at e ⊢
      rw [e]
      rfl
theorem readMembers_written (d : Dialect) : ∀ (l : List (Str × JVal)) (_ : l ≠ []) (ind ind' r : Str) (n : Nat),
    jneedM l ≤ n → IndentText ind → IndentText ind' → (d = .json ∨ noNullM l) →
    readMembers d n ('\n' :: (jsonMembers ind l ++ '\n' :: (ind' ++ '}' :: r))) = some (boolsAsTextM l, r)
  | [], h, _, _, _, _, _, _, _, _ => absurd rfl h
  | [(k, x)], _, ind, ind', r, n, hn, hi, hi', hd => by
    cases n with
    | zero => simp only [jneedM] at hn; omega
    | succ n =>
      have hv := readValue_written d x [' '] ind ('\n' :: (ind' ++ '}' :: r)) n
        (by simp only [jneedM] at hn; omega) (by intro c hc; left; simpa using hc) hi (valueEnds_nl _)
        (by simp only [noNullM, and_true] at hd; exact hd)
      have e := readMembers_last (s := '\n' :: (ind ++ '"' :: (k.flatMap jsonChar ++ '"' ::
          (':' :: ([' '] ++ (jsonText ind x ++ '\n' :: (ind' ++ '}' :: r)))))))
        (skipBlank_char d (c := '"') (by simp) (Blanks.nl hi.blank) _)
        (skipBlank_stop d (by decide) (by decide) _) hv
        (skipBlank_char d (c := '}') (by simp) (Blanks.nl hi'.blank) r)
      rw [jsonMembers, jsonString]
      simp only [List.cons_append, List.append_assoc, List.nil_append] at e ⊢
      rw [e]
      rfl
  | (k, x) :: y :: ys, _, ind, ind', r, n, hn, hi, hi', hd => by
    cases n with
    | zero => simp only [jneedM] at hn; omega
    | succ n =>
      have ih := readMembers_written d (y :: ys) (by simp) ind ind' r n (by simp only [jneedM] at hn ⊢; omega) hi hi'
        (by unfold noNullM at hd; exact hd.imp id And.right)
      have hv := readValue_written d x [' '] ind
        (',' :: ('\n' :: (jsonMembers ind (y :: ys) ++ '\n' :: (ind' ++ '}' :: r)))) n
        (by simp only [jneedM] at hn; omega) (by intro c hc; left; simpa using hc) hi (valueEnds_comma _)
        (by unfold noNullM at hd; exact hd.imp id And.left)
      have e := readMembers_more (s := '\n' :: (ind ++ '"' :: (k.flatMap jsonChar ++ '"' ::
          (':' :: ([' '] ++ (jsonText ind x ++ ',' :: ('\n' :: (jsonMembers ind (y :: ys) ++ '\n' :: (ind' ++ '}' :: r)))))))))
        (skipBlank_char d (c := '"') (by simp) (Blanks.nl hi.blank) _)
        (skipBlank_stop d (by decide) (by decide) _) hv (skipBlank_stop d (by decide) (by decide) _)
      rw [ih] at e
      rw [jsonMembers, jsonString]
      simp only [List.cons_append, List.append_assoc, List.nil_append] at e ⊢
      rw [e]
      rfl
end

mutual
theorem jneed_le : ∀ (v : JVal) (ind : Str), jneed v ≤ (jsonText ind v).length
  | .null, ind => by simp [jneed, jsonText]
  | .bool b, ind => by simp [jneed, jsonText, jsonString]
  | .num i, ind => by
    obtain ⟨c, r, h, -⟩ := intStr_start i
    simp [jneed, jsonText, h]
  | .str s, ind => by simp [jneed, jsonText, jsonString]
  | .arr [], ind => by simp [jneed, jneedL, jsonText]
  | .arr (x :: xs), ind => by
    have := jneedL_le (x :: xs) (ind ++ c!"  ")
    rw [jneed, jsonText]
    simp only [List.length_append, List.length_cons, List.length_nil]
    omega
  | .obj [], ind => by simp [jneed, jneedM, jsonText]
  | .obj (x :: xs), ind => by
    have := jneedM_le (x :: xs) (ind ++ c!"  ")
    rw [jneed, jsonText]
    simp only [List.length_append, List.length_cons, List.length_nil]
    omega
theorem jneedL_le : ∀ (l : List JVal) (ind : Str), jneedL l ≤ (jsonItems ind l).length + 1
  | [], ind => by simp [jneedL]
  | [x], ind => by
    have := jneed_le x ind
    simp only [jneedL, jsonItems, List.length_append]
    omega
  | x :: y :: ys, ind => by
    have h1 := jneed_le x ind
    have h2 := jneedL_le (y :: ys) ind
    rw [jneedL, jsonItems]
    simp only [List.length_append, List.length_cons, List.length_nil]
    omega
theorem jneedM_le : ∀ (l : List (Str × JVal)) (ind : Str), jneedM l ≤ (jsonMembers ind l).length + 1
  | [], ind => by simp [jneedM]
  | [(k, x)], ind => by
    have := jneed_le x ind
    simp only [jneedM, jsonMembers, List.length_append]
    omega
  | (k, x) :: y :: ys, ind => by
    have h1 := jneed_le x ind
    have h2 := jneedM_le (y :: ys) ind
    rw [jneedM, jsonMembers]
    simp only [List.length_append, List.length_cons, List.length_nil]
    omega
end

/-- Reading a written text back, with blanks before it. -/
theorem readText_written (d : Dialect) (v : JVal) (hd : d = .json ∨ noNull v) {b t : Str}
    (hb : Blanks b) (ht : Blanks t) (h1 : valueEnds t) : readText d (b ++ (jsonText [] v ++ t)) = some (boolsAsText v) := by
  have hn : jneed v ≤ (b ++ (jsonText [] v ++ t)).length + 1 := by
    have := jneed_le v []
    simp only [List.length_append]
    omega
  have h := readValue_written d v b [] t _ hn hb (by intro c hc; cases hc) h1 hd
  unfold readText
  rw [h]
  have : skipBlank d t = [] := by
    have := skipBlank_blank d ht []
    rw [List.append_nil] at this
    rw [this]; rfl
  simp only
  rw [if_pos this]

/-! ### The file -/

/-- Python skips a line that is a comment. -/
theorem skipLine_python : ∀ (a r : Str), '\n' ∉ a → skipBlank.skipLine .python (a ++ '\n' :: r) = skipBlank .python r
  | [], r, _ => by rw [List.nil_append, skipBlank.skipLine, if_pos rfl]
  | c :: a, r, h => by
    rw [List.cons_append, skipBlank.skipLine, if_neg (fun e => h (by simp [e]))]
    exact skipLine_python a r fun h' => h (by simp [h'])

theorem skipBlank_idem_prefix (r : Str) : skipBlank .python (gypiPrefix ++ '\n' :: r) = skipBlank .python r := by
  have : gypiPrefix = '#' :: gypiPrefix.tail := rfl
  rw [this, List.cons_append, skipBlank, if_neg (by decide), if_pos ⟨rfl, rfl⟩]
  exact skipLine_python _ _ (by decide)

theorem readValue_congr {d : Dialect} {s t : Str} (h : skipBlank d s = skipBlank d t) :
    ∀ n, readValue d n s = readValue d n t
  | 0 => by rw [readValue, readValue]
  | n + 1 => by rw [readValue, readValue, h]

theorem readValue_more (d : Dialect) (v : JVal) (n : Nat) (hn : jneed v ≤ n) (hd : d = .json ∨ noNull v) :
    readValue d n (jsonText [] v ++ c!"\n") = some (boolsAsText v, c!"\n") :=
  readValue_written d v [] [] c!"\n" n hn (by intro c hc; cases hc) (by intro c hc; cases hc) (valueEnds_nl []) hd

/-- **C65** (`gyp`).  Python reads the written file as the settings, with truth values as
texts, if no setting is `null`. -/
theorem C65_gyp (config : JVal) (h : noNull config) :
    readText .python (gypiText config) = some (boolsAsText config) := by
  have e : gypiText config = gypiPrefix ++ '\n' :: (jsonText [] config ++ c!"\n") := by
    unfold gypiText; simp only [List.append_assoc]; rfl
  have hn : jneed config ≤ (gypiText config).length + 1 := by
    have := jneed_le config []
    rw [e]
    simp only [List.length_append, List.length_cons]
    omega
  have hr := readValue_more .python config _ hn (.inr h)
  unfold readText
  rw [show readValue .python ((gypiText config).length + 1) (gypiText config) =
    readValue .python ((gypiText config).length + 1) (jsonText [] config ++ c!"\n") from
      readValue_congr (by rw [e]; exact skipBlank_idem_prefix _) _]
  rw [hr]
  rfl

/-- **C65** (`build`).  `build` reads the written file as the settings, with truth values as
texts. -/
theorem C65_build (config : JVal) :
    readText .json (dropComment (gypiText config)) = some (boolsAsText config) := by
  have e : gypiText config = '#' :: (gypiPrefix.tail ++ '\n' :: (jsonText [] config ++ c!"\n")) := by
    unfold gypiText; simp only [List.append_assoc]; rfl
  obtain ⟨t1, t2⟩ := takeWhile_stop (p := fun x => !jsLineEnd x) (a := gypiPrefix.tail)
    (r := '\n' :: (jsonText [] config ++ c!"\n")) (by decide +kernel)
    (by intro c hc; have : c = '\n' := by simpa using hc.symm
        subst this; decide)
  rw [e, dropComment, t1, t2, if_pos ⟨rfl, by decide, rfl⟩]
  exact readText_written .json config (.inl rfl) (b := []) (t := c!"\n")
    (by intro c hc; cases hc) (by intro c hc; right; simpa using hc) (valueEnds_nl [])

/-! ### The settings -/

theorem underscored_iff {E : CfgEnv} {o k : Str} : SetsVariable E o k ↔ Foreign E o ∧ underscored o = k := by
  unfold SetsVariable underscored
  constructor
  · rintro ⟨h, hl, hi⟩
    refine ⟨h, List.ext_getElem? fun i => ?_⟩
    rw [List.getElem?_map]
    cases e : o[i]? with
    | some c => rw [hi i c e]; rfl
    | none =>
      rw [List.getElem?_eq_none_iff] at e
      rw [Option.map_none, eq_comm, List.getElem?_eq_none_iff]
      omega
  · rintro ⟨h, rfl⟩
    exact ⟨h, by simp, fun i c hc => by rw [List.getElem?_map, hc]; rfl⟩

/-- The step of the loop over the options. -/
def varStep (E : CfgEnv) (v : List (Str × JVal)) (o : Str × JVal) : List (Str × JVal) :=
  if o.1 = c!"argv" then v else if E.known o.1 then v else aset v (underscored o.1) o.2

theorem varStep_foreign {E : CfgEnv} {o : Str × JVal} (h : Foreign E o.1) (v : List (Str × JVal)) :
    varStep E v o = aset v (underscored o.1) o.2 := by
  unfold varStep
  rw [if_neg h.1, if_neg (by rw [h.2]; decide)]

theorem varStep_other {E : CfgEnv} {o : Str × JVal} {k : Str} (h : ¬ SetsVariable E o.1 k) (v : List (Str × JVal)) :
    aget (varStep E v o) k = aget v k := by
  unfold varStep
  by_cases h1 : o.1 = c!"argv"
  · rw [if_pos h1]
  · rw [if_neg h1]
    cases h2 : E.known o.1
    · simp only [Bool.false_eq_true, if_false]
      rw [aget_aset, if_neg]
      rintro rfl
      exact h (underscored_iff.mpr ⟨⟨h1, h2⟩, rfl⟩)
    · rfl

theorem foldl_varStep_other {E : CfgEnv} {k : Str} : ∀ (l : List (Str × JVal)) (v : List (Str × JVal)),
    (∀ p ∈ l, ¬ SetsVariable E p.1 k) → aget (l.foldl (varStep E) v) k = aget v k
  | [], _, _ => rfl
  | p :: l, v, h => by
    rw [List.foldl_cons, foldl_varStep_other l _ fun q hq => h q (by simp [hq]), varStep_other (h p (by simp))]

theorem cfgVariables_eq (E : CfgEnv) (base : List (Str × JVal)) :
    cfgVariables E base = E.opts.foldl (varStep E) (cfgFixed E base) := rfl

theorem aget_variables (E : CfgEnv) (base : List (Str × JVal)) (k : Str) :
    at_ (.obj (currentConfig E base)) [c!"variables", k] =
      aget (cfgVariables E (objOrEmpty (aget base c!"variables"))) k := by
  unfold currentConfig
  simp only [at_, aget_aset, if_true, Option.bind_some]
  cases aget (cfgVariables E (objOrEmpty (aget base c!"variables"))) k <;> rfl

theorem aget_defaults (E : CfgEnv) (base : List (Str × JVal)) (k : Str) :
    at_ (.obj (currentConfig E base)) [c!"target_defaults", k] =
      aget (cfgDefaults E (objOrEmpty (aget base c!"target_defaults"))) k := by
  unfold currentConfig
  simp only [at_, aget_aset, if_true]
  rw [if_neg (by decide)]
  simp only [Option.bind_some, at_]
  cases aget (cfgDefaults E (objOrEmpty (aget base c!"target_defaults"))) k <;> rfl

theorem objOrEmpty_at (base : List (Str × JVal)) (k k' : Str) :
    aget (objOrEmpty (aget base k)) k' = at_ (.obj base) [k, k'] := by
  simp only [at_]
  cases aget base k with
  | none => rfl
  | some v =>
    cases v <;> simp only [objOrEmpty, Option.bind_some, at_] <;> try rfl
    rename_i l
    cases aget l k' <;> rfl

/-- **C65** (options).  An option that is not one of node-gyp's own is passed to the build
files as a variable: dashes become underscores, and the last one wins. -/
theorem C65_option (E : CfgEnv) (base : List (Str × JVal)) (k : Str) (v : JVal) (h : LastSets E k v) :
    at_ (.obj (currentConfig E base)) [c!"variables", k] = some v := by
  obtain ⟨b, o, l, he, hs, hl⟩ := h
  rw [aget_variables, cfgVariables_eq, he, List.foldl_append, List.foldl_cons, foldl_varStep_other l _ hl]
  obtain ⟨hf, rfl⟩ := underscored_iff.mp hs
  rw [varStep_foreign hf, aget_aset, if_pos rfl]

theorem aget_filter_ne {d : List (Str × JVal)} {k k' : Str} :
    aget (d.filter fun p => decide (p.1 ≠ k)) k' = if k' = k then none else aget d k' := by
  induction d with
  | nil => simp [aget]
  | cons p d ih =>
    obtain ⟨a, w⟩ := p
    by_cases ha : a = k
    · subst ha
      rw [List.filter_cons_of_neg (by simp), ih]
      by_cases h : k' = a
      · simp [h]
      · have h' : a ≠ k' := fun e => h e.symm
        simp [h, aget, h']
    · rw [List.filter_cons_of_pos (by simpa using ha)]
      simp only [aget]
      by_cases h : a = k'
      · subst h; simp [ha]
      · rw [if_neg h, if_neg h, ih]

theorem aget_putOpt (d : List (Str × JVal)) (k : Str) (v : Option Str) (k' : Str) :
    aget (putOpt d k v) k' = if k' = k then v.map JVal.str else aget d k' := by
  cases v with
  | some v => exact aget_aset d k _ k'
  | none => exact aget_filter_ne

/-- **C65** (variables).  The variables that no option sets: the directory of the headers, the
Python that runs, the architecture asked for (or that of the running Node), whether static libraries are
thin; on Windows the place of MSBuild and no `clang`; everything else as in the settings to start with. -/
theorem C65_variables (E : CfgEnv) (base : List (Str × JVal)) (k : Str)
    (h : ∀ p ∈ E.opts, ¬ SetsVariable E p.1 k) :
    let v := at_ (.obj (currentConfig E base)) [c!"variables", k]
    let old := at_ (.obj base) [c!"variables", k]
    (k = c!"nodedir" → v = some (.str E.nodeDir)) ∧
    (k = c!"python" → v = some (.str E.python)) ∧
    (k = c!"target_arch" →
      (∀ a, aget E.opts c!"arch" = some a → a.truthy = true → v = some a) ∧
      ((∀ a, aget E.opts c!"arch" = some a → a.truthy = false) → E.arch ≠ [] → v = some (.str E.arch))) ∧
    (k = c!"standalone_static_library" →
      v = some (.num (if (∃ t, aget E.opts c!"thin" = some t ∧ t.truthy = true) then 0 else 1))) ∧
    (k = c!"msbuild_path" → E.win = true → v = E.vs.map fun vs => .str vs.msBuild) ∧
    (k = c!"clang" → E.win = true → old = some (.num 1) → v = some (.num 0)) ∧
    (k ∉ [c!"nodedir", c!"python", c!"target_arch", c!"standalone_static_library"] →
      (E.win = true → k ≠ c!"msbuild_path" ∧ (k = c!"clang" → old ≠ some (.num 1))) → v = old) := by
  intro v old
  have hv : v = aget (cfgFixed E (objOrEmpty (aget base c!"variables"))) k := by
    show at_ _ _ = _
    rw [aget_variables, cfgVariables_eq, foldl_varStep_other _ _ h]
  have hold : old = aget (objOrEmpty (aget base c!"variables")) k := (objOrEmpty_at base c!"variables" k).symm
  rw [hv]
  clear_value v
  rw [hold]
  clear_value old
  generalize objOrEmpty (aget base c!"variables") = B
  have hk : aget (cfgFixed E B) k =
      if E.win = true ∧ k = c!"clang" ∧ isOne (aget B c!"clang") = true then some (.num 0)
      else if E.win = true ∧ k = c!"msbuild_path" then (E.vs.map VsInfo.msBuild).map .str
      else if k = c!"standalone_static_library" then some (.num (if optTruthy E c!"thin" then 0 else 1))
      else if k = c!"python" then some (.str E.python)
      else if k = c!"nodedir" then some (.str E.nodeDir)
      else if k = c!"target_arch" then some (targetArch E)
      else aget B k := by
    unfold cfgFixed
    cases hw : E.win
    · simp only [Bool.false_eq_true, false_and, if_false, aget_aset]
    · simp only [if_true, true_and]
      have hc : ∀ x, aget (putOpt (aset (aset (aset (aset B c!"target_arch" (targetArch E)) c!"nodedir" (.str E.nodeDir))
          c!"python" (.str E.python)) c!"standalone_static_library" (.num (if optTruthy E c!"thin" then 0 else 1)))
          c!"msbuild_path" x) c!"clang" = aget B c!"clang" := by
        intro x
        simp only [aget_putOpt, aget_aset]
        rfl
      rw [hc]
      by_cases h1 : isOne (aget B c!"clang") = true
      · rw [if_pos h1, aget_aset]
        by_cases h2 : k = c!"clang"
        · rw [if_pos h2, if_pos ⟨h2, h1⟩]
        · have c1 : ¬ (k = c!"clang" ∧ isOne (aget B c!"clang") = true) := fun x => h2 x.1
          rw [if_neg h2, if_neg c1]
          simp only [aget_putOpt, aget_aset]
      · have c1 : ¬ (k = c!"clang" ∧ isOne (aget B c!"clang") = true) := fun x => h1 x.2
        rw [if_neg h1, if_neg c1]
        simp only [aget_putOpt, aget_aset]
  rw [hk]
  clear hk
  refine ⟨?_, ?_, ?_, ?_, ?_, ?_, ?_⟩
  · rintro rfl; rw [if_neg (by rintro ⟨-, h, -⟩; revert h; decide), if_neg (by rintro ⟨-, h⟩; revert h; decide)]; rfl
  · rintro rfl; rw [if_neg (by rintro ⟨-, h, -⟩; revert h; decide), if_neg (by rintro ⟨-, h⟩; revert h; decide)]; rfl
  · rintro rfl
    rw [if_neg (by rintro ⟨-, h, -⟩; revert h; decide), if_neg (by rintro ⟨-, h⟩; revert h; decide)]
    show (∀ a, _ → _ → some (targetArch E) = _) ∧ (_ → _ → some (targetArch E) = _)
    unfold targetArch
    constructor
    · intro a ha ht
      rw [ha]
      simp only [ht, if_true]
    · intro ha hne
      cases e : aget E.opts c!"arch" with
      | none => simp only [if_pos hne]
      | some a => simp only [ha a e, Bool.false_eq_true, if_false, if_pos hne]
  · rintro rfl
    rw [if_neg (by rintro ⟨-, h, -⟩; revert h; decide), if_neg (by rintro ⟨-, h⟩; revert h; decide), if_pos rfl]
    unfold optTruthy
    cases e : aget E.opts c!"thin" with
    | none => simp
    | some t => cases ht : t.truthy <;> simp [ht]
  · rintro rfl hw
    rw [if_neg (by rintro ⟨-, h, -⟩; revert h; decide), if_pos ⟨hw, rfl⟩, Option.map_map]
    rfl
  · rintro rfl hw hc
    rw [if_pos ⟨hw, rfl, by rw [hc]; rfl⟩]
  · intro hn hw
    simp only [List.mem_cons, List.not_mem_nil, or_false, not_or] at hn
    rw [if_neg, if_neg, if_neg hn.2.2.2, if_neg hn.2.1, if_neg hn.1, if_neg hn.2.2.1]
    · rintro ⟨h1, h2⟩; exact (hw h1).1 h2
    · rintro ⟨h1, rfl, h2⟩
      refine (hw h1).2 rfl ?_
      cases e : aget B c!"clang" with
      | none => rw [e] at h2; cases h2
      | some v =>
        rw [e] at h2
        cases v <;> simp [isOne] at h2
        subst h2; rfl

theorem aget_cfgDefaults (E : CfgEnv) (B : List (Str × JVal)) (k : Str) :
    aget (cfgDefaults E B) k =
      if E.win = true ∧ isArm64 (targetArch E) = true ∧ marmasm E.vs = true ∧ k = c!"msvs_enable_marmasm" then some (.num 1)
      else if E.win = true ∧ (vsSdk E.vs).isSome = true ∧ k = c!"msvs_windows_target_platform_version" then
        (vsSdk E.vs).map .str
      else if E.win = true ∧ k = c!"msbuild_toolset" then (E.vs.map VsInfo.toolset).map .str
      else if isArm64 (targetArch E) = true ∧ k = c!"xcode_configuration_platform" then some (.str c!"arm64")
      else if isArm64 (targetArch E) = true ∧ k = c!"msvs_configuration_platform" then some (.str c!"ARM64")
      else if k = c!"default_configuration" then
        (match aget E.opts c!"debug" with
         | some v => some (.str (if v.truthy then c!"Debug" else c!"Release"))
         | none => match aget B c!"default_configuration" with
           | some v => if v.truthy then some v else some (.str c!"Release")
           | none => some (.str c!"Release"))
      else if k ∈ [c!"cflags", c!"defines", c!"include_dirs", c!"libraries"] then some (.arr [])
      else aget B k := by
  unfold cfgDefaults
  generalize hD : aset (aset (aset (aset B c!"cflags" (.arr [])) c!"defines" (.arr []))
    c!"include_dirs" (.arr [])) c!"libraries" (.arr []) = D
  have hDk : aget D k = if k ∈ [c!"cflags", c!"defines", c!"include_dirs", c!"libraries"] then some (.arr []) else aget B k := by
    subst hD
    simp only [aget_aset, List.mem_cons, List.not_mem_nil, or_false]
    by_cases h1 : k = c!"cflags"
    · simp [h1]
    by_cases h2 : k = c!"defines"
    · simp [h2]
    by_cases h3 : k = c!"include_dirs"
    · simp [h3]
    by_cases h4 : k = c!"libraries"
    · simp [h4]
    simp [h1, h2, h3, h4]
  have hDc : aget D c!"default_configuration" = aget B c!"default_configuration" := by
    subst hD
    simp only [aget_aset]
    rfl
  clear hD
  simp only
  generalize hC : cfgRelease (cfgDebug E D) = C
  have hCk : aget C k = if k = c!"default_configuration" then
        (match aget E.opts c!"debug" with
         | some v => some (.str (if v.truthy then c!"Debug" else c!"Release"))
         | none => match aget B c!"default_configuration" with
           | some v => if v.truthy then some v else some (.str c!"Release")
           | none => some (.str c!"Release"))
      else aget D k := by
    subst hC
    unfold cfgRelease cfgDebug
    cases hd : aget E.opts c!"debug" with
    | some v =>
      simp only [aget_aset, if_true]
      have : (JVal.str (if v.truthy = true then c!"Debug" else c!"Release")).truthy = true := by
        cases v.truthy <;> rfl
      rw [this, if_pos rfl, aget_aset]
    | none =>
      simp only [hDc]
      cases hb : aget B c!"default_configuration" with
      | none => simp only [aget_aset]
      | some v =>
        cases ht : v.truthy
        · simp only [ht, Bool.false_eq_true, if_false, aget_aset]
        · simp only [ht, if_true]
          by_cases hk : k = c!"default_configuration"
          · rw [if_pos hk, hk, hDc, hb]
          · rw [if_neg hk]
  clear hC
  have hA : ∀ k, aget (if isArm64 (targetArch E) = true then aset (aset C c!"msvs_configuration_platform" (.str c!"ARM64"))
      c!"xcode_configuration_platform" (.str c!"arm64") else C) k =
      if isArm64 (targetArch E) = true ∧ k = c!"xcode_configuration_platform" then some (.str c!"arm64")
      else if isArm64 (targetArch E) = true ∧ k = c!"msvs_configuration_platform" then some (.str c!"ARM64")
      else aget C k := by
    intro k
    cases isArm64 (targetArch E)
    · simp
    · simp only [if_true, true_and, aget_aset]
  generalize (if isArm64 (targetArch E) = true then aset (aset C c!"msvs_configuration_platform" (.str c!"ARM64"))
      c!"xcode_configuration_platform" (.str c!"arm64") else C) = A at hA ⊢
  rw [← hDk, ← hCk, ← hA]
  cases E.win with
  | false => simp
  | true =>
    simp only [if_true, true_and]
    unfold cfgSdk
    cases hs : vsSdk E.vs with
    | none =>
      simp only [Option.isSome_none, Bool.false_eq_true, false_and, if_false]
      by_cases hm : isArm64 (targetArch E) = true ∧ marmasm E.vs = true
      · rw [if_pos hm, aget_aset, aget_putOpt]
        simp only [hm.1, hm.2, true_and]
      · rw [if_neg hm, aget_putOpt]
        rw [if_neg (c := isArm64 (targetArch E) = true ∧ marmasm E.vs = true ∧ _) fun x => hm ⟨x.1, x.2.1⟩]
    | some sdk =>
      simp only [Option.isSome_some, true_and, Option.map_some]
      by_cases hm : isArm64 (targetArch E) = true ∧ marmasm E.vs = true
      · rw [if_pos hm]
        simp only [hm.1, hm.2, true_and, aget_aset, aget_putOpt]
      · rw [if_neg hm, aget_aset, aget_putOpt]
        rw [if_neg (c := isArm64 (targetArch E) = true ∧ marmasm E.vs = true ∧ _) fun x => hm ⟨x.1, x.2.1⟩]

/-- The architecture that the addon is built for is arm64. -/
def Spec.ForArm64 (E : CfgEnv) : Prop :=
  aget E.opts c!"arch" = some (.str c!"arm64") ∨
    ((∀ a, aget E.opts c!"arch" = some a → a.truthy = false) ∧ E.arch = c!"arm64")

theorem forArm64_iff (E : CfgEnv) : isArm64 (targetArch E) = true ↔ ForArm64 E := by
  unfold ForArm64 targetArch
  have hs : ∀ a : JVal, isArm64 a = true ↔ a = .str c!"arm64" := by
    intro a
    cases a <;> simp [isArm64]
  have ha : isArm64 (if E.arch ≠ [] then .str E.arch else .str c!"ia32") = true ↔ E.arch = c!"arm64" := by
    by_cases h : E.arch = []
    · rw [h]; decide
    · rw [if_pos h, hs]; simp
  cases e : aget E.opts c!"arch" with
  | none => simp only [ha]; simp
  | some a =>
    cases ht : a.truthy
    · simp only [ht, Bool.false_eq_true, if_false, ha]
      constructor
      · intro h
        exact .inr ⟨fun b hb => by cases hb; exact ht, h⟩
      · rintro (h | h)
        · cases h; exact absurd ht (by decide)
        · exact h.2
    · simp only [ht, if_true, hs]
      constructor
      · rintro rfl; exact .inl rfl
      · rintro (h | h)
        · exact Option.some.inj h
        · have := h.1 a rfl; rw [ht] at this; cases this

/-- **C65** (defaults).  The settings for every target: nothing is taken over from the compiler flags,
definitions, include directories and libraries of the build of Node; the default build
is that asked for with `--debug`, or that of Node, or `Release`; for arm64 and on Windows the platform,
toolset and SDK found; everything else as in the settings to start with. -/
theorem C65_defaults (E : CfgEnv) (base : List (Str × JVal)) (k : Str) :
    let v := at_ (.obj (currentConfig E base)) [c!"target_defaults", k]
    let old := at_ (.obj base) [c!"target_defaults", k]
    (k ∈ [c!"cflags", c!"defines", c!"include_dirs", c!"libraries"] → v = some (.arr [])) ∧
    (k = c!"default_configuration" →
      (∀ d, aget E.opts c!"debug" = some d → v = some (.str (if d.truthy then c!"Debug" else c!"Release"))) ∧
      (aget E.opts c!"debug" = none →
        (∀ d, old = some d → d.truthy = true → v = some d) ∧
        ((∀ d, old = some d → d.truthy = false) → v = some (.str c!"Release")))) ∧
    (ForArm64 E → (k = c!"msvs_configuration_platform" → v = some (.str c!"ARM64")) ∧
      (k = c!"xcode_configuration_platform" → v = some (.str c!"arm64"))) ∧
    (E.win = true → (k = c!"msbuild_toolset" → v = E.vs.map fun vs => .str vs.toolset) ∧
      (k = c!"msvs_windows_target_platform_version" →
        ∀ vs sdk, E.vs = some vs → vs.sdk = some sdk → sdk ≠ [] → v = some (.str sdk)) ∧
      (k = c!"msvs_enable_marmasm" → ForArm64 E →
        ∀ vs, E.vs = some vs → 15 ≤ vs.versionMajor → v = some (.num 1))) ∧
    (k ∉ [c!"cflags", c!"defines", c!"include_dirs", c!"libraries", c!"default_configuration"] →
      (ForArm64 E → k ∉ [c!"msvs_configuration_platform", c!"xcode_configuration_platform"]) →
      (E.win = true → k ∉ [c!"msbuild_toolset", c!"msvs_windows_target_platform_version", c!"msvs_enable_marmasm"]) →
      v = old) := by
  intro v old
  have hv : v = _ := (aget_defaults E base k).trans (aget_cfgDefaults E _ k)
  have hold : old = aget (objOrEmpty (aget base c!"target_defaults")) k := (objOrEmpty_at base c!"target_defaults" k).symm
  rw [hv, hold]
  clear_value v old
  clear hv hold
  generalize objOrEmpty (aget base c!"target_defaults") = B
  have nk : ∀ {a b : Str} {P Q : Prop}, a ≠ b → ¬ (P ∧ Q ∧ a = b) := fun h x => h x.2.2
  have nk2 : ∀ {a b : Str} {P Q R : Prop}, a ≠ b → ¬ (P ∧ Q ∧ R ∧ a = b) := fun h x => h x.2.2.2
  have nk1 : ∀ {a b : Str} {P : Prop}, a ≠ b → ¬ (P ∧ a = b) := fun h x => h x.2
  refine ⟨?_, ?_, ?_, ?_, ?_⟩
  · intro hk
    have hk' := hk
    simp only [List.mem_cons, List.not_mem_nil, or_false] at hk'
    rw [if_neg, if_neg, if_neg, if_neg, if_neg, if_neg, if_pos hk]
    all_goals
      intro hx
      rcases hk' with rfl | rfl | rfl | rfl <;> simp at hx
  · rintro rfl
    rw [if_neg (nk2 (by decide)), if_neg (nk (by decide)), if_neg (nk1 (by decide)), if_neg (nk1 (by decide)),
      if_neg (nk1 (by decide)), if_pos rfl]
    refine ⟨fun d hd => by rw [hd], fun hd => ?_⟩
    rw [hd]
    refine ⟨fun d h ht => by rw [h]; simp [ht], fun h => ?_⟩
    cases e : aget B c!"default_configuration" with
    | none => rfl
    | some d => simp [h d e]
  · intro ha
    rw [(forArm64_iff E).mpr ha]
    constructor
    · rintro rfl
      rw [if_neg (nk2 (by decide)), if_neg (nk (by decide)), if_neg (nk1 (by decide)), if_neg (nk1 (by decide)),
        if_pos ⟨rfl, rfl⟩]
    · rintro rfl
      rw [if_neg (nk2 (by decide)), if_neg (nk (by decide)), if_neg (nk1 (by decide)), if_pos ⟨rfl, rfl⟩]
  · intro hw
    rw [hw]
    refine ⟨?_, ?_, ?_⟩
    · rintro rfl
      rw [if_neg (nk2 (by decide)), if_neg (nk (by decide)), if_pos ⟨rfl, rfl⟩, Option.map_map]
      rfl
    · rintro rfl vs sdk hvs hsdk hne
      have : vsSdk E.vs = some sdk := by
        rw [hvs]; unfold vsSdk; simp only [hsdk]; rw [if_pos hne]
      rw [if_neg (nk2 (by decide)), if_pos ⟨rfl, by rw [this]; rfl, rfl⟩, this]
      rfl
    · rintro rfl ha vs hvs hm
      have hx : marmasm E.vs = true := by
        rw [hvs]
        simp only [marmasm, Bool.or_eq_true, decide_eq_true_eq, Bool.and_eq_true]
        omega
      rw [if_pos ⟨rfl, (forArm64_iff E).mpr ha, hx, rfl⟩]
  · intro h1 h2 h3
    simp only [List.mem_cons, List.not_mem_nil, or_false, not_or] at h1 h2 h3
    rw [if_neg, if_neg, if_neg, if_neg, if_neg, if_neg h1.2.2.2.2, if_neg]
    · simp only [List.mem_cons, List.not_mem_nil, or_false, not_or]
      exact ⟨h1.1, h1.2.1, h1.2.2.1, h1.2.2.2.1⟩
    · rintro ⟨a, b⟩; exact (h2 ((forArm64_iff E).mp a)).1 b
    · rintro ⟨a, b⟩; exact (h2 ((forArm64_iff E).mp a)).2 b
    · rintro ⟨a, b⟩; exact (h3 a).1 b
    · rintro ⟨a, -, b⟩; exact (h3 a).2.1 b
    · rintro ⟨a, -, -, b⟩; exact (h3 a).2.2 b

/-- **C65** (the rest).  Everything else in the settings is as in those to start with. -/
theorem C65_rest (E : CfgEnv) (base : List (Str × JVal)) (k : Str)
    (h : k ≠ c!"target_defaults" ∧ k ≠ c!"variables") :
    at_ (.obj (currentConfig E base)) [k] = at_ (.obj base) [k] := by
  unfold currentConfig
  simp only [at_, aget_aset, if_neg h.1, if_neg h.2]

/-! ### Examples and limits -/

/-- A configuration on Linux with two options of the module. -/
def exCfg : CfgEnv where
  opts := [(c!"debug", .bool true), (c!"argv", .obj []), (c!"shared-libxml2", .bool true),
    (c!"libxml2-path", .str c!"/opt/\"x\"\n"), (c!"shared_libxml2", .num (-3))]
  known := fun o => o = c!"debug"
  arch := c!"arm64"
  win := false
  nodeDir := c!"/home/u/.cache/node-gyp/22.1.0"
  python := c!"/usr/bin/python3"
  vs := none

def exBase : List (Str × JVal) :=
  [(c!"target_defaults", .obj [(c!"cflags", .arr [.str c!"-m64"]), (c!"default_configuration", .str c!"Release")]),
   (c!"variables", .obj [(c!"v8_enable", .bool false), (c!"list", .arr [.num 1, .str c!"a"])])]

example : LastSets exCfg c!"shared_libxml2" (.num (-3)) ∧
    LastSets exCfg c!"libxml2_path" (.str c!"/opt/\"x\"\n") ∧
    (∀ p ∈ exCfg.opts, ¬ SetsVariable exCfg p.1 c!"python") := by
  refine ⟨⟨exCfg.opts.take 4, _, [], rfl, underscored_iff.mpr ⟨⟨by decide, rfl⟩, by decide⟩, by intro p hp; cases hp⟩,
    ⟨exCfg.opts.take 3, _, [(c!"shared_libxml2", .num (-3))], rfl, underscored_iff.mpr ⟨⟨by decide, rfl⟩, by decide⟩, ?_⟩, ?_⟩
  · intro p hp
    rw [underscored_iff]
    simp only [List.mem_cons, List.not_mem_nil, or_false] at hp
    subst hp
    rintro ⟨-, h⟩
    revert h; decide
  · intro p hp
    rw [underscored_iff]
    simp only [exCfg, List.mem_cons, List.not_mem_nil, or_false] at hp
    rcases hp with rfl | rfl | rfl | rfl | rfl <;> (rintro ⟨-, h⟩; revert h; decide)

example : noNull (.obj (currentConfig exCfg exBase)) := by
  refine ⟨⟨?_, ?_, ?_⟩, ⟨?_, ?_⟩, ?_⟩
  all_goals trivial

/-- **Limit of C65**: assembly for arm64 is said to need Visual Studio 15.9, but is enabled for
every 15: the minor version is not looked at. -/
theorem C65_minor_ignored (E : CfgEnv) (base : List (Str × JVal)) (vs : VsInfo) (hw : E.win = true)
    (ha : ForArm64 E) (hv : E.vs = some { vs with versionMajor := 15, versionMinor := 0 }) :
    at_ (.obj (currentConfig E base)) [c!"target_defaults", c!"msvs_enable_marmasm"] = some (.num 1) :=
  ((C65_defaults E base c!"msvs_enable_marmasm").2.2.2.1 hw).2.2 rfl ha _ hv (Nat.le_refl 15)

/-- **Limit of C65**: a `null` is written as the word `null`, which Python does not know. -/
theorem C65_null : readText .python (gypiText (.obj [(c!"variables", .obj [(c!"a", .null)])])) = none := by
  decide +kernel

end Gyp
