import Verif.Model.Scan
import Verif.Spec.Brackets
import Mathlib.Data.List.Induction
/-
C29 (bracket groups) and C30 (canonical integers).
-/
namespace Gyp
open Spec

/-! ### C29 -/

theorem isLBracket_iff {c : Char} : isLBracket c = true ↔ c = '{' ∨ c = '[' ∨ c = '(' := by
  simp [isLBracket]

theorem openerOf_iff {c o : Char} : openerOf c = some o ↔ BracketPair o c := by
  unfold openerOf BracketPair
  by_cases h1 : c = '}'
  · subst h1; simp [eq_comm]
  · by_cases h2 : c = ']'
    · subst h2; simp [eq_comm]
    · by_cases h3 : c = ')'
      · subst h3; simp [eq_comm]
      · simp [h1, h2, h3]

theorem plain_iff {c : Char} : PlainChar c ↔ isLBracket c = false ∧ openerOf c = none := by
  unfold PlainChar openerOf isLBracket
  by_cases h1 : c = '}' <;> by_cases h2 : c = ']' <;> by_cases h3 : c = ')' <;>
    simp_all
  tauto

theorem opener_lbracket {o c : Char} (h : BracketPair o c) :
    isLBracket o = true ∧ isLBracket c = false := by
  rcases h with ⟨rfl, rfl⟩ | ⟨rfl, rfl⟩ | ⟨rfl, rfl⟩ <;> decide

/-- What the loop does with the rest of the text while some bracket is open. -/
theorem bracketLoop_sound : ∀ (n : Nat) (s : Str), s.length ≤ n → ∀ (o : Char) (stack : List Char)
    (st i a b : Nat), bracketLoop (o :: stack) (some st) i s = some (a, b) →
    ∃ (w : Str) (c : Char) (post : Str), s = w ++ c :: post ∧ Nested w ∧ BracketPair o c ∧
      ((stack = [] ∧ a = st ∧ b = i + w.length + 1) ∨
       (stack ≠ [] ∧ bracketLoop stack (some st) (i + w.length + 1) post = some (a, b))) := by
  intro n
  induction n with
  | zero =>
    intro s hs o stack st i a b h
    have : s = [] := by simpa using hs
    subst this
    simp [bracketLoop] at h
  | succ n ih =>
    intro s hs o stack st i a b h
    cases s with
    | nil => simp [bracketLoop] at h
    | cons ch s =>
      have hs' : s.length ≤ n := by simpa using hs
      unfold bracketLoop at h
      by_cases hl : isLBracket ch = true
      · rw [if_pos hl, if_neg (by simp)] at h
        obtain ⟨w1, c1, post1, e1, b1, p1, r1⟩ := ih s hs' ch (o :: stack) st (i + 1) a b h
        rcases r1 with ⟨hn, _⟩ | ⟨_, r1⟩
        · cases hn
        have hlen : post1.length ≤ n := by
          rw [e1] at hs'; simp at hs'; omega
        obtain ⟨w2, c2, post2, e2, b2, p2, r2⟩ := ih post1 hlen o stack st _ a b r1
        refine ⟨ch :: (w1 ++ c1 :: w2), c2, post2, ?_, .group p1 b1 b2, p2, ?_⟩
        · rw [e1, e2]; simp
        · have el : i + 1 + w1.length + 1 + w2.length + 1 =
              i + (ch :: (w1 ++ c1 :: w2)).length + 1 := by simp; omega
          rw [el] at r2
          exact r2
      · rw [if_neg hl] at h
        cases ho : openerOf ch with
        | none =>
          rw [ho] at h
          simp only at h
          obtain ⟨w, c, post, e, hb, p, r⟩ := ih s hs' o stack st (i + 1) a b h
          refine ⟨ch :: w, c, post, by rw [e]; simp,
            .plain (plain_iff.mpr ⟨by simpa using hl, ho⟩) hb, p, ?_⟩
          have el : i + 1 + w.length + 1 = i + (ch :: w).length + 1 := by simp; omega
          rw [el] at r
          exact r
        | some q =>
          rw [ho] at h
          simp only at h
          by_cases hq : o = q
          · subst hq
            rw [if_neg (by simp)] at h
            refine ⟨[], ch, s, rfl, .nil, openerOf_iff.mp ho, ?_⟩
            by_cases hst : stack = []
            · rw [if_pos hst] at h
              simp only [Option.map_some, Option.some.injEq, Prod.mk.injEq] at h
              exact .inl ⟨hst, h.1.symm, h.2.symm⟩
            · rw [if_neg hst] at h
              exact .inr ⟨hst, h⟩
          · rw [if_pos hq] at h
            cases h

theorem bracketLoop_nested {w : Str} (h : Nested w) : ∀ (o : Char) (stack : List Char)
    (st i : Nat) (rest : Str), bracketLoop (o :: stack) (some st) i (w ++ rest) =
      bracketLoop (o :: stack) (some st) (i + w.length) rest := by
  induction h with
  | nil => intros; simp
  | @plain c s hp _ ih =>
    intro o stack st i rest
    obtain ⟨h1, h2⟩ := plain_iff.mp hp
    rw [List.cons_append, bracketLoop, if_neg (by simp [h1]), h2]
    simp only
    rw [ih]
    congr 1
    simp; omega
  | @group q c s t hp _ _ ih1 ih2 =>
    intro o stack st i rest
    obtain ⟨h1, h2⟩ := opener_lbracket hp
    have e : (q :: (s ++ c :: t)) ++ rest = q :: (s ++ c :: (t ++ rest)) := by simp
    rw [e, bracketLoop, if_pos h1, if_neg (by simp), ih1, bracketLoop, if_neg (by simp [h2]),
      openerOf_iff.mpr hp]
    simp only
    rw [if_neg (by simp), if_neg (by simp), ih2]
    congr 1
    simp; omega

theorem bracketLoop_plain : ∀ (pre : Str), (∀ x ∈ pre, PlainChar x) → ∀ (i : Nat) (rest : Str),
    bracketLoop [] none i (pre ++ rest) = bracketLoop [] none (i + pre.length) rest
  | [], _, i, rest => by simp
  | c :: pre, h, i, rest => by
    obtain ⟨h1, h2⟩ := plain_iff.mp (h c (by simp))
    rw [List.cons_append, bracketLoop, if_neg (by simp [h1]), h2]
    simp only
    rw [bracketLoop_plain pre (fun x hx => h x (by simp [hx]))]
    congr 1
    simp; omega

theorem bracketLoop_start : ∀ (s : Str) (i a b : Nat), bracketLoop [] none i s = some (a, b) →
    ∃ (pre : Str) (o : Char) (rest : Str), s = pre ++ o :: rest ∧ (∀ x ∈ pre, PlainChar x) ∧
      isLBracket o = true ∧
      bracketLoop [o] (some (i + pre.length)) (i + pre.length + 1) rest = some (a, b)
  | [], i, a, b, h => by simp [bracketLoop] at h
  | c :: s, i, a, b, h => by
    unfold bracketLoop at h
    by_cases hl : isLBracket c = true
    · rw [if_pos hl, if_pos rfl] at h
      exact ⟨[], c, s, rfl, by simp, hl, h⟩
    · rw [if_neg hl] at h
      cases ho : openerOf c with
      | some q => rw [ho] at h; cases h
      | none =>
        rw [ho] at h
        simp only at h
        obtain ⟨pre, o, rest, e, hp, hl', r⟩ := bracketLoop_start s (i + 1) a b h
        refine ⟨c :: pre, o, rest, by rw [e]; simp, ?_, hl', ?_⟩
        · intro x hx
          rcases List.mem_cons.mp hx with rfl | hx
          · exact plain_iff.mpr ⟨by simpa using hl, ho⟩
          · exact hp x hx
        · have el : i + 1 + pre.length = i + (c :: pre).length := by simp; omega
          rw [el] at r
          exact r

/-- C29: the result is the group that the first bracket of the text opens; there is no
result exactly when there is no such group. -/
theorem C29_group (s : Str) (a b : Nat) :
    FindEnclosingBracketGroup s = some (a, b) ↔ FirstGroup s a b := by
  unfold FindEnclosingBracketGroup
  constructor
  · intro h
    obtain ⟨pre, o, rest, e, hp, hl, r⟩ := bracketLoop_start s 0 a b h
    obtain ⟨w, c, post, e2, hn, hb, r⟩ := bracketLoop_sound rest.length rest (Nat.le_refl _)
      o [] _ _ a b r
    rcases r with ⟨_, ha, hb'⟩ | ⟨hne, _⟩
    · exact ⟨pre, w, post, o, c, by rw [e, e2], hp, hb, hn, by omega, by omega⟩
    · exact absurd rfl hne
  · rintro ⟨pre, inner, post, o, c, rfl, hp, hb, hn, rfl, rfl⟩
    obtain ⟨h1, h2⟩ := opener_lbracket hb
    rw [bracketLoop_plain pre hp, bracketLoop, if_pos h1, if_pos rfl, bracketLoop_nested hn,
      bracketLoop, if_neg (by simp [h2]), openerOf_iff.mpr hb]
    simp only
    rw [if_neg (by simp)]
    simp
    omega

/-- C29: no other stretch from the first bracket on is a group: the result is the
shortest one. -/
theorem C29_unique (s : Str) (a b a' b' : Nat) (h : FirstGroup s a b) (h' : FirstGroup s a' b') :
    a = a' ∧ b = b' := by
  have e := ((C29_group s a b).mpr h).symm.trans ((C29_group s a' b').mpr h')
  simpa using e

example : FindEnclosingBracketGroup c!"<(foo <(bar)) blah" = some (1, 13) := rfl
example : FirstGroup c!"<(a[b])c" 1 7 := by
  rw [← C29_group]; rfl
example : FindEnclosingBracketGroup c!"<(a]" = none := rfl
example : FindEnclosingBracketGroup c!"a)(b)" = none := rfl

/-! ### C30 -/

theorem digitsVal_append (t : Str) (c : Char) :
    digitsVal (t ++ [c]) = 10 * digitsVal t + (c.toNat - 48) := by
  simp [digitsVal]

theorem asciiDigit_iff {c : Char} : asciiDigit c = true ↔ 48 ≤ c.toNat ∧ c.toNat ≤ 57 := by
  unfold asciiDigit
  simp only [Bool.and_eq_true, decide_eq_true_eq]
  rfl

theorem digitChar_toNat {c : Char} (h : asciiDigit c = true) : Nat.digitChar (c.toNat - 48) = c := by
  rw [asciiDigit_iff] at h
  have hc : c = Char.ofNat c.toNat := by simp
  obtain ⟨h1, h2⟩ := h
  generalize hn : c.toNat = n at *
  have : n = 48 ∨ n = 49 ∨ n = 50 ∨ n = 51 ∨ n = 52 ∨ n = 53 ∨ n = 54 ∨ n = 55 ∨ n = 56 ∨ n = 57 := by
    omega
  rw [hc]
  rcases this with rfl | rfl | rfl | rfl | rfl | rfl | rfl | rfl | rfl | rfl <;> rfl

/-- A digit string without leading zero is the text of its value. -/
theorem toDigits_digitsVal (s : Str) : ∀ (c : Char) (r : Str), s = c :: r → c ≠ '0' →
    (∀ x ∈ s, asciiDigit x = true) → 0 < digitsVal s ∧ Nat.toDigits 10 (digitsVal s) = s := by
  induction s using List.reverseRecOn with
  | nil => intro c r h; cases h
  | append_singleton t x ih =>
    intro c r h hc hd
    rw [digitsVal_append]
    have hx := hd x (by simp)
    have hx' := asciiDigit_iff.mp hx
    cases t with
    | nil =>
      simp only [List.nil_append, List.cons.injEq] at h
      obtain ⟨rfl, _⟩ := h
      have hne : x.toNat ≠ 48 := by
        intro e
        apply hc
        have : x = Char.ofNat x.toNat := by simp
        rw [this, e]
      refine ⟨by simp [digitsVal]; omega, ?_⟩
      have : (10 * digitsVal [] + (x.toNat - 48)) = x.toNat - 48 := by simp [digitsVal]
      rw [this, Nat.toDigits_of_lt_base (by omega), digitChar_toNat hx, List.nil_append]
    | cons c' t =>
      have hcc : c' = c := by simpa using (List.cons.inj h).1
      obtain ⟨h1, h2⟩ := ih c' t rfl (by rw [hcc]; exact hc) (fun y hy => hd y (by simp at hy ⊢; tauto))
      refine ⟨by omega, ?_⟩
      rw [← Nat.toDigits_append_toDigits (by omega) h1 (by omega), h2,
        Nat.toDigits_of_lt_base (by omega), digitChar_toNat hx]

theorem toDigits_digits (n : Nat) : ∀ x ∈ Nat.toDigits 10 n, asciiDigit x = true := by
  intro x hx
  have := Nat.isDigit_of_mem_toDigits (by omega) (by omega) hx
  simpa [Char.isDigit, asciiDigit, Char.le_def] using this

theorem toDigits_head (n : Nat) (hn : 0 < n) :
    ∃ c r, Nat.toDigits 10 n = c :: r ∧ '1' ≤ c ∧ c ≤ '9' := by
  induction n using Nat.strongRecOn with
  | _ n ih =>
    by_cases h : n < 10
    · refine ⟨n.digitChar, [], Nat.toDigits_of_lt_base h, ?_⟩
      have : n = 1 ∨ n = 2 ∨ n = 3 ∨ n = 4 ∨ n = 5 ∨ n = 6 ∨ n = 7 ∨ n = 8 ∨ n = 9 := by omega
      rcases this with rfl | rfl | rfl | rfl | rfl | rfl | rfl | rfl | rfl <;> decide
    · obtain ⟨c, r, h1, h2⟩ := ih (n / 10) (by omega) (by omega)
      rw [Nat.toDigits_of_base_le (by omega) (by omega), h1]
      exact ⟨c, _, rfl, h2⟩

theorem canonical_digits {digit : Char → Bool} (hd : ∀ c : Char, c.toNat < 128 → digit c = asciiDigit c)
    {s : Str} (hs : ∀ c ∈ s, c.toNat < 128) : s.all digit = true ↔ ∀ c ∈ s, asciiDigit c = true := by
  rw [List.all_eq_true]
  exact ⟨fun h c hc => by rw [← hd c (hs c hc)]; exact h c hc,
    fun h c hc => by rw [hd c (hs c hc)]; exact h c hc⟩

/-- C30: an ASCII string counts as an integer exactly when it is the text of one. -/
theorem C30_canonical (digit : Char → Bool)
    (hd : ∀ c : Char, c.toNat < 128 → digit c = asciiDigit c) (s : Str)
    (hs : ∀ c ∈ s, c.toNat < 128) :
    IsStrCanonicalInt digit s = true ↔ ∃ i : Int, s = intStr i := by
  constructor
  · intro h
    unfold IsStrCanonicalInt at h
    by_cases h0 : s = []
    · rw [if_pos h0] at h; cases h
    rw [if_neg h0] at h
    by_cases h1 : s = ['0']
    · exact ⟨0, h1⟩
    rw [if_neg h1] at h
    simp only at h
    have key : ∀ t : Str, (∀ c ∈ t, c.toNat < 128) → (match t with
        | [] => false
        | c :: _ => if '1' ≤ c ∧ c ≤ '9' then t.all digit else false) = true →
        0 < digitsVal t ∧ Nat.toDigits 10 (digitsVal t) = t := by
      intro t ht h
      cases t with
      | nil => cases h
      | cons c r =>
        simp only at h
        by_cases hc : '1' ≤ c ∧ c ≤ '9'
        · rw [if_pos hc] at h
          refine toDigits_digitsVal (c :: r) c r rfl ?_ ((canonical_digits hd ht).mp h)
          rintro rfl
          exact absurd hc.1 (by decide)
        · rw [if_neg hc] at h; cases h
    cases s with
    | nil => exact absurd rfl h0
    | cons c r =>
      by_cases hm : c = '-'
      · subst hm
        simp only [List.head?_cons, if_true, List.tail_cons] at h
        obtain ⟨k1, k2⟩ := key r (fun c hc => hs c (by simp [hc])) h
        refine ⟨.negSucc (digitsVal r - 1), ?_⟩
        simp only [intStr]
        rw [Nat.sub_add_cancel k1, k2]
      · have e : (if (c :: r).head? = some '-' then (c :: r).tail else c :: r) = c :: r := by
          simp [hm]
        rw [e] at h
        exact ⟨.ofNat (digitsVal (c :: r)), (key _ hs h).2.symm⟩
  · rintro ⟨i, hi⟩
    have pos : ∀ (t : Str) (c : Char) (r : Str), t = c :: r → '1' ≤ c → c ≤ '9' →
        t.all digit = true → IsStrCanonicalInt digit t = true := by
      rintro t c r rfl h1 h2 h3
      have hc0 : c ≠ '0' := by rintro rfl; exact absurd h1 (by decide)
      have hcm : c ≠ '-' := by rintro rfl; exact absurd h1 (by decide)
      unfold IsStrCanonicalInt
      rw [if_neg (by simp), if_neg (by simp [hc0])]
      simp only [List.head?_cons, Option.some.injEq, if_neg hcm]
      rw [if_pos ⟨h1, h2⟩, h3]
    have neg : ∀ (t : Str) (c : Char) (r : Str), t = c :: r → '1' ≤ c → c ≤ '9' →
        t.all digit = true → IsStrCanonicalInt digit ('-' :: t) = true := by
      rintro t c r rfl h1 h2 h3
      unfold IsStrCanonicalInt
      rw [if_neg (by simp), if_neg (by simp)]
      simp only [List.head?_cons, if_true, List.tail_cons]
      rw [if_pos ⟨h1, h2⟩, h3]
    cases i with
    | ofNat n =>
      have hi' : s = Nat.toDigits 10 n := hi
      by_cases hn : n = 0
      · subst hn
        rw [hi']
        rfl
      obtain ⟨c, r, e, h1, h2⟩ := toDigits_head n (by omega)
      have hall := (canonical_digits hd hs).mpr (by rw [hi']; exact toDigits_digits n)
      exact pos s c r (by rw [hi', e]) h1 h2 hall
    | negSucc n =>
      have hi' : s = '-' :: Nat.toDigits 10 (n + 1) := hi
      obtain ⟨c, r, e, h1, h2⟩ := toDigits_head (n + 1) (by omega)
      have hall := (canonical_digits hd (s := Nat.toDigits 10 (n + 1))
        (fun c hc => hs c (by rw [hi']; simp [hc]))).mpr (toDigits_digits (n + 1))
      rw [hi']
      exact neg _ c r e h1 h2 hall

/-- C30: converting such a string to an integer and back gives the same string. -/
theorem C30_roundtrip (s : Str) (i : Int) (h : s = intStr i) : pyInt s = i ∧ intStr (pyInt s) = s := by
  have hval : ∀ n : Nat, digitsVal (Nat.toDigits 10 n) = n := by
    intro n
    have := @Nat.ofDigitChars_ten_toDigits n
    unfold Nat.ofDigitChars at this
    simpa [digitsVal] using this
  have pos : ∀ t : Str, (∀ x ∈ t, asciiDigit x = true) → pyInt t = digitsVal t := by
    intro t ht
    unfold pyInt
    rw [if_neg]
    intro e
    exact absurd (ht '-' (List.mem_of_mem_head? (by rw [e]; simp))) (by decide)
  have key : pyInt (intStr i) = i := by
    cases i with
    | ofNat n =>
      have e : intStr (.ofNat n) = Nat.toDigits 10 n := rfl
      rw [e, pos _ (toDigits_digits n), hval]
      rfl
    | negSucc n =>
      have e : intStr (.negSucc n) = '-' :: Nat.toDigits 10 (n + 1) := rfl
      rw [e]
      have e2 : pyInt ('-' :: Nat.toDigits 10 (n + 1)) =
          - (digitsVal (Nat.toDigits 10 (n + 1)) : Int) := rfl
      rw [e2, hval, Int.negSucc_eq]
      rfl
  subst h
  exact ⟨key, by rw [key]⟩

/-- C30: the same number has only one such text. -/
theorem C30_injective (i j : Int) (h : intStr i = intStr j) : i = j := by
  rw [← (C30_roundtrip _ i rfl).1, h, (C30_roundtrip _ j rfl).1]

/-- C30 deviation: `str.isdigit` also holds for characters such as the superscript two,
so `1²` counts as an integer although it is the text of none. -/
theorem C30_other_digits (digit : Char → Bool) (h1 : digit '1' = true) (h : digit '²' = true) :
    IsStrCanonicalInt digit c!"1²" = true ∧ ∀ i : Int, c!"1²" ≠ intStr i := by
  refine ⟨by simp [IsStrCanonicalInt, h, h1], ?_⟩
  intro i hi
  have : ∀ x ∈ intStr i, x = '-' ∨ asciiDigit x = true := by
    intro x hx
    cases i with
    | ofNat n => exact .inr (toDigits_digits n x hx)
    | negSucc n =>
      rcases List.mem_cons.mp hx with rfl | hx
      · exact .inl rfl
      · exact .inr (toDigits_digits _ x hx)
  have h2 := this '²' (by rw [← hi]; simp)
  exact absurd h2 (by decide)

example : IsStrCanonicalInt asciiDigit c!"-120" = true ∧ intStr (-120) = c!"-120" := ⟨rfl, rfl⟩
example : IsStrCanonicalInt asciiDigit c!"007" = false ∧ IsStrCanonicalInt asciiDigit c!"-0" = false ∧
    IsStrCanonicalInt asciiDigit c!"" = false ∧ IsStrCanonicalInt asciiDigit c!"-" = false := ⟨rfl, rfl, rfl, rfl⟩

end Gyp
