import Verif.Spec.Version
import Verif.Props.Scan
import Mathlib.Data.List.Forall2
/-
Reading versions: lemmas for C45.
-/
namespace Gyp
open Spec

/-- The first character, if any, has a property. -/
def HeadIn (f : Char → Prop) (t : Str) : Prop := ∀ c, t.head? = some c → f c

theorem headIn_nil {f : Char → Prop} : HeadIn f [] := fun c h => by cases h

theorem headIn_cons {f : Char → Prop} {c : Char} {t : Str} : HeadIn f (c :: t) ↔ f c := by
  constructor
  · intro h; exact h c rfl
  · intro h c' e; cases e; exact h

theorem headIn_append {f : Char → Prop} {s t : Str} (hs : HeadIn f s) (ht : s = [] → HeadIn f t) :
    HeadIn f (s ++ t) := by
  cases s with
  | nil => exact ht rfl
  | cons c s => exact headIn_cons.mpr (headIn_cons.mp hs)

theorem HeadIn.mono {f g : Char → Prop} {t : Str} (h : HeadIn f t) (hfg : ∀ c, f c → g c) : HeadIn g t :=
  fun c e => hfg c (h c e)

theorem asciiDigit_true {c : Char} : asciiDigit c = true ↔ '0' ≤ c ∧ c ≤ '9' := by
  unfold asciiDigit
  rw [Bool.and_eq_true, decide_eq_true_eq, decide_eq_true_eq]

theorem digits_all {d : Str} {n : Nat} (h : Digits d n) : ∀ c ∈ d, asciiDigit c = true :=
  fun c hc => asciiDigit_true.mpr (h.2.1 c hc)

theorem takeWhile_app {p : Char → Bool} {d t : Str} (hd : ∀ c ∈ d, p c = true) (ht : HeadIn (fun c => p c = false) t) :
    (d ++ t).takeWhile p = d ∧ (d ++ t).dropWhile p = t := by
  have h0 : t.takeWhile p = [] ∧ t.dropWhile p = t := by
    cases t with
    | nil => exact ⟨rfl, rfl⟩
    | cons c t =>
      have := headIn_cons.mp ht
      simp [this]
  constructor
  · rw [List.takeWhile_append_of_pos hd, h0.1, List.append_nil]
  · rw [List.dropWhile_append_of_pos hd, h0.2]

theorem eatDigits_app {d t : Str} (hd : ∀ c ∈ d, asciiDigit c = true) (ht : HeadIn (fun c => asciiDigit c = false) t) :
    eatDigits (d ++ t) = (d, t) := by
  unfold eatDigits
  rw [(takeWhile_app hd ht).1, (takeWhile_app hd ht).2]

theorem eatSep_sep {s t : Str} (hs : Separator s) (ht : s = [] → HeadIn (fun c => isSep c = false) t) :
    eatSep (s ++ t) = t := by
  rcases hs with rfl | rfl | rfl | rfl
  · cases t with
    | nil => rfl
    | cons c t =>
      have := headIn_cons.mp (ht rfl)
      simp [eatSep, this]
  · rfl
  · rfl
  · rfl

theorem eatSep_none {t : Str} (ht : HeadIn (fun c => isSep c = false) t) : eatSep t = t :=
  eatSep_sep (.inl rfl) fun _ => ht

/-- Small letters. -/
def smallLetters : Str := c!"abcdefghijklmnopqrstuvwxyz"

/-- The letters `c` stands for. -/
theorem letterMatch_spelled {p q c : Char} (hp : p ∈ smallLetters) (hq : q ∈ smallLetters)
    (h : c = q ∨ c = q.toUpper) : letterMatch p c = decide (p = q) := by
  simp only [smallLetters, List.mem_cons, List.not_mem_nil, or_false] at hp hq
  rcases h with rfl | rfl
  · rcases hp with rfl|rfl|rfl|rfl|rfl|rfl|rfl|rfl|rfl|rfl|rfl|rfl|rfl|rfl|rfl|rfl|rfl|rfl|rfl|rfl|rfl|rfl|rfl|rfl|rfl|rfl <;>
    (revert hq; generalize c = x; intro hq; 
     rcases hq with rfl|rfl|rfl|rfl|rfl|rfl|rfl|rfl|rfl|rfl|rfl|rfl|rfl|rfl|rfl|rfl|rfl|rfl|rfl|rfl|rfl|rfl|rfl|rfl|rfl|rfl <;> rfl)
  · rcases hp with rfl|rfl|rfl|rfl|rfl|rfl|rfl|rfl|rfl|rfl|rfl|rfl|rfl|rfl|rfl|rfl|rfl|rfl|rfl|rfl|rfl|rfl|rfl|rfl|rfl|rfl <;>
     rcases hq with rfl|rfl|rfl|rfl|rfl|rfl|rfl|rfl|rfl|rfl|rfl|rfl|rfl|rfl|rfl|rfl|rfl|rfl|rfl|rfl|rfl|rfl|rfl|rfl|rfl|rfl <;> rfl

theorem letterMatch_nat {p c : Char} (hp : p ∈ smallLetters) (h : letterMatch p c = true) :
    65 ≤ c.toNat ∧ c.toNat ≤ 90 ∨ 97 ≤ c.toNat ∧ c.toNat ≤ 122 ∨ c.toNat = 0x17f ∨ c.toNat = 0x212a ∨
    c.toNat = 0x130 ∨ c.toNat = 0x131 := by
  have key : ∀ p ∈ smallLetters, 97 ≤ p.toNat ∧ p.toNat ≤ 122 ∧ 65 ≤ p.toUpper.toNat ∧ p.toUpper.toNat ≤ 90 := by
    decide
  obtain ⟨k1, k2, k3, k4⟩ := key p hp
  unfold letterMatch at h
  simp only [Bool.or_eq_true, Bool.and_eq_true, decide_eq_true_eq] at h
  rcases h with (((rfl | rfl) | h) | h) | h
  · omega
  · omega
  · omega
  · omega
  · omega

/-- Not a letter of any word. -/
def NonLetter (c : Char) : Prop := ∀ p ∈ smallLetters, letterMatch p c = false

theorem nonLetter_of {c : Char} (h : ¬ (65 ≤ c.toNat ∧ c.toNat ≤ 90 ∨ 97 ≤ c.toNat ∧ c.toNat ≤ 122 ∨
    c.toNat = 0x17f ∨ c.toNat = 0x212a ∨ c.toNat = 0x130 ∨ c.toNat = 0x131)) : NonLetter c := by
  intro p hp
  cases e : letterMatch p c
  · rfl
  · exact absurd (letterMatch_nat hp e) h

theorem char_eq_nat {c d : Char} : c = d ↔ c.toNat = d.toNat :=
  ⟨fun h => by rw [h], fun h => Char.ext (UInt32.toNat_inj.mp h)⟩

theorem isSep_iff {c : Char} : isSep c = true ↔ c = '-' ∨ c = '_' ∨ c = '.' := by
  unfold isSep
  simp only [Bool.or_eq_true, decide_eq_true_eq]
  tauto

theorem isSep_nat {c : Char} : isSep c = true ↔ c.toNat = 45 ∨ c.toNat = 95 ∨ c.toNat = 46 := by
  rw [isSep_iff, char_eq_nat, char_eq_nat, char_eq_nat]
  rfl

theorem pySpace_nat {c : Char} : pySpace c = true ↔ (9 ≤ c.toNat ∧ c.toNat ≤ 13 ∨ 28 ≤ c.toNat ∧ c.toNat ≤ 32 ∨
    c.toNat = 0x85 ∨ c.toNat = 0xa0 ∨ c.toNat = 0x1680 ∨ 0x2000 ≤ c.toNat ∧ c.toNat ≤ 0x200a ∨ c.toNat = 0x2028 ∨
    c.toNat = 0x2029 ∨ c.toNat = 0x202f ∨ c.toNat = 0x205f ∨ c.toNat = 0x3000) := by
  unfold pySpace
  simp only [Bool.or_eq_true, Bool.and_eq_true, decide_eq_true_eq]
  tauto

theorem nonLetter_sep {c : Char} (h : isSep c = true) : NonLetter c := by
  rw [isSep_nat] at h
  apply nonLetter_of
  omega

theorem nonLetter_digit {c : Char} (h : asciiDigit c = true) : NonLetter c := by
  rw [asciiDigit_iff] at h
  apply nonLetter_of
  omega

/-- What can follow the public part of a version: `+`, white space or nothing. -/
def EndChar (c : Char) : Prop := c = '+' ∨ pySpace c = true

theorem endChar_nat {c : Char} (h : EndChar c) : NonLetter c ∧ isSep c = false ∧ asciiDigit c = false := by
  have h' : c.toNat = 43 ∨ pySpace c = true := by
    rcases h with rfl | h
    · left; rfl
    · exact .inr h
  rw [pySpace_nat] at h'
  refine ⟨nonLetter_of (by omega), ?_, ?_⟩
  · cases e : isSep c
    · rfl
    · rw [isSep_nat] at e; omega
  · cases e : asciiDigit c
    · rfl
    · rw [asciiDigit_iff] at e; omega

theorem spelled_head {name w : Str} (h : Spelled name w) (hn : name ≠ []) :
    ∃ q c name' w', name = q :: name' ∧ w = c :: w' ∧ (c = q ∨ c = q.toUpper) ∧ Spelled name' w' := by
  cases h with
  | nil => exact absurd rfl hn
  | cons h t => exact ⟨_, _, _, _, rfl, rfl, h, t⟩

/-- Letters of words are neither separators nor digits nor white space nor `+`. -/
theorem small_facts {q c : Char} (hq : q ∈ smallLetters) (h : c = q ∨ c = q.toUpper) :
    isSep c = false ∧ asciiDigit c = false ∧ pySpace c = false ∧ c ≠ '+' ∧ c ≠ '.' ∧ c ≠ '-' ∧ c ≠ '!' := by
  have key : ∀ q ∈ smallLetters, ∀ c ∈ [q, q.toUpper],
      isSep c = false ∧ asciiDigit c = false ∧ pySpace c = false ∧ c ≠ '+' ∧ c ≠ '.' ∧ c ≠ '-' ∧ c ≠ '!' := by
    decide
  exact key q hq c (by rcases h with rfl | rfl <;> simp)

theorem eatWord_spelled {name w : Str} (h : Spelled name w) (t : Str) :
    eatWord name (w ++ t) = some (w, t) := by
  induction h with
  | nil => rfl
  | @cons p c name w h _ ih =>
    have : letterMatch p c = true := by
      unfold letterMatch
      rcases h with rfl | rfl <;> simp
    simp only [List.cons_append, eatWord, this, if_true, ih, Option.map_some]

/-- A word can not be read here. -/
theorem eatWord_head {p c : Char} {name t : Str} (h : letterMatch p c = false) :
    eatWord (p :: name) (c :: t) = none := by
  simp [eatWord, h]

theorem eatWord_head2 {p p' c c' : Char} {name t : Str} (h : letterMatch p' c' = false) :
    eatWord (p :: p' :: name) (c :: c' :: t) = none := by
  simp [eatWord, h]

theorem eatFirst_cons {w : Str} {ws : List Str} {s : Str} : eatFirst (w :: ws) s =
    match eatWord w s with
    | some r => some r
    | none => eatFirst ws s := by
  unfold eatFirst
  rw [List.findSome?_cons]
  cases eatWord w s <;> rfl

theorem eatFirst_none {ws : List Str} {s : Str} (h : ∀ w ∈ ws, eatWord w s = none) : eatFirst ws s = none := by
  unfold eatFirst
  rw [List.findSome?_eq_none_iff]
  exact h

/-- The words that may continue a shorter word can not be read here. -/
def Stop (c : Char) : Prop :=
  letterMatch 'l' c = false ∧ letterMatch 'e' c = false ∧ letterMatch 'v' c = false ∧ letterMatch 'c' c = false

theorem NonLetter.stop {c : Char} (h : NonLetter c) : Stop c :=
  ⟨h _ (by decide), h _ (by decide), h _ (by decide), h _ (by decide)⟩

theorem eatWord_stop {p : Char} {q : Str} {name t : Str} (h : HeadIn (fun c => letterMatch p c = false) t) :
    ∀ {w : Str}, Spelled q w → eatWord (q ++ p :: name) (w ++ t) = none := by
  induction q with
  | nil =>
    intro w hw
    cases hw
    cases t with
    | nil => rfl
    | cons c t => exact eatWord_head (headIn_cons.mp h)
  | cons a q ih =>
    intro w hw
    cases hw with
    | @cons _ b _ w hb hw =>
      simp only [List.cons_append, eatWord, ih hw, Option.map_none, ite_self]

theorem eatFirst_pre {name l w t : Str} (hm : (name, l) ∈ preNames) (hw : Spelled name w) (ht : HeadIn Stop t) :
    eatFirst preWords (w ++ t) = some (w, t) := by
  have sp := eatWord_spelled hw t
  have bad : ∀ (w : Str) p q, p ∈ smallLetters → q ∈ smallLetters → p ≠ q → ∀ {name name' : Str},
      Spelled (q :: name') w → eatWord (p :: name) (w ++ t) = none := by
    intro w p q hp hq hpq name name' hs
    obtain ⟨q', c, n', w', e1, rfl, hc, _⟩ := spelled_head hs (by simp)
    cases e1
    apply eatWord_head
    rw [letterMatch_spelled hp hq hc]
    simpa using hpq
  have hl : HeadIn (fun c => letterMatch 'l' c = false) t := ht.mono fun c h => h.1
  have he : HeadIn (fun c => letterMatch 'e' c = false) t := ht.mono fun c h => h.2.1
  have hv : HeadIn (fun c => letterMatch 'v' c = false) t := ht.mono fun c h => h.2.2.1
  simp only [preNames, List.mem_cons, List.not_mem_nil, or_false, Prod.mk.injEq] at hm
  unfold preWords
  rcases hm with ⟨rfl, _⟩ | ⟨rfl, _⟩ | ⟨rfl, _⟩ | ⟨rfl, _⟩ | ⟨rfl, _⟩ | ⟨rfl, _⟩ | ⟨rfl, _⟩ | ⟨rfl, _⟩
  · rw [eatFirst_cons, sp]
  · rw [eatFirst_cons, (show eatWord c!"alpha" (w ++ t) = none from eatWord_stop (q := ['a']) hl hw), eatFirst_cons, sp]
  · rw [eatFirst_cons, bad w 'a' 'b' (by decide) (by decide) (by decide) hw,
      eatFirst_cons, bad w 'a' 'b' (by decide) (by decide) (by decide) hw, eatFirst_cons, sp]
  · rw [eatFirst_cons, bad w 'a' 'b' (by decide) (by decide) (by decide) hw,
      eatFirst_cons, bad w 'a' 'b' (by decide) (by decide) (by decide) hw,
      eatFirst_cons, (show eatWord c!"beta" (w ++ t) = none from eatWord_stop (q := ['b']) he hw), eatFirst_cons, sp]
  · rw [eatFirst_cons, bad w 'a' 'p' (by decide) (by decide) (by decide) hw,
      eatFirst_cons, bad w 'a' 'p' (by decide) (by decide) (by decide) hw,
      eatFirst_cons, bad w 'b' 'p' (by decide) (by decide) (by decide) hw,
      eatFirst_cons, bad w 'b' 'p' (by decide) (by decide) (by decide) hw, eatFirst_cons, sp]
  · rw [eatFirst_cons, bad w 'a' 'p' (by decide) (by decide) (by decide) hw,
      eatFirst_cons, bad w 'a' 'p' (by decide) (by decide) (by decide) hw,
      eatFirst_cons, bad w 'b' 'p' (by decide) (by decide) (by decide) hw,
      eatFirst_cons, bad w 'b' 'p' (by decide) (by decide) (by decide) hw,
      eatFirst_cons, (show eatWord c!"preview" (w ++ t) = none from eatWord_stop (q := ['p', 'r', 'e']) hv hw), eatFirst_cons, sp]
  · rw [eatFirst_cons, bad w 'a' 'c' (by decide) (by decide) (by decide) hw,
      eatFirst_cons, bad w 'a' 'c' (by decide) (by decide) (by decide) hw,
      eatFirst_cons, bad w 'b' 'c' (by decide) (by decide) (by decide) hw,
      eatFirst_cons, bad w 'b' 'c' (by decide) (by decide) (by decide) hw,
      eatFirst_cons, bad w 'p' 'c' (by decide) (by decide) (by decide) hw,
      eatFirst_cons, bad w 'p' 'c' (by decide) (by decide) (by decide) hw, eatFirst_cons, sp]
  · rw [eatFirst_cons, bad w 'a' 'r' (by decide) (by decide) (by decide) hw,
      eatFirst_cons, bad w 'a' 'r' (by decide) (by decide) (by decide) hw,
      eatFirst_cons, bad w 'b' 'r' (by decide) (by decide) (by decide) hw,
      eatFirst_cons, bad w 'b' 'r' (by decide) (by decide) (by decide) hw,
      eatFirst_cons, bad w 'p' 'r' (by decide) (by decide) (by decide) hw,
      eatFirst_cons, bad w 'p' 'r' (by decide) (by decide) (by decide) hw,
      eatFirst_cons, bad w 'c' 'r' (by decide) (by decide) (by decide) hw, eatFirst_cons, sp]

theorem eatFirst_post {name l w t : Str} (hm : (name, l) ∈ postNames) (hw : Spelled name w) (ht : HeadIn Stop t) :
    eatFirst postWords (w ++ t) = some (w, t) := by
  have sp := eatWord_spelled hw t
  have bad : ∀ {name' : Str}, Spelled ('r' :: name') w → eatWord c!"post" (w ++ t) = none := by
    intro name' hs
    obtain ⟨q', c, n', w', e1, rfl, hc, _⟩ := spelled_head hs (by simp)
    cases e1
    apply eatWord_head
    rw [letterMatch_spelled (by decide) (by decide) hc]
    decide
  have he : HeadIn (fun c => letterMatch 'e' c = false) t := ht.mono fun c h => h.2.1
  simp only [postNames, List.mem_cons, List.not_mem_nil, or_false, Prod.mk.injEq] at hm
  unfold postWords
  rcases hm with ⟨rfl, _⟩ | ⟨rfl, _⟩ | ⟨rfl, _⟩
  · rw [eatFirst_cons, sp]
  · rw [eatFirst_cons, bad hw, eatFirst_cons, sp]
  · rw [eatFirst_cons, bad hw, eatFirst_cons, (show eatWord c!"rev" (w ++ t) = none from eatWord_stop (q := ['r']) he hw), eatFirst_cons, sp]

theorem eatFirst_dev {name l w t : Str} (hm : (name, l) ∈ devNames) (hw : Spelled name w) :
    eatFirst devWords (w ++ t) = some (w, t) := by
  have sp := eatWord_spelled hw t
  simp only [devNames, List.mem_cons, List.not_mem_nil, or_false, Prod.mk.injEq] at hm
  unfold devWords
  rcases hm with ⟨rfl, _⟩
  rw [eatFirst_cons, sp]

/-- No word of a list begins with a non-letter. -/
theorem eatFirst_nonLetter {ws : List Str} (hws : ∀ w ∈ ws, ∃ p w', w = p :: w' ∧ p ∈ smallLetters) {t : Str}
    (ht : HeadIn NonLetter t) : eatFirst ws t = none := by
  apply eatFirst_none
  intro w hw
  obtain ⟨p, w', rfl, hp⟩ := hws w hw
  cases t with
  | nil => rfl
  | cons c t => exact eatWord_head (headIn_cons.mp ht p hp)

theorem words_small {ws : List Str} (h : ws = preWords ∨ ws = postWords ∨ ws = devWords) :
    ∀ w ∈ ws, ∃ p w', w = p :: w' ∧ p ∈ smallLetters := by
  rcases h with rfl | rfl | rfl
  · intro w hw
    simp only [preWords, List.mem_cons, List.not_mem_nil, or_false] at hw
    rcases hw with rfl | rfl | rfl | rfl | rfl | rfl | rfl | rfl <;> exact ⟨_, _, rfl, by decide⟩
  · intro w hw
    simp only [postWords, List.mem_cons, List.not_mem_nil, or_false] at hw
    rcases hw with rfl | rfl | rfl <;> exact ⟨_, _, rfl, by decide⟩
  · intro w hw
    simp only [devWords, List.mem_cons, List.not_mem_nil, or_false] at hw
    rcases hw with rfl; exact ⟨_, _, rfl, by decide⟩

/-- `dev` is no word of the other lists. -/
theorem eatFirst_not_dev {ws : List Str} (h : ws = preWords ∨ ws = postWords) {name l w t : Str}
    (hm : (name, l) ∈ devNames) (hw : Spelled name w) : eatFirst ws (w ++ t) = none := by
  simp only [devNames, List.mem_cons, List.not_mem_nil, or_false, Prod.mk.injEq] at hm
  obtain ⟨rfl, _⟩ := hm
  obtain ⟨q, c, n', w', e1, rfl, hc, _⟩ := spelled_head hw (by simp)
  cases e1
  have k : ∀ p ∈ smallLetters, p ≠ 'd' → letterMatch p c = false := by
    intro p hp hpd
    rw [letterMatch_spelled hp (by decide) hc]
    simpa using hpd
  apply eatFirst_none
  intro w hw
  rcases h with rfl | rfl
  · simp only [preWords, List.mem_cons, List.not_mem_nil, or_false] at hw
    rcases hw with rfl | rfl | rfl | rfl | rfl | rfl | rfl | rfl <;> exact eatWord_head (k _ (by decide) (by decide))
  · simp only [postWords, List.mem_cons, List.not_mem_nil, or_false] at hw
    rcases hw with rfl | rfl | rfl <;> exact eatWord_head (k _ (by decide) (by decide))

/-- A word for a post-release is none for a pre-release. -/
theorem eatFirst_pre_post {name l w t : Str} (hm : (name, l) ∈ postNames) (hw : Spelled name w) (ht : HeadIn Stop t) :
    eatFirst preWords (w ++ t) = none := by
  have hc : HeadIn (fun c => letterMatch 'c' c = false) t := ht.mono fun c h => h.2.2.2
  simp only [postNames, List.mem_cons, List.not_mem_nil, or_false, Prod.mk.injEq] at hm
  apply eatFirst_none
  intro v hv
  simp only [preWords, List.mem_cons, List.not_mem_nil, or_false] at hv
  rcases hm with ⟨rfl, _⟩ | ⟨rfl, _⟩ | ⟨rfl, _⟩
  · cases hw with
    | @cons _ c1 _ w h1 hw =>
      cases hw with
      | @cons _ c2 _ w h2 hw =>
        have k1 : ∀ p ∈ smallLetters, p ≠ 'p' → letterMatch p c1 = false := by
          intro p hp hpd
          rw [letterMatch_spelled hp (by decide) h1]
          simpa using hpd
        have k2 : ∀ p ∈ smallLetters, p ≠ 'o' → letterMatch p c2 = false := by
          intro p hp hpd
          rw [letterMatch_spelled hp (by decide) h2]
          simpa using hpd
        rcases hv with rfl | rfl | rfl | rfl | rfl | rfl | rfl | rfl
        · exact eatWord_head (k1 _ (by decide) (by decide))
        · exact eatWord_head (k1 _ (by decide) (by decide))
        · exact eatWord_head (k1 _ (by decide) (by decide))
        · exact eatWord_head (k1 _ (by decide) (by decide))
        · exact eatWord_head2 (k2 _ (by decide) (by decide))
        · exact eatWord_head2 (k2 _ (by decide) (by decide))
        · exact eatWord_head (k1 _ (by decide) (by decide))
        · exact eatWord_head (k1 _ (by decide) (by decide))
  · cases hw with
    | @cons _ c1 _ w h1 hw =>
      cases hw with
      | @cons _ c2 _ w h2 hw =>
        have k1 : ∀ p ∈ smallLetters, p ≠ 'r' → letterMatch p c1 = false := by
          intro p hp hpd
          rw [letterMatch_spelled hp (by decide) h1]
          simpa using hpd
        have k2 : ∀ p ∈ smallLetters, p ≠ 'e' → letterMatch p c2 = false := by
          intro p hp hpd
          rw [letterMatch_spelled hp (by decide) h2]
          simpa using hpd
        rcases hv with rfl | rfl | rfl | rfl | rfl | rfl | rfl | rfl
        · exact eatWord_head (k1 _ (by decide) (by decide))
        · exact eatWord_head (k1 _ (by decide) (by decide))
        · exact eatWord_head (k1 _ (by decide) (by decide))
        · exact eatWord_head (k1 _ (by decide) (by decide))
        · exact eatWord_head (k1 _ (by decide) (by decide))
        · exact eatWord_head (k1 _ (by decide) (by decide))
        · exact eatWord_head (k1 _ (by decide) (by decide))
        · exact eatWord_head2 (k2 _ (by decide) (by decide))
  · have hr := hw
    cases hw with
    | @cons _ c1 _ w h1 hw =>
      have k1 : ∀ p ∈ smallLetters, p ≠ 'r' → letterMatch p c1 = false := by
        intro p hp hpd
        rw [letterMatch_spelled hp (by decide) h1]
        simpa using hpd
      rcases hv with rfl | rfl | rfl | rfl | rfl | rfl | rfl | rfl
      · exact eatWord_head (k1 _ (by decide) (by decide))
      · exact eatWord_head (k1 _ (by decide) (by decide))
      · exact eatWord_head (k1 _ (by decide) (by decide))
      · exact eatWord_head (k1 _ (by decide) (by decide))
      · exact eatWord_head (k1 _ (by decide) (by decide))
      · exact eatWord_head (k1 _ (by decide) (by decide))
      · exact eatWord_head (k1 _ (by decide) (by decide))
      · exact eatWord_stop (q := ['r']) hc hr

/-! ### Text to version -/

/-- What the proofs need to know about a list of words. -/
structure WordsOK (names : List (Str × Str)) (words : List Str) : Prop where
  small : ∀ name l, (name, l) ∈ names → name ≠ [] ∧ (∀ c ∈ name, c ∈ smallLetters) ∧ normLetter name = l
  first : ∀ name l, (name, l) ∈ names → ∀ w t, Spelled name w → HeadIn Stop t →
    eatFirst words (w ++ t) = some (w, t)
  mem : ∀ w ∈ words, ∃ l, (w, l) ∈ names

theorem preOK : WordsOK preNames preWords := by
  refine ⟨?_, fun name l hm w t hw ht => eatFirst_pre hm hw ht, ?_⟩
  · have : ∀ x ∈ preNames, x.1 ≠ [] ∧ (∀ c ∈ x.1, c ∈ smallLetters) ∧ normLetter x.1 = x.2 := by decide
    exact fun name l hm => this _ hm
  · have : ∀ w ∈ preWords, ∃ x ∈ preNames, x.1 = w := by decide
    intro w hw
    obtain ⟨x, hx, rfl⟩ := this w hw
    exact ⟨_, hx⟩

theorem postOK : WordsOK postNames postWords := by
  refine ⟨?_, fun name l hm w t hw ht => eatFirst_post hm hw ht, ?_⟩
  · have : ∀ x ∈ postNames, x.1 ≠ [] ∧ (∀ c ∈ x.1, c ∈ smallLetters) ∧ normLetter x.1 = x.2 := by decide
    exact fun name l hm => this _ hm
  · have : ∀ w ∈ postWords, ∃ x ∈ postNames, x.1 = w := by decide
    intro w hw
    obtain ⟨x, hx, rfl⟩ := this w hw
    exact ⟨_, hx⟩

theorem devOK : WordsOK devNames devWords := by
  refine ⟨?_, fun name l hm w t hw ht => eatFirst_dev hm hw, ?_⟩
  · have : ∀ x ∈ devNames, x.1 ≠ [] ∧ (∀ c ∈ x.1, c ∈ smallLetters) ∧ normLetter x.1 = x.2 := by decide
    exact fun name l hm => this _ hm
  · have : ∀ w ∈ devWords, ∃ x ∈ devNames, x.1 = w := by decide
    intro w hw
    obtain ⟨x, hx, rfl⟩ := this w hw
    exact ⟨_, hx⟩

theorem lower_spelled {name w : Str} (h : Spelled name w) (hn : ∀ c ∈ name, c ∈ smallLetters) :
    lowerStr w = name := by
  have key : ∀ q ∈ smallLetters, lowerChar q = [q] ∧ lowerChar q.toUpper = [q] := by decide
  induction h with
  | nil => rfl
  | @cons p c name w h _ ih =>
    have := key p (hn p (by simp))
    unfold lowerStr at *
    rw [List.map_cons, List.flatten_cons, ih fun c hc => hn c (by simp [hc])]
    rcases h with rfl | rfl
    · rw [this.1]; rfl
    · rw [this.2]; rfl

theorem numGroup_value {d : Str} {n : Nat} {w l : Str} (hn : normLetter (lowerStr w) = l)
    (h : d = [] ∧ n = 0 ∨ Digits d n) : parseLetterVersion (some w) (numGroup d) = some (l, n) := by
  rcases h with ⟨rfl, rfl⟩ | h
  · simp [numGroup, parseLetterVersion, hn]
  · simp [numGroup, h.1, parseLetterVersion, hn, h.2.2]

theorem sep_head {s : Str} (h : Separator s) : HeadIn (fun c => isSep c = true) s := by
  rcases h with rfl | rfl | rfl | rfl
  · exact headIn_nil
  · exact headIn_cons.mpr rfl
  · exact headIn_cons.mpr rfl
  · exact headIn_cons.mpr rfl

theorem digits_head {d : Str} {n : Nat} (h : d = [] ∧ n = 0 ∨ Digits d n) : HeadIn (fun c => asciiDigit c = true) d := by
  rcases h with ⟨rfl, _⟩ | h
  · exact headIn_nil
  · cases d with
    | nil => exact absurd rfl h.1
    | cons c d => exact headIn_cons.mpr (digits_all h c (by simp))

theorem digit_not_sep {c : Char} (h : asciiDigit c = true) : isSep c = false := by
  cases e : isSep c
  · rfl
  · rw [isSep_nat] at e
    rw [asciiDigit_iff] at h
    omega

/-- Reading a word with a number, with or without the separator in front of it. -/
theorem eatTag_hit {names : List (Str × Str)} {words : List Str} (ok : WordsOK names words) {s l : Str} {n : Nat}
    {bare : Prop} (h : Tag names s l n bare) {t u : Str} (hu : u = s ++ t ∨ u = eatSep (s ++ t))
    (ht : HeadIn (fun c => asciiDigit c = false) t) (hs : HeadIn Stop t)
    (hb : bare → HeadIn (fun c => asciiDigit c = false) (eatSep t)) :
    ∃ t', eatPreDev words u = (some (l, n), t') ∧ (t' = t ∨ bare ∧ t' = eatSep t) ∧
      ∃ w num, eatTag words u = (some (w, num), t') ∧ parseLetterVersion (some w) num = some (l, n) := by
  obtain ⟨s1, w, name, s2, d, rfl, h1, hm, hw, h2, hd, hbare⟩ := h
  obtain ⟨hn, hsm, hnorm⟩ := ok.small name l hm
  have hwsep : HeadIn (fun c => isSep c = false) (w ++ (s2 ++ d ++ t)) := by
    obtain ⟨q, c, name', w', rfl, rfl, hc, _⟩ := spelled_head hw hn
    exact headIn_cons.mpr (small_facts (hsm q (by simp)) hc).1
  have e1 : eatSep (s1 ++ w ++ s2 ++ d ++ t) = w ++ (s2 ++ d ++ t) := by
    rw [show s1 ++ w ++ s2 ++ d ++ t = s1 ++ (w ++ (s2 ++ d ++ t)) by simp]
    exact eatSep_sep h1 fun _ => hwsep
  have e2 : eatSep u = w ++ (s2 ++ d ++ t) := by
    rcases hu with rfl | rfl
    · exact e1
    · rw [e1, eatSep_none hwsep]
  have hstop : HeadIn Stop (s2 ++ d ++ t) := by
    rw [List.append_assoc]
    refine headIn_append ((sep_head h2).mono fun c h => (nonLetter_sep h).stop) fun _ => ?_
    exact headIn_append ((digits_head hd).mono fun c h => (nonLetter_digit h).stop) fun _ => hs
  have e3 := ok.first name l hm w (s2 ++ d ++ t) hw hstop
  have hdall : ∀ c ∈ d, asciiDigit c = true := by
    rcases hd with ⟨rfl, _⟩ | h
    · simp
    · exact digits_all h
  have e4 : ∃ t', eatDigits (eatSep (s2 ++ d ++ t)) = (d, t') ∧ (t' = t ∨ bare ∧ t' = eatSep t) := by
    by_cases hbb : s2 = [] ∧ d = []
    · obtain ⟨rfl, rfl⟩ := hbb
      have hb' := hbare.mpr ⟨rfl, rfl⟩
      refine ⟨eatSep t, ?_, .inr ⟨hb', rfl⟩⟩
      exact eatDigits_app (d := []) (by simp) (hb hb')
    · refine ⟨t, ?_, .inl rfl⟩
      rw [List.append_assoc, eatSep_sep h2]
      · exact eatDigits_app hdall ht
      · rintro rfl
        refine headIn_append ((digits_head hd).mono fun c h => digit_not_sep h) fun h => absurd ⟨rfl, h⟩ hbb
  obtain ⟨t', e5, e6⟩ := e4
  have e7 : eatTag words u = (some (w, numGroup d), t') := by
    unfold eatTag
    rw [e2, e3]
    simp only [e5]
  have e8 := numGroup_value (w := w) (by rw [lower_spelled hw hsm, hnorm]) hd
  refine ⟨t', ?_, e6, w, _, e7, e8⟩
  unfold eatPreDev
  rw [e7]
  simp only [e8]

theorem eatTag_miss {words : List Str} {u : Str} (h : eatFirst words (eatSep u) = none) :
    eatTag words u = (none, u) := by
  unfold eatTag
  rw [h]

/-- The end of a version: local part and white space. -/
def Tail5 (t : Str) : Prop := HeadIn EndChar t

theorem Tail5.facts {t : Str} (h : Tail5 t) : HeadIn NonLetter t ∧ eatSep t = t ∧
    HeadIn (fun c => asciiDigit c = false) t := by
  refine ⟨h.mono fun c h => (endChar_nat h).1, eatSep_none (h.mono fun c h => (endChar_nat h).2.1), ?_⟩
  exact h.mono fun c h => (endChar_nat h).2.2

/-- What follows the release number: the head is no digit, and no letter that would continue a
word; after a separator there is a letter. -/
structure TagTail (t : Str) : Prop where
  digit : HeadIn (fun c => asciiDigit c = false) t
  stop : HeadIn Stop t
  digit' : HeadIn (fun c => asciiDigit c = false) (eatSep t)
  sep' : eatSep (eatSep t) = eatSep t

theorem Tail5.tag {t : Str} (h : Tail5 t) : TagTail t := by
  obtain ⟨h1, h2, h3⟩ := h.facts
  refine ⟨h3, h1.mono fun c h => h.stop, by rw [h2]; exact h3, by rw [h2, h2]⟩

/-- Words of which the first letter continues no shorter word. -/
theorem optTag_tail {names : List (Str × Str)} {s : Str} {x : Option (Str × Nat)} {bare : Prop}
    (hnames : ∀ name l, (name, l) ∈ names → ∃ q name', name = q :: name' ∧ q ∈ smallLetters ∧
      q ∉ ['l', 'e', 'v', 'c'])
    (h : OptTag names s x bare) {t : Str} (ht : TagTail t) : TagTail (s ++ t) := by
  rcases h with ⟨rfl, _⟩ | ⟨l, n, _, s1, w, name, s2, d, rfl, h1, hm, hw, _⟩
  · exact ht
  · obtain ⟨q, name', rfl, hq, hq'⟩ := hnames name l hm
    obtain ⟨q', c, n', w', e1, rfl, hc, _⟩ := spelled_head hw (by simp)
    cases e1
    have f := small_facts hq hc
    have hst : Stop c := by
      refine ⟨?_, ?_, ?_, ?_⟩ <;> rw [letterMatch_spelled (by decide) hq hc] <;> simp <;> rintro rfl <;> simp at hq'
    have e : eatSep (s1 ++ (c :: w') ++ s2 ++ d ++ t) = c :: (w' ++ s2 ++ d ++ t) := by
      rw [show s1 ++ (c :: w') ++ s2 ++ d ++ t = s1 ++ (c :: (w' ++ s2 ++ d ++ t)) by simp]
      exact eatSep_sep h1 fun _ => headIn_cons.mpr f.1
    refine ⟨?_, ?_, ?_, ?_⟩
    · rw [show s1 ++ (c :: w') ++ s2 ++ d ++ t = s1 ++ (c :: (w' ++ s2 ++ d ++ t)) by simp]
      refine headIn_append ((sep_head h1).mono fun c h => ?_) fun _ => headIn_cons.mpr f.2.1
      cases e : asciiDigit c
      · rfl
      · rw [digit_not_sep e] at h; cases h
    · rw [show s1 ++ (c :: w') ++ s2 ++ d ++ t = s1 ++ (c :: (w' ++ s2 ++ d ++ t)) by simp]
      exact headIn_append ((sep_head h1).mono fun c h => (nonLetter_sep h).stop) fun _ => headIn_cons.mpr hst
    · rw [e]; exact headIn_cons.mpr f.2.1
    · rw [e]; exact eatSep_none (headIn_cons.mpr f.1)

/-- Reading the development release and all that follows. -/
theorem dev_read {d : Str} {x : Option (Str × Nat)} {bare : Prop} (h : OptTag devNames d x bare) {t u : Str} (ht : Tail5 t)
    (hu : u = d ++ t ∨ u = eatSep (d ++ t)) : eatPreDev devWords u = (x, t) := by
  obtain ⟨f1, f2, f3⟩ := ht.facts
  rcases h with ⟨rfl, rfl, _⟩ | ⟨l, n, rfl, htag⟩
  · have : u = t := by
      rcases hu with rfl | rfl
      · rfl
      · exact f2
    subst this
    unfold eatPreDev
    rw [eatTag_miss]
    rw [f2]
    exact eatFirst_nonLetter (words_small (.inr (.inr rfl))) f1
  · obtain ⟨t', e1, e2, _⟩ := eatTag_hit devOK htag hu ht.tag.digit ht.tag.stop fun _ => ht.tag.digit'
    rw [e1]
    rcases e2 with rfl | ⟨_, rfl⟩
    · rfl
    · rw [f2]

theorem dev_miss {d : Str} {x : Option (Str × Nat)} {bare : Prop} (h : OptTag devNames d x bare) {t : Str} (ht : Tail5 t)
    {ws : List Str} (hws : ws = preWords ∨ ws = postWords) : eatFirst ws (eatSep (d ++ t)) = none := by
  obtain ⟨f1, f2, f3⟩ := ht.facts
  rcases h with ⟨rfl, _, _⟩ | ⟨l, n, _, s1, w, name, s2, e, rfl, h1, hm, hw, _⟩
  · rw [List.nil_append, f2]
    exact eatFirst_nonLetter (words_small (by tauto)) f1
  · obtain ⟨hn, hsm, _⟩ := devOK.small name l hm
    rw [show s1 ++ w ++ s2 ++ e ++ t = s1 ++ (w ++ (s2 ++ e ++ t)) by simp, eatSep_sep h1]
    · exact eatFirst_not_dev hws hm hw
    · intro _
      obtain ⟨q, c, name', w', rfl, rfl, hc, _⟩ := spelled_head hw hn
      exact headIn_cons.mpr (small_facts (hsm q (by simp)) hc).1

theorem dev_tail {d : Str} {x : Option (Str × Nat)} {bare : Prop} (h : OptTag devNames d x bare) {t : Str} (ht : Tail5 t) :
    TagTail (d ++ t) := by
  refine optTag_tail ?_ h ht.tag
  intro name l hm
  simp only [devNames, List.mem_cons, List.not_mem_nil, or_false, Prod.mk.injEq] at hm
  rcases hm with ⟨rfl, _⟩; exact ⟨_, _, rfl, by decide, by decide⟩

theorem eatPost_tag {s : Str} (h : ∀ r, s = '-' :: r → HeadIn (fun c => asciiDigit c = false) r) :
    eatPost s = eatPreDev postWords s := by
  cases s with
  | nil => rfl
  | cons c r =>
    unfold eatPost eatPreDev
    simp only
    rw [if_neg]
    rintro ⟨rfl, hr⟩
    apply hr
    have := eatDigits_app (d := []) (by simp) (h r rfl)
    rw [List.nil_append] at this
    rw [this]

theorem TagTail.no_implicit {t u : Str} (h : TagTail t) (hu : u = t ∨ u = eatSep t) (r : Str) (e : u = '-' :: r) :
    HeadIn (fun c => asciiDigit c = false) r := by
  rcases hu with rfl | rfl
  · have := h.digit'
    rw [e] at this
    exact this
  · have h1 := h.sep'
    have h2 := h.digit'
    rw [e] at h1
    have h1 : r = '-' :: r := h1
    have := congrArg List.length h1
    simp at this

/-- Reading a post-release. -/
theorem post_read {po d : Str} {x y : Option (Str × Nat)} {implicit bare' : Prop} (h : PostText po x implicit)
    (hd : OptTag devNames d y bare') {t u : Str} (ht : Tail5 t)
    (hu : u = po ++ (d ++ t) ∨ ¬ implicit ∧ u = eatSep (po ++ (d ++ t))) :
    ∃ t', eatPost u = (x, t') ∧ (t' = d ++ t ∨ t' = eatSep (d ++ t)) := by
  have tt := dev_tail hd ht
  rcases h with ⟨ds, n, rfl, hds, rfl, himp⟩ | ⟨hni, bare, h⟩
  · have hu : u = '-' :: (ds ++ (d ++ t)) := by
      rcases hu with rfl | ⟨h, _⟩
      · rfl
      · exact absurd himp h
    subst hu
    refine ⟨d ++ t, ?_, .inl rfl⟩
    unfold eatPost
    simp only
    rw [eatDigits_app (digits_all hds) tt.digit]
    simp only
    rw [if_pos ⟨trivial, hds.1⟩]
    simp [parseLetterVersion, hds.2.2]
  · have hu : u = po ++ (d ++ t) ∨ u = eatSep (po ++ (d ++ t)) := by tauto
    have tp : TagTail (po ++ (d ++ t)) := by
      refine optTag_tail ?_ h tt
      intro name l hm
      simp only [postNames, List.mem_cons, List.not_mem_nil, or_false, Prod.mk.injEq] at hm
      rcases hm with ⟨rfl, _⟩ | ⟨rfl, _⟩ | ⟨rfl, _⟩ <;> exact ⟨_, _, rfl, by decide, by decide⟩
    rw [eatPost_tag fun r e => tp.no_implicit hu r e]
    rcases h with ⟨rfl, rfl, _⟩ | ⟨l, n, rfl, htag⟩
    · refine ⟨u, ?_, hu⟩
      unfold eatPreDev
      rw [eatTag_miss]
      have : eatSep u = eatSep (d ++ t) := by
        rcases hu with rfl | rfl
        · rfl
        · exact tt.sep'
      rw [this]
      exact dev_miss hd ht (.inr rfl)
    · obtain ⟨t', e1, e2, _⟩ := eatTag_hit postOK htag hu tt.digit tt.stop fun _ => tt.digit'
      exact ⟨t', e1, by tauto⟩

/-- Reading a pre-release. -/
theorem pre_read {p po d : Str} {x y z : Option (Str × Nat)} {bare implicit bare' : Prop} (hp : OptTag preNames p z bare)
    (h : PostText po x implicit) (hbi : ¬ (bare ∧ implicit))
    (hd : OptTag devNames d y bare') {t : Str} (ht : Tail5 t) :
    ∃ u, eatPreDev preWords (p ++ (po ++ (d ++ t))) = (z, u) ∧
      (u = po ++ (d ++ t) ∨ ¬ implicit ∧ u = eatSep (po ++ (d ++ t))) := by
  have tt := dev_tail hd ht
  -- the rest after the pre-release
  have rest : HeadIn (fun c => asciiDigit c = false) (po ++ (d ++ t)) ∧ HeadIn Stop (po ++ (d ++ t)) ∧
      (¬ implicit → TagTail (po ++ (d ++ t))) ∧ eatFirst preWords (eatSep (po ++ (d ++ t))) = none := by
    rcases h with ⟨ds, n, rfl, hds, rfl, himp⟩ | ⟨hni, bare, h⟩
    · refine ⟨headIn_cons.mpr rfl, headIn_cons.mpr (nonLetter_sep rfl).stop, fun h => absurd himp h, ?_⟩
      have e : eatSep ('-' :: ds ++ (d ++ t)) = ds ++ (d ++ t) := rfl
      rw [e]
      apply eatFirst_nonLetter (words_small (.inl rfl))
      cases ds with
      | nil => exact absurd rfl hds.1
      | cons c ds => exact headIn_cons.mpr (nonLetter_digit (digits_all hds c (by simp)))
    · have tp : TagTail (po ++ (d ++ t)) := by
        refine optTag_tail ?_ h tt
        intro name l hm
        simp only [postNames, List.mem_cons, List.not_mem_nil, or_false, Prod.mk.injEq] at hm
        rcases hm with ⟨rfl, _⟩ | ⟨rfl, _⟩ | ⟨rfl, _⟩ <;> exact ⟨_, _, rfl, by decide, by decide⟩
      refine ⟨tp.digit, tp.stop, fun _ => tp, ?_⟩
      rcases h with ⟨rfl, _, _⟩ | ⟨l, n, _, s1, w, name, s2, e, rfl, h1, hm, hw, h2, he, _⟩
      · exact dev_miss hd ht (.inl rfl)
      · obtain ⟨hn, hsm, _⟩ := postOK.small name l hm
        rw [show s1 ++ w ++ s2 ++ e ++ (d ++ t) = s1 ++ (w ++ (s2 ++ e ++ (d ++ t))) by simp, eatSep_sep h1]
        · apply eatFirst_pre_post hm hw
          rw [List.append_assoc]
          refine headIn_append ((sep_head h2).mono fun c h => (nonLetter_sep h).stop) fun _ => ?_
          exact headIn_append ((digits_head he).mono fun c h => (nonLetter_digit h).stop) fun _ => tt.stop
        · intro _
          obtain ⟨q, c, name', w', rfl, rfl, hc, _⟩ := spelled_head hw hn
          exact headIn_cons.mpr (small_facts (hsm q (by simp)) hc).1
  obtain ⟨r1, r2, r3, r4⟩ := rest
  rcases hp with ⟨rfl, rfl, _⟩ | ⟨l, n, rfl, htag⟩
  · refine ⟨_, ?_, .inl rfl⟩
    unfold eatPreDev
    rw [List.nil_append, eatTag_miss r4]
  · obtain ⟨t', e1, e2, _⟩ := eatTag_hit preOK htag (.inl rfl) r1 r2
      fun hb => (r3 fun hi => hbi ⟨hb, hi⟩).digit'
    refine ⟨t', e1, ?_⟩
    rcases e2 with rfl | ⟨hb, rfl⟩
    · exact .inl rfl
    · exact .inr ⟨fun hi => hbi ⟨hb, hi⟩, rfl⟩

/-- The end of a release number. -/
structure ReleaseEnd (t : Str) : Prop where
  digit : HeadIn (fun c => asciiDigit c = false) t
  dot : ∀ r, t = '.' :: r → HeadIn (fun c => asciiDigit c = false) r
  bang : HeadIn (fun c => c ≠ '!') t

theorem tag_end {names : List (Str × Str)} {words : List Str} (ok : WordsOK names words) {s l : Str} {n : Nat}
    {bare : Prop} (h : Tag names s l n bare) (t : Str) : ReleaseEnd (s ++ t) := by
  obtain ⟨s1, w, name, s2, d, rfl, h1, hm, hw, _⟩ := h
  obtain ⟨hn, hsm, _⟩ := ok.small name l hm
  obtain ⟨q, c, name', w', rfl, rfl, hc, _⟩ := spelled_head hw hn
  have f := small_facts (hsm q (by simp)) hc
  rw [show s1 ++ (c :: w') ++ s2 ++ d ++ t = s1 ++ (c :: (w' ++ s2 ++ d ++ t)) by simp]
  generalize w' ++ s2 ++ d ++ t = z
  rcases h1 with rfl | rfl | rfl | rfl
  · refine ⟨headIn_cons.mpr f.2.1, ?_, headIn_cons.mpr f.2.2.2.2.2.2⟩
    intro r e
    cases e
    exact absurd rfl f.2.2.2.2.1
  · refine ⟨headIn_cons.mpr rfl, ?_, headIn_cons.mpr (by decide)⟩
    intro r e
    cases e
  · refine ⟨headIn_cons.mpr rfl, ?_, headIn_cons.mpr (by decide)⟩
    intro r e
    cases e
  · refine ⟨headIn_cons.mpr rfl, ?_, headIn_cons.mpr (by decide)⟩
    intro r e
    cases e
    exact headIn_cons.mpr f.2.1

theorem Tail5.end {t : Str} (h : Tail5 t) : ReleaseEnd t := by
  refine ⟨h.facts.2.2, ?_, ?_⟩
  · rintro r rfl
    have := headIn_cons.mp h
    rcases this with h | h
    · cases h
    · cases h
  · refine h.mono ?_
    rintro c (rfl | h) e
    · cases e
    · subst e; cases h

theorem release_end {p po d : Str} {x y z : Option (Str × Nat)} {bare implicit bare' : Prop} (hp : OptTag preNames p z bare)
    (h : PostText po x implicit) (hd : OptTag devNames d y bare') {t : Str} (ht : Tail5 t) :
    ReleaseEnd (p ++ (po ++ (d ++ t))) := by
  rcases hp with ⟨rfl, _⟩ | ⟨l, n, _, h1⟩
  · rcases h with ⟨ds, n, rfl, _⟩ | ⟨_, _, ⟨rfl, _⟩ | ⟨l, n, _, h1⟩⟩
    · refine ⟨headIn_cons.mpr rfl, ?_, headIn_cons.mpr (by decide)⟩
      intro r e
      cases e
    · rcases hd with ⟨rfl, _⟩ | ⟨l, n, _, h1⟩
      · exact ht.end
      · exact tag_end devOK h1 _
    · exact tag_end postOK h1 _
  · exact tag_end preOK h1 _

theorem release_read {r : Str} {rs : List Nat} (h : ReleaseText r rs) {t : Str} (ht : ReleaseEnd t) :
    ∃ (d : Str) (n : Nat) (more : Str) (ns : List Nat) (ds : List Str), r = d ++ more ∧ Digits d n ∧ rs = n :: ns ∧
      ds.map digitsVal = ns ∧
      HeadIn (fun c => asciiDigit c = false ∧ c ≠ '!') (more ++ t) ∧
      ∀ fuel, (more ++ t).length ≤ fuel → eatRelease fuel (more ++ t) = (ds, t) := by
  induction h with
  | @one d n hd =>
    refine ⟨d, n, [], [], [], by simp, hd, rfl, rfl, ?_, ?_⟩
    · exact fun c e => ⟨ht.digit c e, ht.bang c e⟩
    · intro fuel hf
      rw [List.nil_append] at *
      cases t with
      | nil => cases fuel <;> rfl
      | cons c t =>
        cases fuel with
        | zero => simp at hf
        | succ fuel =>
          unfold eatRelease
          simp only
          rw [if_neg]
          rintro ⟨rfl, hd⟩
          apply hd
          have := eatDigits_app (d := []) (by simp) (ht.dot t rfl)
          rw [List.nil_append] at this
          rw [this]
  | @more d s n rs hd _ ih =>
    obtain ⟨d', n', more, ns, ds, rfl, hd', rfl, hds, hh, hread⟩ := ih
    refine ⟨d, n, '.' :: (d' ++ more), n' :: ns, d' :: ds, by simp, hd, rfl, by simp [hd'.2.2, hds], ?_, ?_⟩
    · exact headIn_cons.mpr ⟨rfl, by decide⟩
    · intro fuel hf
      cases fuel with
      | zero => simp at hf
      | succ fuel =>
        have e : eatDigits (d' ++ more ++ t) = (d', more ++ t) := by
          rw [List.append_assoc]
          exact eatDigits_app (digits_all hd') (hh.mono fun c h => h.1)
        show eatRelease (fuel + 1) ('.' :: (d' ++ more ++ t)) = _
        unfold eatRelease
        simp only [e]
        rw [if_pos ⟨trivial, hd'.1⟩, hread fuel]
        simp only [List.cons_append, List.length_cons, List.length_append] at hf ⊢
        omega

/-- Reading epoch and the first number. -/
theorem epoch_read {e d t : Str} {k n : Nat} (he : e = [] ∧ k = 0 ∨ ∃ x, e = x ++ c!"!" ∧ Digits x k) (hd : Digits d n)
    (ht : HeadIn (fun c => asciiDigit c = false ∧ c ≠ '!') t) : eatEpoch (e ++ (d ++ t)) = (k, d, t) := by
  unfold eatEpoch
  rcases he with ⟨rfl, rfl⟩ | ⟨x, rfl, hx⟩
  · rw [List.nil_append, eatDigits_app (digits_all hd) (ht.mono fun c h => h.1)]
    have : (eatBang t).1 = false := by
      cases t with
      | nil => rfl
      | cons c t => simp [eatBang, (headIn_cons.mp ht).2]
    simp [this]
  · rw [List.append_assoc, eatDigits_app (t := c!"!" ++ (d ++ t)) (digits_all hx) (headIn_cons.mpr rfl)]
    have : eatBang (c!"!" ++ (d ++ t)) = (true, d ++ t) := rfl
    simp only [this]
    rw [if_pos ⟨hx.1, trivial⟩, eatDigits_app (digits_all hd) (ht.mono fun c h => h.1), hx.2.2]

theorem digit_not_space {c : Char} (h : asciiDigit c = true) : pySpace c = false ∧ c ≠ 'v' ∧ c ≠ 'V' := by
  rw [asciiDigit_iff] at h
  refine ⟨?_, ?_, ?_⟩
  · cases e : pySpace c
    · rfl
    · rw [pySpace_nat] at e; omega
  · rintro rfl; simp at h
  · rintro rfl; simp at h

theorem start_read {w1 vv t : Str} (hw : ∀ c ∈ w1, pySpace c = true) (hv : vv = [] ∨ vv = c!"v" ∨ vv = c!"V")
    (ht : HeadIn (fun c => asciiDigit c = true) t) : eatV ((w1 ++ (vv ++ t)).dropWhile pySpace) = t := by
  rw [(takeWhile_app hw ?_).2]
  · rcases hv with rfl | rfl | rfl
    · cases t with
      | nil => rfl
      | cons c t =>
        have := digit_not_space (headIn_cons.mp ht)
        simp [eatV, this.2.1, this.2.2]
    · rfl
    · rfl
  · rcases hv with rfl | rfl | rfl
    · exact ht.mono fun c h => (digit_not_space h).1
    · exact headIn_cons.mpr rfl
    · exact headIn_cons.mpr rfl

theorem char_le_nat {a b : Char} : a ≤ b ↔ a.toNat ≤ b.toNat := by
  rw [Char.le_def, UInt32.le_iff_toNat_le]
  rfl

theorem alnum_local {c : Char} (h : AlnumChar c) : localChar c = true := by
  unfold localChar
  rcases h with h | h | h
  · simp [h.1, h.2]
  · simp [h.1, h.2]
  · simp [asciiDigit_true.mpr h]

theorem alnum_lower {c : Char} (h : AlnumChar c) : lowerChar c = [c.toLower] := by
  unfold lowerChar
  have : c.toNat < 128 := by
    rcases h with ⟨h1, h2⟩ | ⟨h1, h2⟩ | ⟨h1, h2⟩ <;> rw [char_le_nat] at h1 h2 <;>
      simp only [Char.reduceToNat] at h1 h2 <;> omega
  rw [if_neg (by omega), if_neg (by omega)]

theorem lower_alnum {s : Str} (h : ∀ c ∈ s, AlnumChar c) : lowerStr s = s.map Char.toLower := by
  unfold lowerStr
  induction s with
  | nil => rfl
  | cons c s ih =>
    rw [List.map_cons, List.flatten_cons, alnum_lower (h c (by simp)), ih fun c hc => h c (by simp [hc])]
    rfl

theorem partText_facts {s : Str} {p : LocalPart} (h : PartText s p) :
    s ≠ [] ∧ (∀ c ∈ s, localChar c = true) ∧ localPart s = p := by
  unfold localPart
  cases p with
  | num n =>
    refine ⟨h.1, fun c hc => alnum_local (.inr (.inr (h.2.1 c hc))), ?_⟩
    rw [if_pos]
    · rw [h.2.2]
    · rw [List.all_eq_true]
      exact digits_all h
  | text t =>
    obtain ⟨h1, ⟨c, hc, h2⟩, rfl⟩ := h
    refine ⟨List.ne_nil_of_mem hc, fun c hc => alnum_local (h1 c hc), ?_⟩
    rw [if_neg, lower_alnum h1]
    intro h
    rw [List.all_eq_true] at h
    exact h2 (asciiDigit_true.mp (h c hc))

/-- White space at the end. -/
theorem space_not_local {c : Char} (h : pySpace c = true) : localChar c = false ∧ isSep c = false := by
  rw [pySpace_nat] at h
  constructor
  · cases e : localChar c
    · rfl
    · unfold localChar at e
      simp only [Bool.or_eq_true, Bool.and_eq_true, decide_eq_true_eq, asciiDigit_iff, char_le_nat, Char.reduceToNat] at e
      omega
  · cases e : isSep c
    · rfl
    · rw [isSep_nat] at e
      omega

theorem sep_not_local {c : Char} (h : isSep c = true) : localChar c = false := by
  rw [isSep_iff] at h
  rcases h with rfl | rfl | rfl <;> rfl

theorem parts_read {x : Str} {ps : List LocalPart} (h : PartsText x ps) {w : Str} (hw : ∀ c ∈ w, pySpace c = true) :
    ∃ s more p ps' ms, x = s ++ more ∧ PartText s p ∧ ps = p :: ps' ∧ ms.map localPart = ps' ∧
      HeadIn (fun c => localChar c = false) (more ++ w) ∧
      ∀ fuel, (more ++ w).length ≤ fuel → eatLocal fuel (more ++ w) = (ms, w) := by
  have hw' : HeadIn (fun c => pySpace c = true) w := by
    cases w with
    | nil => exact headIn_nil
    | cons c w => exact headIn_cons.mpr (hw c (by simp))
  induction h with
  | @one s p hp =>
    refine ⟨s, [], p, [], [], by simp, hp, rfl, rfl, hw'.mono fun c h => (space_not_local h).1, ?_⟩
    intro fuel hf
    rw [List.nil_append]
    cases w with
    | nil => cases fuel <;> rfl
    | cons c w =>
      cases fuel with
      | zero => simp at hf
      | succ fuel =>
        unfold eatLocal
        simp only
        rw [if_neg]
        rintro ⟨h, _⟩
        rw [(space_not_local (headIn_cons.mp hw')).2] at h
        cases h
  | @more s t c p l hp hc _ ih =>
    obtain ⟨s', more, p', ps', ms, rfl, hp', rfl, hms, hh, hread⟩ := ih
    have hc' : isSep c = true := isSep_iff.mpr hc
    obtain ⟨f1, f2, f3⟩ := partText_facts hp'
    refine ⟨s, c :: (s' ++ more), p, p' :: ps', s' :: ms, rfl, hp, rfl, by simp [f3, hms], ?_, ?_⟩
    · exact headIn_cons.mpr (sep_not_local hc')
    · intro fuel hf
      cases fuel with
      | zero => simp at hf
      | succ fuel =>
        have e := takeWhile_app f2 hh
        rw [← List.append_assoc] at e
        show eatLocal (fuel + 1) (c :: (s' ++ more ++ w)) = _
        unfold eatLocal
        simp only [e.1, e.2]
        rw [if_pos ⟨hc', f1⟩, hread fuel]
        simp only [List.cons_append, List.length_cons, List.length_append] at hf ⊢
        omega

theorem local_read {l w : Str} {x : Option (List LocalPart)}
    (hl : l = [] ∧ x = none ∨ ∃ y ps, l = '+' :: y ∧ x = some ps ∧ PartsText y ps)
    (hw : ∀ c ∈ w, pySpace c = true) : eatLocalVersion (l ++ w) = (x, w) ∧ Tail5 (l ++ w) := by
  have hw' : HeadIn (fun c => pySpace c = true) w := by
    cases w with
    | nil => exact headIn_nil
    | cons c w => exact headIn_cons.mpr (hw c (by simp))
  rcases hl with ⟨rfl, rfl⟩ | ⟨y, ps, rfl, rfl, hp⟩
  · refine ⟨?_, hw'.mono fun c h => .inr h⟩
    cases w with
    | nil => rfl
    | cons c w =>
      rw [List.nil_append]
      unfold eatLocalVersion
      simp only
      rw [if_neg]
      rintro ⟨rfl, _⟩
      have := headIn_cons.mp hw'
      cases this
  · refine ⟨?_, headIn_cons.mpr (.inl rfl)⟩
    obtain ⟨s, more, p, ps', ms, rfl, hp', rfl, hms, hh, hread⟩ := parts_read hp hw
    obtain ⟨f1, f2, f3⟩ := partText_facts hp'
    have e := takeWhile_app f2 hh
    rw [← List.append_assoc] at e
    show eatLocalVersion ('+' :: (s ++ more ++ w)) = _
    unfold eatLocalVersion
    simp only [e.1, e.2]
    rw [if_pos ⟨trivial, f1⟩, hread _ (by simp)]
    simp [f3, hms]

/-- A version that is written somehow is read. -/
theorem parse_written {s : Str} {v : Ver} (h : Written s v) : Ver.parse s = some v := by
  obtain ⟨w1, vv, e, r, p, po, d, l, w2, bare, implicit, bare', rfl, hw1, hw2, hvv, he, hr, hp, hpo, hbi, hd, hl⟩ := h.pieces
  obtain ⟨hl1, hl2⟩ := local_read hl hw2
  have hre := release_end hp hpo hd hl2
  obtain ⟨d0, n0, more, ns, ds, rfl, hd0, hrs, hds, hmore, hrel⟩ := release_read hr hre
  have e1 : w1 ++ vv ++ e ++ (d0 ++ more) ++ p ++ po ++ d ++ l ++ w2 =
      w1 ++ (vv ++ (e ++ (d0 ++ (more ++ (p ++ (po ++ (d ++ (l ++ w2)))))))) := by simp
  have hdigit : HeadIn (fun c => asciiDigit c = true) (e ++ (d0 ++ (more ++ (p ++ (po ++ (d ++ (l ++ w2))))))) := by
    rcases he with ⟨rfl, _⟩ | ⟨x, rfl, hx⟩
    · cases d0 with
      | nil => exact absurd rfl hd0.1
      | cons c d0 => exact headIn_cons.mpr (digits_all hd0 c (by simp))
    · cases x with
      | nil => exact absurd rfl hx.1
      | cons c x => exact headIn_cons.mpr (digits_all hx c (by simp))
  obtain ⟨u1, hu1, hu1'⟩ := pre_read hp hpo hbi hd hl2
  obtain ⟨u2, hu2, hu2'⟩ := post_read hpo hd hl2 hu1'
  have hu3 := dev_read hd hl2 hu2'
  unfold Ver.parse
  rw [e1, start_read hw1 hvv hdigit, epoch_read he hd0 hmore]
  simp only
  rw [if_neg hd0.1, hrel _ (Nat.le_refl _)]
  simp only [hu1, hu2, hu3, hl1]
  have hsp : w2.dropWhile pySpace = [] := by
    simpa using (takeWhile_app hw2 headIn_nil).2
  rw [if_neg (by simp [hsp])]
  rw [hd0.2.2, hds, ← hrs]

/-! ### Version to text -/

theorem mem_takeWhile_of {p : Char → Bool} : ∀ {s : Str} {c : Char}, c ∈ s.takeWhile p → p c = true
  | [], _, h => by simp at h
  | a :: s, c, h => by
    rw [List.takeWhile_cons] at h
    by_cases ha : p a = true
    · rw [if_pos ha] at h
      rcases List.mem_cons.mp h with rfl | h
      · exact ha
      · exact mem_takeWhile_of h
    · rw [if_neg ha] at h; cases h

/-- ASCII text. -/
def AsciiText (s : Str) : Prop := ∀ c ∈ s, c.toNat < 128

theorem AsciiText.left {s t : Str} (h : AsciiText (s ++ t)) : AsciiText s := fun c hc => h c (by simp [hc])
theorem AsciiText.right {s t : Str} (h : AsciiText (s ++ t)) : AsciiText t := fun c hc => h c (by simp [hc])

theorem eatSep_split (s : Str) : ∃ s1, s = s1 ++ eatSep s ∧ Separator s1 ∧
    (s1 = [] → HeadIn (fun c => isSep c = false) (eatSep s)) := by
  cases s with
  | nil => exact ⟨[], rfl, .inl rfl, fun _ => headIn_nil⟩
  | cons c r =>
    by_cases h : isSep c = true
    · refine ⟨[c], by simp [eatSep, h], ?_, by simp⟩
      rw [isSep_iff] at h
      rcases h with rfl | rfl | rfl
      · exact .inr (.inl rfl)
      · exact .inr (.inr (.inl rfl))
      · exact .inr (.inr (.inr rfl))
    · have h : isSep c = false := by simpa using h
      refine ⟨[], by simp [eatSep, h], .inl rfl, fun _ => ?_⟩
      simp only [eatSep, h]
      exact headIn_cons.mpr h

theorem eatWord_split : ∀ {name s a b : Str}, AsciiText s → (∀ c ∈ name, c ∈ smallLetters) →
    eatWord name s = some (a, b) → s = a ++ b ∧ Spelled name a
  | [], s, a, b, _, _, h => by
    simp only [eatWord, Option.some.injEq, Prod.mk.injEq] at h
    obtain ⟨rfl, rfl⟩ := h
    exact ⟨rfl, .nil⟩
  | p :: name, [], a, b, _, _, h => by simp [eatWord] at h
  | p :: name, c :: s, a, b, hs, hn, h => by
    simp only [eatWord] at h
    by_cases hm : letterMatch p c = true
    · rw [if_pos hm] at h
      cases e : eatWord name s with
      | none => rw [e] at h; cases h
      | some r =>
        obtain ⟨a', b'⟩ := r
        rw [e] at h
        simp only [Option.map_some, Option.some.injEq, Prod.mk.injEq] at h
        obtain ⟨rfl, rfl⟩ := h
        obtain ⟨rfl, h2⟩ := eatWord_split (fun c hc => hs c (by simp [hc])) (fun c hc => hn c (by simp [hc])) e
        refine ⟨rfl, .cons ?_ h2⟩
        have hc := hs c (by simp)
        unfold letterMatch at hm
        simp only [Bool.or_eq_true, Bool.and_eq_true, decide_eq_true_eq] at hm
        rcases hm with (((h | h) | h) | h) | h
        · exact .inl h
        · exact .inr h
        · omega
        · omega
        · omega
    · rw [if_neg hm] at h; cases h

theorem eatDigits_split (s : Str) : s = (eatDigits s).1 ++ (eatDigits s).2 ∧ (∀ c ∈ (eatDigits s).1, asciiDigit c = true) ∧
    HeadIn (fun c => asciiDigit c = false) (eatDigits s).2 := by
  unfold eatDigits
  refine ⟨List.takeWhile_append_dropWhile.symm, fun c hc => ?_, fun c hc => ?_⟩
  · exact (mem_takeWhile_of hc)
  · have := List.head?_dropWhile_not asciiDigit s
    rw [hc] at this
    simpa using this

theorem digits_of {d : Str} (h : ∀ c ∈ d, asciiDigit c = true) (hn : d ≠ []) : Digits d (digitsVal d) :=
  ⟨hn, fun c hc => asciiDigit_true.mp (h c hc), rfl⟩

theorem eatTag_split {names : List (Str × Str)} {words : List Str} (ok : WordsOK names words) {s r w : Str} {num : Option Str}
    (hs : AsciiText s) (h : eatTag words s = (some (w, num), r)) :
    ∃ p l n bare, s = p ++ r ∧ Tag names p l n bare ∧ parseLetterVersion (some w) num = some (l, n) ∧
      (bare → HeadIn (fun c => isSep c = false) r) := by
  unfold eatTag at h
  cases e : eatFirst words (eatSep s) with
  | none => rw [e] at h; cases h
  | some q =>
    obtain ⟨w', t⟩ := q
    rw [e] at h
    simp only [Prod.mk.injEq, Option.some.injEq] at h
    obtain ⟨⟨rfl, rfl⟩, rfl⟩ := h
    obtain ⟨s1, es, hs1, _⟩ := eatSep_split s
    have ha : AsciiText (eatSep s) := by rw [es] at hs; exact hs.right
    unfold eatFirst at e
    obtain ⟨name, hname, e⟩ := List.exists_of_findSome?_eq_some e
    obtain ⟨l, hm⟩ := ok.mem name hname
    obtain ⟨hn, hsm, hnorm⟩ := ok.small name l hm
    obtain ⟨e1, hsp⟩ := eatWord_split ha hsm e
    obtain ⟨s2, e2, hs2, hs2'⟩ := eatSep_split t
    obtain ⟨e3, hd, hd'⟩ := eatDigits_split (eatSep t)
    have hnum : (eatDigits (eatSep t)).1 = [] ∧ digitsVal (eatDigits (eatSep t)).1 = 0 ∨
        Digits (eatDigits (eatSep t)).1 (digitsVal (eatDigits (eatSep t)).1) := by
      by_cases h0 : (eatDigits (eatSep t)).1 = []
      · left; exact ⟨h0, by rw [h0]; rfl⟩
      · right; exact digits_of hd h0
    refine ⟨s1 ++ w' ++ s2 ++ (eatDigits (eatSep t)).1, l, digitsVal (eatDigits (eatSep t)).1,
      s2 = [] ∧ (eatDigits (eatSep t)).1 = [], ?_, ⟨s1, w', name, s2, _, rfl, hs1, hm, hsp, hs2, hnum, Iff.rfl⟩, ?_, ?_⟩
    · rw [List.append_assoc, ← e3, List.append_assoc, ← e2, List.append_assoc, ← e1, ← es]
    · exact numGroup_value (by rw [lower_spelled hsp hsm, hnorm]) hnum
    · rintro ⟨h1, h2⟩
      have := hs2' h1
      rw [e3, h2] at this
      exact this

theorem eatTag_none {words : List Str} {s r : Str} (h : eatTag words s = (none, r)) : r = s := by
  unfold eatTag at h
  split at h
  · cases h; rfl
  · cases h

theorem eatPreDev_split {names : List (Str × Str)} {words : List Str} (ok : WordsOK names words) {s r : Str} {x : Option (Str × Nat)}
    (hs : AsciiText s) (h : eatPreDev words s = (x, r)) :
    ∃ p bare, s = p ++ r ∧ OptTag names p x bare ∧ (bare → HeadIn (fun c => isSep c = false) r) := by
  unfold eatPreDev at h
  split at h
  · rename_i r' e
    have := eatTag_none e
    subst this
    cases h
    exact ⟨[], False, rfl, .inl ⟨rfl, rfl, id⟩, False.elim⟩
  · rename_i w num r' e
    obtain ⟨p, l, n, bare, e1, h1, h2, h3⟩ := eatTag_split ok hs e
    cases h
    exact ⟨p, bare, e1, .inr ⟨l, n, h2, h1⟩, h3⟩

theorem eatPost_split {s r : Str} {x : Option (Str × Nat)} (hs : AsciiText s) (h : eatPost s = (x, r)) :
    ∃ p implicit, s = p ++ r ∧ PostText p x implicit ∧ (implicit → ∃ c s', s = c :: s' ∧ isSep c = true) := by
  by_cases himp : ∃ t, s = '-' :: t ∧ (eatDigits t).1 ≠ []
  · obtain ⟨t, rfl, ht⟩ := himp
    unfold eatPost at h
    simp only at h
    rw [if_pos ⟨trivial, ht⟩] at h
    cases h
    obtain ⟨e3, hd, hd'⟩ := eatDigits_split t
    refine ⟨'-' :: (eatDigits t).1, True, by rw [List.cons_append, ← e3], ?_, fun _ => ⟨_, _, rfl, rfl⟩⟩
    left
    exact ⟨_, _, rfl, digits_of hd ht, rfl, trivial⟩
  · have hh : eatPost s = eatPreDev postWords s := by
      cases s with
      | nil => rfl
      | cons c t =>
        unfold eatPost eatPreDev
        simp only
        rw [if_neg]
        rintro ⟨rfl, ht⟩
        exact himp ⟨t, rfl, ht⟩
    rw [hh] at h
    obtain ⟨p, bare, e, h1, _⟩ := eatPreDev_split postOK hs h
    exact ⟨p, False, e, .inr ⟨id, bare, h1⟩, False.elim⟩

theorem eatRelease_split : ∀ (fuel : Nat) {s r : Str} {ds : List Str}, eatRelease fuel s = (ds, r) →
    ∃ more, s = more ++ r ∧ ∀ d, Digits d (digitsVal d) → ReleaseText (d ++ more) (digitsVal d :: ds.map digitsVal)
  | 0, s, r, ds, h => by
    cases h
    exact ⟨[], rfl, fun d hd => by rw [List.append_nil]; exact .one hd⟩
  | fuel + 1, s, r, ds, h => by
    unfold eatRelease at h
    cases s with
    | nil =>
      cases h
      exact ⟨[], rfl, fun d hd => by rw [List.append_nil]; exact .one hd⟩
    | cons c t =>
      simp only at h
      by_cases hc : c = '.' ∧ (eatDigits t).1 ≠ []
      · rw [if_pos hc] at h
        obtain ⟨e3, hd, hd'⟩ := eatDigits_split t
        cases e : eatRelease fuel (eatDigits t).2 with
        | mk ds' r' =>
          rw [e] at h
          simp only [Prod.mk.injEq] at h
          obtain ⟨rfl, rfl⟩ := h
          obtain ⟨more, e4, hm⟩ := eatRelease_split fuel e
          refine ⟨c :: ((eatDigits t).1 ++ more), ?_, fun d hd0 => ?_⟩
          · rw [List.cons_append, List.append_assoc, ← e4, ← e3]
          · rw [hc.1]
            exact .more hd0 (hm _ (digits_of hd hc.2))
      · rw [if_neg hc] at h
        cases h
        exact ⟨[], rfl, fun d hd => by rw [List.append_nil]; exact .one hd⟩

theorem alnum_of_local {c : Char} (h : localChar c = true) (ha : c.toNat < 128) : AlnumChar c := by
  unfold localChar at h
  simp only [Bool.or_eq_true, Bool.and_eq_true, decide_eq_true_eq, asciiDigit_true] at h
  rcases h with (((((h | h) | h) | h) | h) | h) | h
  · exact .inr (.inr h)
  · exact .inl h
  · exact .inr (.inl h)
  · omega
  · omega
  · omega
  · omega

theorem part_of {s : Str} (ha : AsciiText s) (h : ∀ c ∈ s, localChar c = true) (hn : s ≠ []) : PartText s (localPart s) := by
  unfold localPart
  by_cases hd : s.all asciiDigit = true
  · rw [if_pos hd]
    exact digits_of (List.all_eq_true.mp hd) hn
  · rw [if_neg hd]
    have hal : ∀ c ∈ s, AlnumChar c := fun c hc => alnum_of_local (h c hc) (ha c hc)
    refine ⟨hal, ?_, lower_alnum hal⟩
    by_contra hne
    apply hd
    rw [List.all_eq_true]
    intro c hc
    by_contra hcd
    exact hne ⟨c, hc, fun h => hcd (asciiDigit_true.mpr h)⟩

theorem eatLocal_split : ∀ (fuel : Nat) {s r : Str} {ms : List Str}, AsciiText s → eatLocal fuel s = (ms, r) →
    ∃ more, s = more ++ r ∧ ∀ d p, PartText d p → PartsText (d ++ more) (p :: ms.map localPart)
  | 0, s, r, ms, _, h => by
    cases h
    exact ⟨[], rfl, fun d p hd => by rw [List.append_nil]; exact .one hd⟩
  | fuel + 1, s, r, ms, ha, h => by
    unfold eatLocal at h
    cases s with
    | nil =>
      cases h
      exact ⟨[], rfl, fun d p hd => by rw [List.append_nil]; exact .one hd⟩
    | cons c t =>
      simp only at h
      by_cases hc : isSep c = true ∧ t.takeWhile localChar ≠ []
      · rw [if_pos hc] at h
        have e3 : t = t.takeWhile localChar ++ t.dropWhile localChar := List.takeWhile_append_dropWhile.symm
        have hat : AsciiText (t.takeWhile localChar ++ t.dropWhile localChar) := by
          rw [← e3]; exact fun c hc => ha c (by simp [hc])
        cases e : eatLocal fuel (t.dropWhile localChar) with
        | mk ms' r' =>
          rw [e] at h
          simp only [Prod.mk.injEq] at h
          obtain ⟨rfl, rfl⟩ := h
          obtain ⟨more, e4, hm⟩ := eatLocal_split fuel hat.right e
          refine ⟨c :: (t.takeWhile localChar ++ more), ?_, fun d p hd0 => ?_⟩
          · rw [List.cons_append, List.append_assoc, ← e4, ← e3]
          · exact .more hd0 (isSep_iff.mp hc.1)
              (hm _ _ (part_of hat.left (fun c hc => mem_takeWhile_of hc) hc.2))
      · rw [if_neg hc] at h
        cases h
        exact ⟨[], rfl, fun d p hd => by rw [List.append_nil]; exact .one hd⟩

theorem eatLocalVersion_split {s r : Str} {x : Option (List LocalPart)} (ha : AsciiText s) (h : eatLocalVersion s = (x, r)) :
    ∃ l, s = l ++ r ∧ (l = [] ∧ x = none ∨ ∃ y ps, l = '+' :: y ∧ x = some ps ∧ PartsText y ps) := by
  unfold eatLocalVersion at h
  cases s with
  | nil =>
    cases h
    exact ⟨[], rfl, .inl ⟨rfl, rfl⟩⟩
  | cons c t =>
    simp only at h
    by_cases hc : c = '+' ∧ t.takeWhile localChar ≠ []
    · rw [if_pos hc] at h
      have e3 : t = t.takeWhile localChar ++ t.dropWhile localChar := List.takeWhile_append_dropWhile.symm
      have hat : AsciiText (t.takeWhile localChar ++ t.dropWhile localChar) := by
        rw [← e3]; exact fun c hc => ha c (by simp [hc])
      cases e : eatLocal t.length (t.dropWhile localChar) with
      | mk ms' r' =>
        rw [e] at h
        simp only [Prod.mk.injEq] at h
        obtain ⟨rfl, rfl⟩ := h
        obtain ⟨more, e4, hm⟩ := eatLocal_split _ hat.right e
        refine ⟨c :: (t.takeWhile localChar ++ more), ?_, .inr ⟨_, _, by rw [hc.1], rfl, ?_⟩⟩
        · rw [List.cons_append, List.append_assoc, ← e4, ← e3]
        · exact hm _ _ (part_of hat.left (fun c hc => mem_takeWhile_of hc) hc.2)
    · rw [if_neg hc] at h
      cases h
      exact ⟨[], rfl, .inl ⟨rfl, rfl⟩⟩

theorem eatEpoch_split {s d t : Str} {k : Nat} (h : eatEpoch s = (k, d, t)) (hd : d ≠ []) :
    ∃ e, s = e ++ d ++ t ∧ (e = [] ∧ k = 0 ∨ ∃ x, e = x ++ c!"!" ∧ Digits x k) ∧ Digits d (digitsVal d) := by
  unfold eatEpoch at h
  simp only at h
  obtain ⟨e1, h1, _⟩ := eatDigits_split s
  by_cases hb : (eatDigits s).1 ≠ [] ∧ (eatBang (eatDigits s).2).1 = true
  · rw [if_pos hb] at h
    simp only [Prod.mk.injEq] at h
    obtain ⟨rfl, h⟩ := h
    obtain ⟨e2, h2, _⟩ := eatDigits_split (eatBang (eatDigits s).2).2
    rw [h] at e2 h2
    refine ⟨(eatDigits s).1 ++ c!"!", ?_, .inr ⟨_, rfl, digits_of h1 hb.1⟩, digits_of h2 hd⟩
    have e3 : (eatDigits s).2 = '!' :: (eatBang (eatDigits s).2).2 := by
      have hb2 := hb.2
      revert hb2
      generalize (eatDigits s).2 = z
      cases z with
      | nil => intro h; cases h
      | cons c z =>
        unfold eatBang
        by_cases hc : c = '!'
        · intro _; simp [hc]
        · intro h; simp only at h; rw [if_neg hc] at h; cases h
    rw [e2] at e3
    conv_lhs => rw [e1, e3]
    simp
  · rw [if_neg hb] at h
    simp only [Prod.mk.injEq] at h
    obtain ⟨rfl, h⟩ := h
    rw [h] at e1 h1
    exact ⟨[], e1, .inl ⟨rfl, rfl⟩, digits_of h1 hd⟩

theorem eatV_split (s : Str) : ∃ vv, s = vv ++ eatV s ∧ (vv = [] ∨ vv = c!"v" ∨ vv = c!"V") := by
  cases s with
  | nil => exact ⟨[], rfl, .inl rfl⟩
  | cons c r =>
    by_cases h : c = 'v' ∨ c = 'V'
    · refine ⟨[c], by simp [eatV, h], ?_⟩
      rcases h with rfl | rfl
      · exact .inr (.inl rfl)
      · exact .inr (.inr rfl)
    · exact ⟨[], by simp [eatV, h], .inl rfl⟩

/-- A version that is read is written somehow. -/
theorem written_parse {s : Str} {v : Ver} (ha : AsciiText s) (h : Ver.parse s = some v) : Written s v := by
  unfold Ver.parse at h
  have ew : s = s.takeWhile pySpace ++ s.dropWhile pySpace := List.takeWhile_append_dropWhile.symm
  obtain ⟨vv, ev, hvv⟩ := eatV_split (s.dropWhile pySpace)
  have a1 : AsciiText (eatV (s.dropWhile pySpace)) := by
    rw [ew] at ha
    have := ha.right
    rw [ev] at this
    exact this.right
  cases he : eatEpoch (eatV (s.dropWhile pySpace)) with
  | mk k q =>
    obtain ⟨d0, s1⟩ := q
    rw [he] at h
    simp only at h
    by_cases hd0 : d0 = []
    · rw [if_pos hd0] at h; cases h
    · rw [if_neg hd0] at h
      obtain ⟨e, ee, hee, hdd⟩ := eatEpoch_split he hd0
      cases hr : eatRelease s1.length s1 with
      | mk ds s2 =>
        rw [hr] at h
        simp only at h
        obtain ⟨more, er, hmore⟩ := eatRelease_split _ hr
        rw [ee, er] at a1
        have a2 := a1.right.right
        cases hp : eatPreDev preWords s2 with
        | mk pre s3 =>
          rw [hp] at h
          simp only at h
          obtain ⟨p, bare, ep, hpre, hbare⟩ := eatPreDev_split preOK a2 hp
          rw [ep] at a2
          have a3 := a2.right
          cases hpo : eatPost s3 with
          | mk post s4 =>
            rw [hpo] at h
            simp only at h
            obtain ⟨po, implicit, epo, hpost, himp⟩ := eatPost_split a3 hpo
            have hbi : ¬ (bare ∧ implicit) := by
              rintro ⟨hb, hi⟩
              obtain ⟨c, s', e, hc⟩ := himp hi
              have := hbare hb c (by rw [e]; rfl)
              simp only [hc] at this
              cases this
            rw [epo] at a3
            have a4 := a3.right
            cases hd : eatPreDev devWords s4 with
            | mk dev s5 =>
              rw [hd] at h
              simp only at h
              obtain ⟨d, bare', ed, hdev, _⟩ := eatPreDev_split devOK a4 hd
              rw [ed] at a4
              have a5 := a4.right
              cases hl : eatLocalVersion s5 with
              | mk loc s6 =>
                rw [hl] at h
                simp only at h
                obtain ⟨l, el, hloc⟩ := eatLocalVersion_split a5 hl
                by_cases h6 : s6.dropWhile pySpace ≠ []
                · rw [if_pos h6] at h; cases h
                · rw [if_neg h6] at h
                  cases h
                  have e6 : s6.takeWhile pySpace = s6 := by
                    have := List.takeWhile_append_dropWhile (p := pySpace) (l := s6)
                    rw [not_not.mp h6, List.append_nil] at this
                    exact this
                  refine ⟨s.takeWhile pySpace, vv, e, d0 ++ more, p, po, d, l, s6, bare, implicit, bare', ?_,
                    fun c hc => mem_takeWhile_of hc, fun c hc => ?_, hvv, hee, hmore d0 hdd, hpre, hpost, hbi, hdev, hloc⟩
                  · conv_lhs => rw [ew, ev, ee, er, ep, epo, ed, el]
                    simp
                  · rw [← e6] at hc
                    exact mem_takeWhile_of hc

end Gyp
