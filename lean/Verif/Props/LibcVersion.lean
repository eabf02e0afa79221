import Verif.Model.LibcVersion
import Verif.Spec.LibcVersion
import Verif.Proofs.Specifiers
import Verif.Proofs.VersionText
/-
C131: the version of the C library.
-/
namespace Gyp
open Spec

theorem takeWhile_digits {d t : Str} (hd : ∀ c ∈ d, asciiDigit c = true)
    (ht : ∀ c, t.head? = some c → asciiDigit c = false) :
    (d ++ t).takeWhile asciiDigit = d ∧ (d ++ t).dropWhile asciiDigit = t := by
  have := eatDigits_app (d := d) (t := t) hd ht
  unfold eatDigits at this
  exact ⟨congrArg Prod.fst this, congrArg Prod.snd this⟩

theorem matchTwoNumbers_iff {s : Str} {a b : Nat} :
    matchTwoNumbers s = some (a, b) ↔ StartsWithVersion s a b := by
  constructor
  · intro h
    unfold matchTwoNumbers at h
    have e1 := eatDigits_split s
    have e2 := eatDigits_split (s.dropWhile asciiDigit).tail
    unfold eatDigits at e1 e2
    by_cases c1 : s.takeWhile asciiDigit = [] ∨ (s.dropWhile asciiDigit).head? ≠ some '.'
    · simp only [if_pos c1] at h; cases h
    · simp only [if_neg c1] at h
      by_cases c2 : (s.dropWhile asciiDigit).tail.takeWhile asciiDigit = []
      · rw [if_pos c2] at h; cases h
      · rw [if_neg c2] at h
        rw [not_or, not_not] at c1
        have hr : s.dropWhile asciiDigit = '.' :: (s.dropWhile asciiDigit).tail := by
          cases hd : s.dropWhile asciiDigit with
          | nil => rw [hd] at c1; exact absurd c1.2 (by simp)
          | cons x xs =>
            rw [hd] at c1
            have : x = '.' := by simpa using c1.2
            rw [this]; rfl
        have hv := Prod.mk.inj (Option.some.inj h)
        refine ⟨s.takeWhile asciiDigit, (s.dropWhile asciiDigit).tail.takeWhile asciiDigit,
          (s.dropWhile asciiDigit).tail.dropWhile asciiDigit, ?_, c1.1, c2, e1.2.1, e2.2.1, e2.2.2,
          hv.1, hv.2⟩
        rw [List.takeWhile_append_dropWhile, ← hr, List.takeWhile_append_dropWhile]
  · rintro ⟨ds, es, rest, rfl, h1, h2, h3, h4, h5, rfl, rfl⟩
    have t1 := takeWhile_digits (d := ds) (t := '.' :: (es ++ rest)) h3
      (fun c hc => by cases hc; rfl)
    have t2 := takeWhile_digits h4 h5
    unfold matchTwoNumbers
    simp only [t1.1, t1.2, List.tail_cons, t2.1]
    rw [if_neg (by simp [h1]), if_neg h2]

/-- The version of glibc is `a.b` exactly if the text starts with `a.b`; whatever follows is
ignored. A text that does not start so gives (-1, -1), as does a system without glibc. -/
theorem C131_glibc (s : Str) :
    (∀ a b : Nat, getGlibc (some s) = ((a : Int), (b : Int)) ↔ StartsWithVersion s a b) ∧
    (getGlibc (some s) = (-1, -1) ↔ ∀ a b, ¬ StartsWithVersion s a b) ∧
    getGlibc none = (-1, -1) := by
  refine ⟨fun a b => ?_, ?_, rfl⟩
  · rw [← matchTwoNumbers_iff]
    show parseGlibc s = _ ↔ _
    unfold parseGlibc
    cases h : matchTwoNumbers s with
    | none =>
      refine ⟨fun e => ?_, fun e => by cases e⟩
      have := (Prod.mk.inj e).1
      omega
    | some v =>
      obtain ⟨x, y⟩ := v
      constructor
      · intro e
        have := Prod.mk.inj e
        have h1 : x = a := by have := this.1; omega
        have h2 : y = b := by have := this.2; omega
        rw [h1, h2]
      · intro e
        cases e; rfl
  · show parseGlibc s = _ ↔ _
    unfold parseGlibc
    cases h : matchTwoNumbers s with
    | none =>
      refine ⟨fun _ a b hs => ?_, fun _ => rfl⟩
      rw [matchTwoNumbers_iff.mpr hs] at h; cases h
    | some v =>
      obtain ⟨x, y⟩ := v
      refine ⟨fun e => ?_, fun hs => absurd (matchTwoNumbers_iff.mp h) (hs x y)⟩
      have e' : ((x : Int), (y : Int)) = (-1, -1) := e
      have := (Prod.mk.inj e').1
      omega

example : getGlibc (some c!"2.20-2014.11") = (2, 20) := by decide
example : getGlibc (some c!"glibc 2.20") = (-1, -1) := by decide

/-- A version that is written out, with anything but a digit behind it, is read. -/
theorem C131_written (a b : Nat) {rest : Str} (h : ∀ c, rest.head? = some c → asciiDigit c = false) :
    getGlibc (some (natStr a ++ c!"." ++ natStr b ++ rest)) = ((a : Int), (b : Int)) :=
  ((C131_glibc _).1 a b).mpr ⟨natStr a, natStr b, rest, by simp, natStr_nonempty a, natStr_nonempty b,
    natStr_all a, natStr_all b, h, natStr_value a, natStr_value b⟩

example : ∀ c, (c!"-2014.11").head? = some c → asciiDigit c = false := by
  intro c hc; cases hc; rfl

theorem dropSpaces_nil : ∀ {l : Str}, l.dropWhile isPySpace = [] ↔ ∀ c ∈ l, isPySpace c = true
  | [] => by simp
  | x :: xs => by
    rw [List.dropWhile_cons]
    cases hx : isPySpace x with
    | true => rw [if_pos rfl, dropSpaces_nil]; simp [hx]
    | false => simp [hx]

theorem pyStrip_blank {l : Str} : pyStrip l = [] ↔ BlankLine l := by
  unfold pyStrip BlankLine
  rw [List.reverse_eq_nil_iff, dropSpaces_nil]
  constructor
  · intro h c hc
    have e : l.dropWhile isPySpace = [] := by
      cases hd : l.dropWhile isPySpace with
      | nil => rfl
      | cons x xs =>
        have h1 : isPySpace x = true := h x (by rw [hd]; simp)
        have h2 := List.head?_dropWhile_not isPySpace l
        rw [hd] at h2
        simp [h1] at h2
    exact dropSpaces_nil.mp e c hc
  · intro h c hc
    exact h c ((List.dropWhile_sublist _).subset (List.mem_reverse.mp hc))

theorem muslLines_cons {ls : List Str} {x : Str} {r : List Str} :
    (ls.map pyStrip).filter (· ≠ []) = x :: r ↔
      ∃ pre l post, ls = pre ++ l :: post ∧ (∀ k ∈ pre, BlankLine k) ∧ pyStrip l = x ∧ x ≠ [] ∧
        (post.map pyStrip).filter (· ≠ []) = r := by
  induction ls with
  | nil => simp
  | cons k ks ih =>
    rw [List.map_cons, List.filter_cons]
    by_cases hk : pyStrip k = []
    · rw [if_neg (by simp [hk]), ih]
      constructor
      · rintro ⟨pre, l, post, rfl, h1, h2⟩
        refine ⟨k :: pre, l, post, rfl, fun m hm => ?_, h2⟩
        rcases List.mem_cons.mp hm with e | e
        · rw [e]; exact pyStrip_blank.mp hk
        · exact h1 m e
      · rintro ⟨pre, l, post, e, h1, h2, h3, h4⟩
        cases pre with
        | nil =>
          cases e
          exact absurd (h2.symm.trans hk) h3
        | cons p ps =>
          cases e
          exact ⟨ps, l, post, rfl, fun m hm => h1 m (by simp [hm]), h2, h3, h4⟩
    · rw [if_pos (by simp [hk])]
      constructor
      · intro e
        cases e
        exact ⟨[], k, ks, rfl, by simp, rfl, hk, rfl⟩
      · rintro ⟨pre, l, post, e, h1, h2, h3, h4⟩
        cases pre with
        | nil => cases e; rw [h2, h4]
        | cons p ps =>
          cases e
          exact absurd (pyStrip_blank.mpr (h1 k (by simp))) hk

theorem take_four {x : Str} : x.take 4 = c!"musl" ↔ ∃ t, x = c!"musl" ++ t := by
  constructor
  · intro h
    exact ⟨x.drop 4, by rw [← h, List.take_append_drop]⟩
  · rintro ⟨t, rfl⟩; rfl

theorem matchVersionLine_iff {l : Str} {a b : Nat} :
    matchVersionLine l = some (a, b) ↔ ∃ t, l = c!"Version " ++ t ∧ StartsWithVersion t a b := by
  unfold matchVersionLine startsWith
  constructor
  · intro h
    by_cases hp : (c!"Version ").isPrefixOf l = true
    · rw [if_pos hp] at h
      obtain ⟨t, rfl⟩ := List.isPrefixOf_iff_prefix.mp hp
      exact ⟨t, rfl, matchTwoNumbers_iff.mp h⟩
    · rw [if_neg hp] at h; cases h
  · rintro ⟨t, rfl, h⟩
    rw [if_pos (List.isPrefixOf_iff_prefix.mpr ⟨t, rfl⟩)]
    exact matchTwoNumbers_iff.mpr h

/-- The version of musl is `a.b` exactly if the loader says so. -/
theorem C131_musl (output : Str) (a b : Nat) :
    parseMusl output = some (a, b) ↔ MuslSays (splitOn '\n' output) a b := by
  constructor
  · intro h
    unfold parseMusl muslLines at h
    cases h1 : ((splitOn '\n' output).map pyStrip).filter (· ≠ []) with
    | nil => rw [h1] at h; cases h
    | cons x r =>
      cases r with
      | nil => rw [h1] at h; cases h
      | cons y r =>
        rw [h1] at h
        have h' : (if x.take 4 ≠ c!"musl" then none else matchVersionLine y) = some (a, b) := h
        by_cases hx : x.take 4 = c!"musl"
        · rw [if_neg (by simpa using hx)] at h'
          obtain ⟨pre, l, post, e1, p1, s1, -, r1⟩ := muslLines_cons.mp h1
          obtain ⟨mid, k, post', e2, p2, s2, -, -⟩ := muslLines_cons.mp r1
          subst e2
          exact ⟨pre, l, mid, k, post', e1, p1, p2, by rw [s1]; exact take_four.mp hx,
            by rw [s2]; exact matchVersionLine_iff.mp h'⟩
        · rw [if_pos hx] at h'; cases h'
  · rintro ⟨pre, x, mid, y, post, e, p1, p2, hx, hy⟩
    have n1 : pyStrip x ≠ [] := by obtain ⟨t, ht⟩ := hx; rw [ht]; simp
    have n2 : pyStrip y ≠ [] := by obtain ⟨t, ht, -⟩ := hy; rw [ht]; simp
    have l2 := (muslLines_cons (ls := mid ++ y :: post)).mpr ⟨mid, y, post, rfl, p2, rfl, n2, rfl⟩
    have l1 := (muslLines_cons (ls := splitOn '\n' output)).mpr ⟨pre, x, _, e, p1, rfl, n1, l2⟩
    unfold parseMusl muslLines
    rw [l1]
    show (if (pyStrip x).take 4 ≠ c!"musl" then none else matchVersionLine (pyStrip y)) = _
    rw [if_neg (by simpa using take_four.mpr hx)]
    exact matchVersionLine_iff.mpr hy

example : parseMusl (c!"musl libc (x86_64)\n" ++ c!"Version 1.2.2\nDynamic") = some (1, 2) := by decide

/-- The loader cannot say two versions. -/
theorem C131_musl_one {lines : List Str} {a b c d : Nat} (hne : lines ≠ [])
    (hl : ∀ l ∈ lines, '\n' ∉ l)
    (h1 : MuslSays lines a b) (h2 : MuslSays lines c d) : a = c ∧ b = d := by
  have e : splitOn '\n' (joinWith c!"\n" lines) = lines := splitOn_joinWith hne hl
  rw [← e] at h1 h2
  have := ((C131_musl _ a b).mpr h1).symm.trans ((C131_musl _ c d).mpr h2)
  exact Prod.mk.inj (Option.some.inj this)

end Gyp
