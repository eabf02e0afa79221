import Verif.Spec.WheelNames
import Verif.Proofs.Canonical
/-
Facts for C124.
-/
namespace Gyp
open Spec

theorem splitOn_length (c : Char) : ∀ s : Str, (splitOn c s).length = s.count c + 1
  | [] => rfl
  | x :: s => by
    have i := splitOn_length c s
    unfold splitOn
    by_cases hx : x = c
    · simp [hx, i]
    · rw [if_neg hx]
      have hc : (x :: s).count c = s.count c := by simp [hx]
      cases h : splitOn c s with
      | nil => exact absurd h splitOn_ne_nil
      | cons w ws =>
        rw [h] at i
        simp only [List.length_cons] at i ⊢
        omega

theorem splitMax_part {c : Char} {n : Nat} {a b : Str} (h : c ∉ a) : splitMax c (n + 1) (a ++ c :: b) = a :: splitMax c n b := by
  rw [splitMax, split1_append h]

theorem splitOn_three {i a p : Str} (hi : '-' ∉ i) (ha : '-' ∉ a) (hp : '-' ∉ p) :
    splitOn '-' (i ++ '-' :: (a ++ '-' :: p)) = [i, a, p] := by
  have := splitOn_joinWith (c := '-') (ws := [i, a, p]) (by simp) (by simp [hi, ha, hp])
  simpa [joinWith] using this

/-- The tags of three parts. -/
def tagsOf (i a p : Str) : List WTag :=
  (splitOn '.' i).flatMap fun i => (splitOn '.' a).flatMap fun a =>
    (splitOn '.' p).map fun p => ⟨lowerStr i, lowerStr a, lowerStr p⟩

theorem parseTag_three {i a p : Str} (hi : '-' ∉ i) (ha : '-' ∉ a) (hp : '-' ∉ p) :
    parseTag (i ++ '-' :: (a ++ '-' :: p)) = some (tagsOf i a p) := by
  unfold parseTag
  rw [splitOn_three hi ha hp]
  rfl

theorem dottedWord_iff {s w : Str} : DottedWord s w ↔ ∃ x ∈ splitOn '.' s, lowerStr x = w := by
  constructor
  · rintro ⟨ws, x, h1, h2, h3, h4⟩
    have hne : ws ≠ [] := by rintro rfl; cases h3
    rw [← h1, splitOn_joinWith hne h2]
    exact ⟨x, h3, h4.symm⟩
  · rintro ⟨x, h, e⟩
    exact ⟨splitOn '.' s, x, joinWith_splitOn, fun y hy => mem_splitOn hy, h, e.symm⟩

theorem mem_tagsOf {i a p : Str} {t : WTag} : t ∈ tagsOf i a p ↔
    DottedWord i t.interpreter ∧ DottedWord a t.abi ∧ DottedWord p t.platform := by
  simp only [tagsOf, List.mem_flatMap, List.mem_map, dottedWord_iff]
  constructor
  · rintro ⟨x, hx, y, hy, z, hz, rfl⟩
    exact ⟨⟨x, hx, rfl⟩, ⟨y, hy, rfl⟩, z, hz, rfl⟩
  · rintro ⟨⟨x, hx, e1⟩, ⟨y, hy, e2⟩, z, hz, e3⟩
    exact ⟨x, hx, y, hy, z, hz, by cases t; simp_all⟩

theorem count_part {c : Char} {a b : Str} (h : c ∉ a) : (a ++ c :: b).count c = b.count c + 1 := by
  rw [List.count_append, List.count_eq_zero.mpr h, List.count_cons_self]
  omega

theorem wheel_stem (stem : Str) : endsWith (stem ++ c!".whl") c!".whl" = true ∧
    (stem ++ c!".whl").take ((stem ++ c!".whl").length - 4) = stem := by
  refine ⟨?_, by simp⟩
  unfold endsWith
  rw [List.isSuffixOf_iff_suffix]
  exact ⟨stem, rfl⟩

theorem parseWheel_four {n v i a p : Str} (hn : '-' ∉ n) (hv : '-' ∉ v) (hi : '-' ∉ i) (ha : '-' ∉ a) (hp : '-' ∉ p) :
    parseWheel ((n ++ '-' :: (v ++ '-' :: (i ++ '-' :: (a ++ '-' :: p)))) ++ c!".whl") =
      if hasDoubleUnderscore n || !wheelNameChars n then none
      else (Ver.parse v).map fun v => ⟨canonicalizeName n, v, none, tagsOf i a p⟩ := by
  unfold parseWheel
  rw [(wheel_stem _).1, (wheel_stem _).2]
  have hc : (n ++ '-' :: (v ++ '-' :: (i ++ '-' :: (a ++ '-' :: p)))).count '-' = 4 := by
    rw [count_part hn, count_part hv, count_part hi, count_part ha, List.count_eq_zero.mpr hp]
  have hs : splitMax '-' 2 (n ++ '-' :: (v ++ '-' :: (i ++ '-' :: (a ++ '-' :: p)))) =
      [n, v, i ++ '-' :: (a ++ '-' :: p)] := by
    rw [splitMax_part hn, splitMax_part hv, splitMax]
  simp only [hc, Bool.not_true, Bool.false_eq_true, if_false, show (4 - 2) = 2 from rfl, hs]
  rw [if_neg (by decide)]
  simp only [List.getD_cons_zero, List.getD_cons_succ]
  simp only [show ¬ ((4 : Nat) = 5) from by decide, if_false]
  have hl : [n, v, i ++ '-' :: (a ++ '-' :: p)].getLastD [] = i ++ '-' :: (a ++ '-' :: p) := rfl
  rw [hl, parseTag_three hi ha hp]
  cases Ver.parse v <;> simp

theorem parseWheel_five {n v b i a p : Str} (hn : '-' ∉ n) (hv : '-' ∉ v) (hb : '-' ∉ b) (hi : '-' ∉ i) (ha : '-' ∉ a)
    (hp : '-' ∉ p) :
    parseWheel ((n ++ '-' :: (v ++ '-' :: (b ++ '-' :: (i ++ '-' :: (a ++ '-' :: p))))) ++ c!".whl") =
      if hasDoubleUnderscore n || !wheelNameChars n then none
      else (Ver.parse v).bind fun v => (parseBuildTag b).map fun b =>
        ⟨canonicalizeName n, v, some b, tagsOf i a p⟩ := by
  unfold parseWheel
  rw [(wheel_stem _).1, (wheel_stem _).2]
  have hc : (n ++ '-' :: (v ++ '-' :: (b ++ '-' :: (i ++ '-' :: (a ++ '-' :: p))))).count '-' = 5 := by
    rw [count_part hn, count_part hv, count_part hb, count_part hi, count_part ha, List.count_eq_zero.mpr hp]
  have hs : splitMax '-' 3 (n ++ '-' :: (v ++ '-' :: (b ++ '-' :: (i ++ '-' :: (a ++ '-' :: p))))) =
      [n, v, b, i ++ '-' :: (a ++ '-' :: p)] := by
    rw [splitMax_part hn, splitMax_part hv, splitMax_part hb, splitMax]
  simp only [hc, Bool.not_true, Bool.false_eq_true, if_false, show (5 - 2) = 3 from rfl, hs]
  rw [if_neg (by decide)]
  simp only [List.getD_cons_zero, List.getD_cons_succ]
  simp only [if_true]
  have hl : [n, v, b, i ++ '-' :: (a ++ '-' :: p)].getLastD [] = i ++ '-' :: (a ++ '-' :: p) := rfl
  rw [hl, parseTag_three hi ha hp]
  cases Ver.parse v with
  | none => simp
  | some v => cases parseBuildTag b <;> simp

theorem hasDU_iff : ∀ s : Str, hasDoubleUnderscore s = true ↔ ∃ a b, s = a ++ c!"__" ++ b
  | [] => by simp [hasDoubleUnderscore]
  | c :: r => by
    rw [hasDoubleUnderscore, Bool.or_eq_true, hasDU_iff r]
    constructor
    · rintro (h | ⟨a, b, rfl⟩)
      · simp only [Bool.and_eq_true, decide_eq_true_eq] at h
        obtain ⟨rfl, h⟩ := h
        cases r with
        | nil => cases h
        | cons d r =>
          simp only [List.head?_cons, Option.some.injEq] at h
          subst h
          exact ⟨[], r, rfl⟩
      · exact ⟨c :: a, b, rfl⟩
    · rintro ⟨a, b, e⟩
      cases a with
      | nil =>
        simp only [List.nil_append, List.cons_append, List.cons.injEq] at e
        exact .inl (by rw [e.1, e.2]; rfl)
      | cons x a =>
        simp only [List.cons_append, List.cons.injEq] at e
        exact .inr ⟨a, b, e.2⟩

theorem wheelProject_iff {s : Str} (h : '\n' ∉ s) :
    (hasDoubleUnderscore s || !wheelNameChars s) = false ↔ WheelProject s := by
  unfold WheelProject wheelNameChars
  rw [matchLine_plain h, Bool.or_eq_false_iff, Bool.not_eq_false', List.all_eq_true, and_comm]
  refine and_congr ?_ ?_
  · refine forall₂_congr fun c _ => ?_
    rw [Bool.or_eq_true, Bool.or_eq_true, nameAlnum_iff, decide_eq_true_eq, decide_eq_true_eq, or_assoc]
  · rw [Bool.eq_false_iff, Ne, hasDU_iff]
    push Not
    rfl

theorem project_no_dash {s : Str} (h : WheelProject s) : '-' ∉ s := by
  intro hm
  rcases h.1 _ hm with e | e | e
  · exact absurd (nameAlnum_iff.mpr e) (by decide)
  · cases e
  · cases e

theorem takeWhile_newline {s : Str} (h : '\n' ∉ s) : s.takeWhile (· ≠ '\n') = s := by
  induction s with
  | nil => rfl
  | cons c s ih =>
    simp only [List.mem_cons, not_or] at h
    rw [List.takeWhile_cons, if_pos (by simpa using Ne.symm h.1), ih h.2]

theorem buildTag_iff {s : Str} (h : '\n' ∉ s) {b : Nat × Str} : parseBuildTag s = some b ↔ BuildText s b := by
  unfold parseBuildTag BuildText
  have hd : '\n' ∉ s.dropWhile asciiDigit := fun hm => h ((List.dropWhile_suffix _).subset hm)
  rw [takeWhile_newline hd]
  constructor
  · intro e
    split at e
    · cases e
    · rename_i hne
      cases e
      refine ⟨s.takeWhile asciiDigit, List.takeWhile_append_dropWhile.symm, ?_, ?_⟩
      · exact ⟨hne, fun c hc => asciiDigit_true.mp (mem_takeWhile_of hc), rfl⟩
      · intro c hc hx
        have := List.head?_dropWhile_not asciiDigit s
        simp only at hc
        rw [hc] at this
        simp only at this
        rw [asciiDigit_true.mpr hx] at this
        cases this
  · rintro ⟨d, e, hdig, hn⟩
    have hh : HeadIn (fun c => asciiDigit c = false) b.2 := by
      intro c hc
      rw [Bool.eq_false_iff]
      exact fun hx => hn c hc (asciiDigit_true.mp hx)
    have := eatDigits_app (digits_all hdig) hh
    unfold eatDigits at this
    simp only [Prod.mk.injEq] at this
    rw [e, this.1, this.2, if_neg hdig.1, hdig.2.2]

theorem pieces_of_count {s : Str} {n : Nat} (h : s.count '-' = n) :
    ∃ ws, ws.length = n + 1 ∧ joinWith c!"-" ws = s ∧ ∀ w ∈ ws, '-' ∉ w :=
  ⟨splitOn '-' s, by rw [splitOn_length, h], joinWith_splitOn, fun _ hw => mem_splitOn hw⟩

theorem parseWheel_shape {f : Str} {w : Wheel} (h : parseWheel f = some w) :
    ∃ stem, f = stem ++ c!".whl" ∧ (stem.count '-' = 4 ∨ stem.count '-' = 5) := by
  unfold parseWheel at h
  split at h
  · cases h
  · rename_i he
    simp only [Bool.not_eq_true', Bool.not_eq_false] at he
    unfold endsWith at he
    rw [List.isSuffixOf_iff_suffix] at he
    obtain ⟨stem, rfl⟩ := he
    refine ⟨stem, rfl, ?_⟩
    simp only at h
    split at h
    · cases h
    · rename_i hc
      rw [(wheel_stem stem).2] at hc
      omega

theorem sdist_stem {s e : Str} : (s ++ e).take ((s ++ e).length - e.length) = s := by simp

theorem suffix_iff {f e : Str} : endsWith f e = true ↔ ∃ s, f = s ++ e := by
  unfold endsWith
  rw [List.isSuffixOf_iff_suffix]
  exact ⟨fun ⟨s, h⟩ => ⟨s, h.symm⟩, fun ⟨s, h⟩ => ⟨s, h.symm⟩⟩

end Gyp
