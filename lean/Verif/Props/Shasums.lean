import Verif.Model.Shasums
import Verif.Spec.Shasums
import Mathlib.Data.List.Basic
import Mathlib.Data.List.Forall2
import Mathlib.Data.List.TakeWhile
/-
C60: reading the list of checksums.
-/
namespace Gyp
open Spec

theorem jsSpace_iff (c : Char) : jsSpace c = true ↔ Space c := by
  unfold jsSpace Space
  simp only [Bool.or_eq_true, Bool.and_eq_true, decide_eq_true_eq, List.mem_cons,
    List.not_mem_nil, or_false]
  tauto

theorem jsSpace_false_iff (c : Char) : jsSpace c = false ↔ ¬ Space c := by
  rw [← jsSpace_iff]; simp

theorem blank_iff (s : Str) : Blank s ↔ ∀ c ∈ s, jsSpace c = true := by
  unfold Blank; exact ⟨fun h c hc => (jsSpace_iff c).mpr (h c hc), fun h c hc => (jsSpace_iff c).mp (h c hc)⟩

theorem dropWhile_blank {a s : Str} (ha : Blank a) :
    (a ++ s).dropWhile jsSpace = s.dropWhile jsSpace := by
  rw [blank_iff] at ha
  induction a with
  | nil => rfl
  | cons c a ih =>
    rw [List.cons_append, List.dropWhile_cons, if_pos (ha c (by simp))]
    exact ih (fun d hd => ha d (by simp [hd]))

theorem dropWhile_head {s : Str} (h : ∀ c, s.head? = some c → ¬ Space c) :
    s.dropWhile jsSpace = s := by
  cases s with
  | nil => rfl
  | cons c s =>
    rw [List.dropWhile_cons, if_neg]
    rw [jsSpace_iff]; exact h c rfl

/-- No white space at either end. -/
def Trimmed (s : Str) : Prop :=
  (∀ c, s.head? = some c → ¬ Space c) ∧ ∀ c, s.reverse.head? = some c → ¬ Space c

theorem blank_reverse {a : Str} (h : Blank a) : Blank a.reverse := fun c hc => h c (List.mem_reverse.mp hc)

theorem jsTrim_pad {a s b : Str} (ha : Blank a) (hb : Blank b) (hs : Trimmed s) :
    jsTrim (a ++ s ++ b) = s := by
  unfold jsTrim
  rw [List.append_assoc, dropWhile_blank ha]
  cases s with
  | nil =>
    rw [List.nil_append]
    have : b.dropWhile jsSpace = [] := by
      rw [← List.append_nil b, dropWhile_blank hb]; rfl
    rw [this]; rfl
  | cons c s =>
    rw [dropWhile_head (s := (c :: s) ++ b) (by intro d hd; exact hs.1 d hd),
      List.reverse_append, dropWhile_blank (blank_reverse hb), dropWhile_head hs.2,
      List.reverse_reverse]

theorem jsTrim_spec (s : Str) : ∃ a b, s = a ++ jsTrim s ++ b ∧ Blank a ∧ Blank b ∧ Trimmed (jsTrim s) := by
  have h1 : ∀ s : Str, ∃ a, s = a ++ s.dropWhile jsSpace ∧ Blank a := by
    intro s
    refine ⟨s.takeWhile jsSpace, List.takeWhile_append_dropWhile.symm, ?_⟩
    intro c hc
    exact (jsSpace_iff c).mp (List.all_eq_true.mp List.all_takeWhile c hc)
  have h2 : ∀ (s : Str) c, (s.dropWhile jsSpace).head? = some c → ¬ Space c := by
    intro s c hc
    rw [← jsSpace_iff]
    induction s with
    | nil => cases hc
    | cons d s ih =>
      rw [List.dropWhile_cons] at hc
      by_cases hd : jsSpace d = true
      · rw [if_pos hd] at hc; exact ih hc
      · rw [if_neg hd] at hc
        have e : d = c := Option.some.inj hc
        rw [← e]; exact hd
  obtain ⟨a, ha, hab⟩ := h1 s
  obtain ⟨b, hb, hbb⟩ := h1 (s.dropWhile jsSpace).reverse
  have hb' : s.dropWhile jsSpace = jsTrim s ++ b.reverse := by
    have := congrArg List.reverse hb
    rw [List.reverse_reverse, List.reverse_append] at this
    exact this
  refine ⟨a, b.reverse, ?_, hab, blank_reverse hbb, ?_, ?_⟩
  · rw [List.append_assoc, ← hb']; exact ha
  · intro c hc
    refine h2 s c ?_
    rw [hb']
    cases h : jsTrim s with
    | nil => rw [h] at hc; cases hc
    | cons d r => rw [h] at hc; exact hc
  · intro c hc
    unfold jsTrim at hc
    rw [List.reverse_reverse] at hc
    exact h2 _ c hc

theorem splitSpaces_word {fuel : Nat} {d : Str} (hd : ∀ c ∈ d, ¬ Space c) : splitSpaces fuel d = [d] := by
  cases fuel with
  | zero => rfl
  | succ fuel =>
    have : d.dropWhile (fun c => !jsSpace c) = [] := by
      rw [List.dropWhile_eq_nil_iff]
      intro c hc
      simpa using (jsSpace_false_iff c).mpr (hd c hc)
    unfold splitSpaces; rw [this]

theorem splitSpaces_two {fuel : Nat} {d b w : Str} (hf : 0 < fuel) (hd : ∀ c ∈ d, ¬ Space c)
    (hb : Blank b) (hbn : b ≠ []) (hw : IsWord w) : splitSpaces fuel (d ++ b ++ w) = [d, w] := by
  obtain ⟨fuel, rfl⟩ := Nat.exists_eq_succ_of_ne_zero (Nat.pos_iff_ne_zero.mp hf)
  cases b with
  | nil => exact absurd rfl hbn
  | cons c b =>
    have hc : jsSpace c = true := (blank_iff _).mp hb c (by simp)
    have hd' : ∀ x ∈ d, (!jsSpace x) = true := by
      intro x hx; simpa using (jsSpace_false_iff x).mpr (hd x hx)
    have h1 : (d ++ (c :: b) ++ w).dropWhile (fun c => !jsSpace c) = c :: (b ++ w) := by
      rw [List.append_assoc, List.dropWhile_append_of_pos hd', List.cons_append,
        List.dropWhile_cons, if_neg (by simp [hc])]
    have h2 : (d ++ (c :: b) ++ w).takeWhile (fun c => !jsSpace c) = d := by
      rw [List.append_assoc, List.takeWhile_append_of_pos hd', List.cons_append,
        List.takeWhile_cons, if_neg (by simp [hc])]
      simp
    have h3 : (b ++ w).dropWhile jsSpace = w := by
      rw [dropWhile_blank (fun x hx => hb x (by simp [hx]))]
      apply dropWhile_head
      intro x hx
      exact hw.2 x (List.mem_of_mem_head? hx)
    unfold splitSpaces
    rw [h1]
    simp only
    rw [h2, h3, splitSpaces_word hw.2]

theorem splitSpaces_ne_nil (fuel : Nat) (s : Str) : splitSpaces fuel s ≠ [] := by
  cases fuel with
  | zero => simp [splitSpaces]
  | succ fuel => unfold splitSpaces; split <;> simp

theorem splitSpaces_two_inv {fuel : Nat} {s d w : Str} (hs : Trimmed s) (hlen : s.length ≤ fuel)
    (h : splitSpaces fuel s = [d, w]) :
    ∃ b, s = d ++ b ++ w ∧ Blank b ∧ b ≠ [] ∧ IsWord d ∧ IsWord w := by
  cases fuel with
  | zero => simp [splitSpaces] at h
  | succ fuel =>
    have hsplit : s.takeWhile (fun c => !jsSpace c) ++ s.dropWhile (fun c => !jsSpace c) = s :=
      List.takeWhile_append_dropWhile
    unfold splitSpaces at h
    cases hd : s.dropWhile (fun c => !jsSpace c) with
    | nil => rw [hd] at h; simp at h
    | cons c rest =>
      rw [hd] at h
      simp only [List.cons.injEq] at h
      obtain ⟨rfl, h⟩ := h
      rw [hd] at hsplit
      have hc : jsSpace c = true := by
        have := List.head_dropWhile_not (fun c => !jsSpace c) (l := s) (by rw [hd]; simp)
        simp only [hd] at this
        simpa using this
      -- the rest is one word
      have hw : splitSpaces fuel (rest.dropWhile jsSpace) = [w] := h
      have hrest : rest.takeWhile jsSpace ++ rest.dropWhile jsSpace = rest :=
        List.takeWhile_append_dropWhile
      have hwe : rest.dropWhile jsSpace = w ∧ ∀ x ∈ w, ¬ Space x := by
        cases fuel with
        | zero =>
          exfalso
          have : s.length = (s.takeWhile (fun c => !jsSpace c)).length + (rest.length + 1) := by
            conv_lhs => rw [← hsplit]
            simp
          have hl0 : s.length = 1 := by omega
          have hr : rest = [] := List.length_eq_zero_iff.mp (by omega)
          have ht : s.takeWhile (fun c => !jsSpace c) = [] := List.length_eq_zero_iff.mp (by omega)
          rw [ht, List.nil_append, hr] at hsplit
          exact hs.1 c (by rw [← hsplit]; rfl) ((jsSpace_iff c).mp hc)
        | succ fuel =>
          unfold splitSpaces at hw
          cases hd2 : (rest.dropWhile jsSpace).dropWhile (fun c => !jsSpace c) with
          | nil =>
            rw [hd2] at hw
            simp only [List.cons.injEq, and_true] at hw
            refine ⟨hw, ?_⟩
            rw [← hw]
            intro x hx
            have := List.dropWhile_eq_nil_iff.mp hd2 x hx
            exact (jsSpace_false_iff x).mp (by simpa using this)
          | cons e r =>
            rw [hd2] at hw
            simp only [List.cons.injEq] at hw
            exact absurd hw.2 (splitSpaces_ne_nil _ _)
      have hb : Blank (c :: rest.takeWhile jsSpace) := by
        intro x hx
        rcases List.mem_cons.mp hx with rfl | hx
        · exact (jsSpace_iff _).mp hc
        · exact (jsSpace_iff x).mp (List.all_eq_true.mp List.all_takeWhile x hx)
      have hse : s = s.takeWhile (fun c => !jsSpace c) ++ (c :: rest.takeWhile jsSpace) ++ w := by
        conv_lhs => rw [← hsplit, ← hrest, hwe.1]
        simp
      refine ⟨c :: rest.takeWhile jsSpace, hse, hb, by simp, ⟨?_, ?_⟩, ⟨?_, hwe.2⟩⟩
      · intro e
        rw [e] at hse
        exact hs.1 c (by rw [hse]; rfl) ((jsSpace_iff c).mp hc)
      · intro x hx
        have := List.all_eq_true.mp List.all_takeWhile x hx
        exact (jsSpace_false_iff x).mp (by simpa using this)
      · intro e
        rw [e, List.append_nil] at hse
        have hx := blank_reverse hb
        cases hr : (c :: rest.takeWhile jsSpace).reverse with
        | nil => simp at hr
        | cons x r =>
          refine hs.2 x ?_ (hx x (by rw [hr]; simp))
          rw [hse, List.reverse_append, hr]; rfl

/-- What the loop makes of a line. -/
theorem line_items (line d w : Str) :
    splitSpaces line.length (jsTrim line) = [d, w] ↔
      ∃ a b c, line = a ++ d ++ b ++ w ++ c ∧ Blank a ∧ Blank b ∧ b ≠ [] ∧ Blank c ∧
        IsWord d ∧ IsWord w := by
  constructor
  · intro h
    obtain ⟨a, c, hl, ha, hc, ht⟩ := jsTrim_spec line
    have hlen : (jsTrim line).length ≤ line.length := by
      conv_rhs => rw [hl]
      simp only [List.length_append]; omega
    obtain ⟨b, hb, h1, h2, h3, h4⟩ := splitSpaces_two_inv ht hlen h
    refine ⟨a, b, c, ?_, ha, h1, h2, hc, h3, h4⟩
    conv_lhs => rw [hl, hb]
    simp only [List.append_assoc]
  · rintro ⟨a, b, c, hl, ha, hb, hbn, hc, hd, hw⟩
    have ht : Trimmed (d ++ b ++ w) := by
      constructor
      · intro x hx
        cases hdd : d with
        | nil => exact absurd hdd hd.1
        | cons y d' =>
          rw [hdd] at hx
          have : y = x := Option.some.inj hx
          rw [← this]; exact hd.2 y (by rw [hdd]; simp)
      · intro x hx
        rw [List.reverse_append] at hx
        cases hww : w.reverse with
        | nil => exact absurd (List.reverse_eq_nil_iff.mp hww) hw.1
        | cons y w' =>
          rw [hww] at hx
          have : y = x := Option.some.inj hx
          rw [← this]; exact hw.2 y (List.mem_reverse.mp (by rw [hww]; simp))
    have : jsTrim line = d ++ b ++ w := by
      rw [hl, show a ++ d ++ b ++ w ++ c = a ++ (d ++ b ++ w) ++ c by simp only [List.append_assoc]]
      exact jsTrim_pad ha hc ht
    rw [this]
    apply splitSpaces_two _ hd.2 hb hbn hw
    rw [hl]
    simp only [List.length_append]
    have := List.length_pos_iff.mpr hd.1
    omega

theorem stripDotSlash_iff (w n : Str) : stripDotSlash w = n ↔
    (w = c!"./" ++ n ∨ (w = n ∧ ¬ c!"./" <+: n)) := by
  unfold stripDotSlash startsWith
  by_cases h : c!"./" <+: w
  · rw [if_pos (List.isPrefixOf_iff_prefix.mpr h)]
    obtain ⟨r, rfl⟩ := h
    have : (c!"./" ++ r).drop 2 = r := rfl
    rw [this]
    constructor
    · rintro rfl; exact Or.inl rfl
    · rintro (h | ⟨rfl, h⟩)
      · exact List.append_cancel_left h
      · exact absurd ⟨r, rfl⟩ h
  · rw [if_neg (by rwa [List.isPrefixOf_iff_prefix])]
    constructor
    · rintro rfl; exact Or.inr ⟨rfl, h⟩
    · rintro (rfl | ⟨rfl, -⟩)
      · exact absurd ⟨n, rfl⟩ h
      · rfl

theorem entryLine_iff (line d n : Str) : EntryLine line d n ↔
    ∃ w, splitSpaces line.length (jsTrim line) = [d, w] ∧ stripDotSlash w = n := by
  unfold EntryLine
  constructor
  · rintro ⟨a, b, c, w, h1, h2, h3, h4, h5, h6, h7, h8⟩
    exact ⟨w, (line_items line d w).mpr ⟨a, b, c, h1, h2, h3, h4, h5, h6, h7⟩,
      (stripDotSlash_iff w n).mpr h8⟩
  · rintro ⟨w, h, hn⟩
    obtain ⟨a, b, c, h1, h2, h3, h4, h5, h6, h7⟩ := (line_items line d w).mp h
    exact ⟨a, b, c, w, h1, h2, h3, h4, h5, h6, h7, (stripDotSlash_iff w n).mp hn⟩

theorem entryLine_pad {a c line d n : Str} (ha : Blank a) (hc : Blank c) (h : EntryLine line d n) :
    EntryLine (a ++ line ++ c) d n := by
  obtain ⟨a', b, c', w, rfl, h2, h3, h4, h5, h6⟩ := h
  refine ⟨a ++ a', b, c' ++ c, w, by simp, ?_, h3, h4, ?_, h6⟩
  · intro x hx; rcases List.mem_append.mp hx with h | h
    · exact ha x h
    · exact h2 x h
  · intro x hx; rcases List.mem_append.mp hx with h | h
    · exact h5 x h
    · exact hc x h

theorem entryLine_unpad {a c line d n : Str} (ha : Blank a) (hc : Blank c)
    (h : EntryLine (a ++ line ++ c) d n) : EntryLine line d n := by
  rw [entryLine_iff] at h ⊢
  obtain ⟨w, hw, hn⟩ := h
  refine ⟨w, ?_, hn⟩
  have htrim : jsTrim (a ++ line ++ c) = jsTrim line := by
    obtain ⟨a', c', hl, ha', hc', ht⟩ := jsTrim_spec line
    conv_lhs => rw [hl]
    rw [show a ++ (a' ++ jsTrim line ++ c') ++ c = (a ++ a') ++ jsTrim line ++ (c' ++ c) by simp]
    apply jsTrim_pad _ _ ht
    · intro x hx; rcases List.mem_append.mp hx with h | h
      · exact ha x h
      · exact ha' x h
    · intro x hx; rcases List.mem_append.mp hx with h | h
      · exact hc' x h
      · exact hc x h
  have hlen : ∀ l : Str, (jsTrim l).length ≤ l.length := by
    intro l
    obtain ⟨x, y, hl, -⟩ := jsTrim_spec l
    conv_rhs => rw [hl]
    simp only [List.length_append]; omega
  have hl1 := hlen (a ++ line ++ c)
  obtain ⟨-, -, -, -, -, ht⟩ := jsTrim_spec line
  obtain ⟨b, hb, h1, h2, h3, h4⟩ := splitSpaces_two_inv (htrim ▸ ht : Trimmed (jsTrim (a ++ line ++ c))) hl1 hw
  rw [htrim] at hb
  rw [hb]
  apply splitSpaces_two _ h3.2 h1 h2 h4
  have := hlen line
  rw [hb] at this
  simp only [List.length_append] at this
  have := List.length_pos_iff.mpr h3.1
  omega

theorem blank_not_entry {l : Str} (h : Blank l) (d n : Str) : ¬ EntryLine l d n := by
  rintro ⟨a, b, c, w, rfl, -, -, -, -, hd, -⟩
  cases d with
  | nil => exact hd.1 rfl
  | cons x d => exact hd.2 x (by simp) (h x (by simp))

theorem sumsLoop_entry {line d n : Str} (h : EntryLine line d n) (ls : List Str) (t : List (Str × Str)) :
    sumsLoop (line :: ls) t = sumsLoop ls (aset t n d) := by
  obtain ⟨w, hw, rfl⟩ := (entryLine_iff line d n).mp h
  rw [sumsLoop, hw]

theorem sumsLoop_stop {line : Str} (h : ¬ ∃ d n, EntryLine line d n) (ls : List Str)
    (t : List (Str × Str)) : sumsLoop (line :: ls) t = t := by
  unfold sumsLoop
  split
  · rename_i d n hm
    exact absurd ⟨d, _, (entryLine_iff line d _).mpr ⟨n, hm, rfl⟩⟩ h
  · rfl

/-- Lines that say the same. -/
def SameLine (l l' : Str) : Prop := ∀ d n, EntryLine l d n ↔ EntryLine l' d n

theorem sumsLoop_congr : ∀ {L L' : List Str}, List.Forall₂ SameLine L L' → ∀ t,
    sumsLoop L t = sumsLoop L' t
  | _, _, .nil, _ => rfl
  | _, _, .cons (a := a) (b := b) h hs, t => by
    by_cases hl : ∃ d n, EntryLine a d n
    · obtain ⟨d, n, hd⟩ := hl
      rw [sumsLoop_entry hd, sumsLoop_entry ((h d n).mp hd)]
      exact sumsLoop_congr hs _
    · rw [sumsLoop_stop hl, sumsLoop_stop]
      rintro ⟨d, n, hd⟩; exact hl ⟨d, n, (h d n).mpr hd⟩

theorem sumsLoop_blanks {bl : List Str} (hb : ∀ l ∈ bl, Blank l) (L : List Str) (t : List (Str × Str)) :
    sumsLoop (L ++ bl) t = sumsLoop L t := by
  induction L generalizing t with
  | nil =>
    cases bl with
    | nil => rfl
    | cons b bl =>
      rw [List.nil_append, sumsLoop_stop]
      · rfl
      · rintro ⟨d, n, h⟩; exact blank_not_entry (hb b (by simp)) d n h
  | cons l L ih =>
    rw [List.cons_append]
    by_cases hl : ∃ d n, EntryLine l d n
    · obtain ⟨d, n, hd⟩ := hl
      rw [sumsLoop_entry hd, sumsLoop_entry hd, ih]
    · rw [sumsLoop_stop hl, sumsLoop_stop hl]

theorem splitOn_cons_sep (c : Char) (s : Str) : splitOn c (c :: s) = [] :: splitOn c s := by
  simp [splitOn]

theorem splitOn_cons_other {c x : Char} (h : x ≠ c) {s hd : Str} {tl : List Str}
    (hs : splitOn c s = hd :: tl) : splitOn c (x :: s) = (x :: hd) :: tl := by
  simp [splitOn, h, hs]

theorem splitOn_blank_left {w : Str} (hw : Blank w) (s h : Str) (t : List Str)
    (hs : splitOn '\n' s = h :: t) :
    ∃ bl v, splitOn '\n' (w ++ s) = bl ++ (v ++ h) :: t ∧ (∀ l ∈ bl, Blank l) ∧ Blank v := by
  induction w with
  | nil => exact ⟨[], [], hs, by simp, by simp [Blank]⟩
  | cons c w ih =>
    obtain ⟨bl, v, h1, h2, h3⟩ := ih (fun x hx => hw x (by simp [hx]))
    by_cases hc : c = '\n'
    · subst hc
      refine ⟨[] :: bl, v, ?_, ?_, h3⟩
      · rw [List.cons_append, splitOn_cons_sep, h1]; rfl
      · intro l hl
        rcases List.mem_cons.mp hl with rfl | hl
        · simp [Blank]
        · exact h2 l hl
    · cases bl with
      | nil =>
        refine ⟨[], c :: v, ?_, by simp, ?_⟩
        · rw [List.cons_append, splitOn_cons_other hc h1]; rfl
        · intro x hx
          rcases List.mem_cons.mp hx with rfl | hx
          · exact hw _ (by simp)
          · exact h3 x hx
      | cons b bl =>
        refine ⟨(c :: b) :: bl, v, ?_, ?_, h3⟩
        · rw [List.cons_append, splitOn_cons_other hc h1]; rfl
        · intro l hl
          rcases List.mem_cons.mp hl with rfl | hl
          · intro x hx
            rcases List.mem_cons.mp hx with rfl | hx
            · exact hw _ (by simp)
            · exact h2 b (by simp) x hx
          · exact h2 l (by simp [hl])

theorem splitOn_blank_right {w : Str} (hw : Blank w) (s : Str) :
    ∃ L l v bl, splitOn '\n' s = L ++ [l] ∧ splitOn '\n' (s ++ w) = L ++ (l ++ v) :: bl ∧
      (∀ l ∈ bl, Blank l) ∧ Blank v := by
  induction s with
  | nil =>
    have : splitOn '\n' ([] : Str) = [] ++ [[]] := rfl
    have h0 : splitOn '\n' ([] : Str) = [] :: [] := rfl
    obtain ⟨bl, v, h1, h2, h3⟩ := splitOn_blank_left hw [] [] [] h0
    rw [List.append_nil] at h1
    cases bl with
    | nil => exact ⟨[], [], v, [], rfl, by rw [List.nil_append, h1]; simp, by simp, h3⟩
    | cons b bl =>
      refine ⟨[], [], b, bl ++ [v], rfl, by rw [List.nil_append, h1]; simp, ?_, h2 b (by simp)⟩
      intro l hl
      rcases List.mem_append.mp hl with h | h
      · exact h2 l (by simp [h])
      · rw [List.mem_singleton.mp h]; exact h3
  | cons c s ih =>
    obtain ⟨L, l, v, bl, h1, h2, h3, h4⟩ := ih
    by_cases hc : c = '\n'
    · subst hc
      exact ⟨[] :: L, l, v, bl, by rw [splitOn_cons_sep, h1]; rfl,
        by rw [List.cons_append, splitOn_cons_sep, h2]; rfl, h3, h4⟩
    · cases L with
      | nil =>
        exact ⟨[], c :: l, v, bl, by rw [splitOn_cons_other hc h1]; rfl,
          by rw [List.cons_append, splitOn_cons_other hc h2]; rfl, h3, h4⟩
      | cons x L =>
        exact ⟨(c :: x) :: L, l, v, bl, by rw [splitOn_cons_other hc h1]; rfl,
          by rw [List.cons_append, splitOn_cons_other hc h2]; rfl, h3, h4⟩

theorem sameLine_pad {a c : Str} (ha : Blank a) (hc : Blank c) (l : Str) : SameLine l (a ++ l ++ c) :=
  fun _ _ => ⟨entryLine_pad ha hc, entryLine_unpad ha hc⟩

theorem blank_nil : Blank [] := by simp [Blank]

theorem forall2_snoc {R : Str → Str → Prop} {L L' : List Str} (h : List.Forall₂ R L L') {a b : Str}
    (hab : R a b) : List.Forall₂ R (L ++ [a]) (L' ++ [b]) := by
  induction h with
  | nil => exact .cons hab .nil
  | cons h _ ih => exact .cons h ih

/-- The table of a text is that of its lines after the blank ones. -/
theorem parseShasums_lines (text : Str) :
    ∃ blanks L, splitOn '\n' text = blanks ++ L ∧ (∀ l ∈ blanks, Blank l) ∧
      (∀ l, L.head? = some l → ¬ Blank l) ∧ parseShasums text = sumsLoop L [] := by
  obtain ⟨a, b, ht, ha, hb, htrim⟩ := jsTrim_spec text
  unfold parseShasums
  generalize jsTrim text = core at ht htrim
  subst ht
  cases hcore : core with
  | nil =>
    refine ⟨splitOn '\n' (a ++ [] ++ b), [], by simp, ?_, by simp, ?_⟩
    · intro l hl x hx
      have : x ∈ a ++ [] ++ b := by
        rw [← joinWith_splitOn (c := '\n') (s := a ++ [] ++ b)]
        have hj : ∀ (ls : List Str), l ∈ ls → x ∈ joinWith ['\n'] ls := by
          intro ls hls
          induction ls with
          | nil => cases hls
          | cons y ls ih =>
            cases ls with
            | nil =>
              rw [List.mem_singleton.mp hls] at hx
              simpa [joinWith] using hx
            | cons z ls =>
              simp only [joinWith, List.mem_append]
              rcases List.mem_cons.mp hls with rfl | hls
              · exact Or.inl (Or.inl hx)
              · exact Or.inr (ih hls)
        exact hj _ hl
      rw [List.append_nil] at this
      rcases List.mem_append.mp this with h | h
      · exact ha x h
      · exact hb x h
    · show sumsLoop [[]] [] = _
      rw [sumsLoop_stop]
      · rfl
      · rintro ⟨d, n, h⟩; exact blank_not_entry blank_nil d n h
  | cons x core' =>
    rw [← hcore]
    obtain ⟨L, l, v, bl2, h1, h2, h3, h4⟩ := splitOn_blank_right hb core
    -- the first line
    have hfirst : ∃ h t, splitOn '\n' core = h :: t ∧ ¬ Blank h := by
      have hx : ¬ Space x := htrim.1 x (by rw [hcore]; rfl)
      have hxn : x ≠ '\n' := by rintro rfl; exact hx (by unfold Space; decide)
      cases hs : splitOn '\n' core' with
      | nil => exact absurd hs splitOn_ne_nil
      | cons h t =>
        refine ⟨x :: h, t, by rw [hcore]; exact splitOn_cons_other hxn hs, ?_⟩
        intro hb; exact hx (hb x (by simp))
    obtain ⟨h, t, hht, hnb⟩ := hfirst
    rw [List.append_assoc]
    -- the lines of core ++ b
    have hL : ∃ h' t', splitOn '\n' (core ++ b) = h' :: t' ∧ ¬ Blank h' ∧
        List.Forall₂ SameLine (splitOn '\n' core) ((h' :: t').take (L.length + 1)) ∧
        (∀ l ∈ (h' :: t').drop (L.length + 1), Blank l) := by
      rw [h1, h2]
      have hrefl : ∀ L : List Str, List.Forall₂ SameLine L L :=
        fun L => List.forall₂_same.mpr (fun _ _ _ _ => Iff.rfl)
      have hpad : SameLine l (l ++ v) := by
        have := sameLine_pad blank_nil h4 l
        simpa using this
      cases L with
      | nil =>
        refine ⟨l ++ v, bl2, rfl, ?_, ?_, ?_⟩
        · intro hbl
          rw [h1, List.nil_append] at hht
          cases hht
          exact hnb (fun c hc => hbl c (by simp [hc]))
        · simpa using hpad
        · simpa using h3
      | cons y L =>
        refine ⟨y, L ++ (l ++ v) :: bl2, rfl, ?_, ?_, ?_⟩
        · rw [h1, List.cons_append] at hht
          cases hht
          exact hnb
        · have e : (y :: (L ++ (l ++ v) :: bl2)).take ((y :: L).length + 1) = (y :: L) ++ [l ++ v] := by
            have := List.take_left' (l₁ := (y :: L) ++ [l ++ v]) (l₂ := bl2) (i := (y :: L).length + 1) (by simp)
            simpa using this
          rw [e]
          exact forall2_snoc (hrefl _) hpad
        · have e : (y :: (L ++ (l ++ v) :: bl2)).drop ((y :: L).length + 1) = bl2 := by
            simp [List.drop_append]
          rw [e]; exact h3
    obtain ⟨h', t', e1, e2, e3, e4⟩ := hL
    obtain ⟨bl1, v1, g1, g2, g3⟩ := splitOn_blank_left ha (core ++ b) h' t' e1
    refine ⟨bl1, (v1 ++ h') :: t', g1, g2, ?_, ?_⟩
    · intro l hl hbl
      have : v1 ++ h' = l := Option.some.inj hl
      rw [← this] at hbl
      exact e2 (fun c hc => hbl c (by simp [hc]))
    · have s1 := sumsLoop_congr e3 []
      have s2 := sumsLoop_blanks e4 ((h' :: t').take (L.length + 1)) []
      rw [List.take_append_drop] at s2
      have s3 : sumsLoop (h' :: t') [] = sumsLoop ((v1 ++ h') :: t') [] := by
        apply sumsLoop_congr
        refine .cons ?_ (List.forall₂_same.mpr (fun _ _ _ _ => Iff.rfl))
        have := sameLine_pad g3 blank_nil h'
        simpa using this
      rw [s1, ← s2, s3]

/-- The loop over entries. -/
theorem sumsLoop_entries {es rest : List Str} (he : ∀ l ∈ es, ∃ d n, EntryLine l d n)
    (hr : ∀ l, rest.head? = some l → ¬ ∃ d n, EntryLine l d n) (t : List (Str × Str)) (name digest : Str) :
    aget (sumsLoop (es ++ rest) t) name = some digest ↔
      (∃ before line after, es = before ++ line :: after ∧ EntryLine line digest name ∧
        ∀ l ∈ after, ∀ d, ¬ EntryLine l d name) ∨
      ((∀ l ∈ es, ∀ d, ¬ EntryLine l d name) ∧ aget t name = some digest) := by
  induction es generalizing t with
  | nil =>
    rw [List.nil_append]
    have : sumsLoop rest t = t := by
      cases rest with
      | nil => rfl
      | cons r rest => exact sumsLoop_stop (hr r rfl) _ _
    rw [this]
    simp
  | cons l es ih =>
    obtain ⟨d, n, hd⟩ := he l (by simp)
    rw [List.cons_append, sumsLoop_entry hd, ih (fun l hl => he l (by simp [hl])), aget_aset]
    have huniq : ∀ d' n', EntryLine l d' n' → d' = d ∧ n' = n := by
      intro d' n' h'
      obtain ⟨w, hw, hn⟩ := (entryLine_iff l d n).mp hd
      obtain ⟨w', hw', hn'⟩ := (entryLine_iff l d' n').mp h'
      rw [hw] at hw'
      simp only [List.cons.injEq, and_true] at hw'
      exact ⟨hw'.1.symm, by rw [← hn', ← hn, hw'.2]⟩
    constructor
    · rintro (⟨before, line, after, rfl, h⟩ | ⟨h1, h2⟩)
      · exact Or.inl ⟨l :: before, line, after, rfl, h⟩
      · by_cases hn : name = n
        · rw [if_pos hn] at h2
          refine Or.inl ⟨[], l, es, rfl, ?_, h1⟩
          rw [hn, ← Option.some.inj h2]; exact hd
        · rw [if_neg hn] at h2
          refine Or.inr ⟨?_, h2⟩
          intro l' hl' d' h'
          rcases List.mem_cons.mp hl' with rfl | hl'
          · exact hn (huniq d' name h').2
          · exact h1 l' hl' d' h'
    · rintro (⟨before, line, after, he', h⟩ | ⟨h1, h2⟩)
      · cases before with
        | nil =>
          rw [List.nil_append] at he'
          cases he'
          obtain ⟨rfl, rfl⟩ := huniq _ _ h.1
          exact Or.inr ⟨h.2, by rw [if_pos rfl]⟩
        | cons b before =>
          rw [List.cons_append] at he'
          cases he'
          exact Or.inl ⟨before, line, after, rfl, h⟩
      · have hn : name ≠ n := by
          rintro rfl; exact h1 l (by simp) d hd
        exact Or.inr ⟨fun l' hl' => h1 l' (by simp [hl']), by rw [if_neg hn]; exact h2⟩

theorem blank_prefix_unique : ∀ {bl bl' L L' : List Str}, bl ++ L = bl' ++ L' →
    (∀ l ∈ bl, Blank l) → (∀ l ∈ bl', Blank l) → (∀ l, L.head? = some l → ¬ Blank l) →
    (∀ l, L'.head? = some l → ¬ Blank l) → L = L'
  | [], [], _, _, h, _, _, _, _ => h
  | [], b :: bl', L, L', h, _, h2, h3, _ => by
    rw [List.nil_append, List.cons_append] at h
    exact absurd (h2 b (by simp)) (h3 b (by rw [h]; rfl))
  | b :: bl, [], L, L', h, h1, _, _, h4 => by
    rw [List.nil_append, List.cons_append] at h
    exact absurd (h1 b (by simp)) (h4 b (by rw [← h]; rfl))
  | b :: bl, b' :: bl', L, L', h, h1, h2, h3, h4 => by
    rw [List.cons_append, List.cons_append] at h
    exact blank_prefix_unique (List.cons.inj h).2 (fun l hl => h1 l (by simp [hl]))
      (fun l hl => h2 l (by simp [hl])) h3 h4

/-- C60: the expected checksum of a file is the one the list publishes for it. -/
theorem C60_published (text name digest : Str) :
    aget (parseShasums text) name = some digest ↔ Publishes text name digest := by
  obtain ⟨bl, L, h1, h2, h3, h4⟩ := parseShasums_lines text
  rw [h4]
  -- the entries at the start of the lines
  have hsplit : ∀ L : List Str, ∃ es rest, L = es ++ rest ∧ (∀ l ∈ es, ∃ d n, EntryLine l d n) ∧
      (∀ l, rest.head? = some l → ¬ ∃ d n, EntryLine l d n) := by
    intro L
    induction L with
    | nil => exact ⟨[], [], rfl, by simp, by simp⟩
    | cons l L ih =>
      by_cases hl : ∃ d n, EntryLine l d n
      · obtain ⟨es, rest, rfl, he, hr⟩ := ih
        refine ⟨l :: es, rest, rfl, ?_, hr⟩
        intro l' hl'
        rcases List.mem_cons.mp hl' with rfl | hl'
        · exact hl
        · exact he l' hl'
      · refine ⟨[], l :: L, rfl, by simp, ?_⟩
        intro l' hl'
        rw [← Option.some.inj hl']; exact hl
  constructor
  · intro h
    obtain ⟨es, rest, rfl, he, hr⟩ := hsplit L
    rcases (sumsLoop_entries he hr [] name digest).mp h with ⟨before, line, after, rfl, h5, h6⟩ | ⟨-, h5⟩
    · refine ⟨before, line, after, ⟨bl, rest, by rw [h1]; simp, h2, he, hr, by simp⟩, h5, h6⟩
    · cases h5
  · rintro ⟨before, line, after, ⟨bl', rest, e, hb', he, hr, -⟩, h5, h6⟩
    have hL : L = (before ++ line :: after) ++ rest := by
      refine blank_prefix_unique (bl := bl) (bl' := bl') ?_ h2 hb' h3 ?_
      · rw [← h1, e]; simp
      · intro l hl hbl
        have : ∃ d n, EntryLine l d n := by
          apply he l
          cases before with
          | nil => rw [← Option.some.inj hl]; simp
          | cons b before => rw [← Option.some.inj hl]; simp
        obtain ⟨d, n, h⟩ := this
        exact blank_not_entry hbl d n h
    rw [hL, sumsLoop_entries he hr]
    exact Or.inl ⟨before, line, after, rfl, h5, h6⟩

/-- A sample list, with a blank line before a second group. -/
def sumsSample : Str := c!"\nd1  ./a.tar.gz\nd2\t b.h \r\nd3 a.tar.gz\n\nd4 c\n"

example : parseShasums sumsSample = [(c!"a.tar.gz", c!"d3"), (c!"b.h", c!"d2")] := by decide

/-- C60: an entry after a line that is no entry is not found: the reader stops there. -/
theorem C60_stops : aget (parseShasums sumsSample) c!"c" = none := by decide

example : Publishes sumsSample c!"a.tar.gz" c!"d3" :=
  (C60_published _ _ _).mp (by decide)

end Gyp
