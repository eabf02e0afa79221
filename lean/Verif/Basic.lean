import Mathlib.Tactic.Common
/-
Shared vocabulary: Python/JavaScript strings as lists of characters and the
handful of `str` methods the modelled code uses.
-/
namespace Gyp

/-- A Python `str` (or JavaScript string): a finite sequence of characters. -/
abbrev Str := List Char

open Lean in
/-- `c!"abc"` is the literal character list `['a','b','c']`. -/
macro:max "c!" s:str : term => do
  let cs := s.getString.toList.map fun c => (⟨(Syntax.mkCharLit c).raw⟩ : TSyntax `term)
  `(([$(cs.toArray),*] : List Char))

/-- Python `s.rsplit(c, 1)`: `some (before, after)` around the last occurrence
of the one-character separator, `none` when it does not occur (Python then
returns the one-element list `[s]`). -/
def rsplit1 (c : Char) : Str → Option (Str × Str)
  | [] => none
  | x :: xs =>
    match rsplit1 c xs with
    | some (a, b) => some (x :: a, b)
    | none => if x = c then some ([], xs) else none

/-- Python `s.split(c)` for a one-character separator: never empty. -/
def splitOn (c : Char) : Str → List Str
  | [] => [[]]
  | x :: xs =>
    if x = c then [] :: splitOn c xs
    else match splitOn c xs with
      | [] => [[x]]           -- unreachable, `splitOn` is never empty
      | w :: ws => (x :: w) :: ws

/-- Python `s.split(c, 1)`: around the first occurrence. -/
def split1 (c : Char) : Str → Option (Str × Str)
  | [] => none
  | x :: xs =>
    if x = c then some ([], xs)
    else (split1 c xs).map fun (a, b) => (x :: a, b)

/-- Python `sep.join(parts)`. -/
def joinWith (sep : Str) : List Str → Str
  | [] => []
  | [w] => w
  | w :: ws => w ++ sep ++ joinWith sep ws

/-- Python `s.replace(c, new)` for a one-character `c`. -/
def replaceChar (c : Char) (new : Str) (s : Str) : Str :=
  s.flatMap fun x => if x = c then new else [x]

/-- Python `s.startswith(p)`. -/
def startsWith (s p : Str) : Bool := p.isPrefixOf s

/-- Python `s.endswith(p)`. -/
def endsWith (s p : Str) : Bool := p.isSuffixOf s

/-- Python `s.replace(old, new)` for a non-empty `old`: leftmost,
non-overlapping occurrences.  (For an empty `old` Python inserts `new`
everywhere; no modelled call does that, the definition returns `s`.) -/
def replaceStr (old new : Str) (s : Str) : Str :=
  match s with
  | [] => []
  | x :: xs =>
    if old.isPrefixOf (x :: xs) ∧ old ≠ [] then
      new ++ replaceStr old new ((x :: xs).drop old.length)
    else x :: replaceStr old new xs
termination_by s.length
decreasing_by
  · rename_i h
    have : 0 < old.length := List.length_pos_iff.mpr h.2
    simp [List.length_drop]; omega
  · simp

/-! ### Facts about the string helpers -/

theorem rsplit1_none_iff {c : Char} {s : Str} : rsplit1 c s = none ↔ c ∉ s := by
  induction s with
  | nil => simp [rsplit1]
  | cons x xs ih =>
    simp only [rsplit1]
    cases h : rsplit1 c xs with
    | none =>
      have := ih.mp h
      by_cases hx : x = c
      · simp [hx]
      · simp [hx, this, Ne.symm hx]
    | some p =>
      have : ¬ (c ∉ xs) := fun hn => by simp [ih.mpr hn] at h
      simp at this
      simp [this]

theorem rsplit1_append {c : Char} {a b : Str} (hb : c ∉ b) :
    rsplit1 c (a ++ c :: b) = some (a, b) := by
  induction a with
  | nil => simp [rsplit1, rsplit1_none_iff.mpr hb]
  | cons x xs ih => simp [rsplit1, ih]

theorem rsplit1_some {c : Char} {s a b : Str} (h : rsplit1 c s = some (a, b)) :
    s = a ++ c :: b ∧ c ∉ b := by
  induction s generalizing a b with
  | nil => simp [rsplit1] at h
  | cons x xs ih =>
    simp only [rsplit1] at h
    cases hx : rsplit1 c xs with
    | none =>
      rw [hx] at h
      by_cases hc : x = c
      · simp [hc] at h
        obtain ⟨rfl, rfl⟩ := h
        exact ⟨by simp [hc], rsplit1_none_iff.mp hx⟩
      · simp [hc] at h
    | some p =>
      obtain ⟨p1, p2⟩ := p
      rw [hx] at h
      simp at h
      obtain ⟨rfl, rfl⟩ := h
      obtain ⟨h1, h2⟩ := ih hx
      exact ⟨by simp [h1], h2⟩

theorem splitOn_ne_nil {c : Char} {s : Str} : splitOn c s ≠ [] := by
  cases s with
  | nil => simp [splitOn]
  | cons x xs =>
    simp only [splitOn]
    split
    · simp
    · split <;> simp

theorem splitOn_joinWith {c : Char} {ws : List Str} (hne : ws ≠ [])
    (h : ∀ w ∈ ws, c ∉ w) : splitOn c (joinWith [c] ws) = ws := by
  have key : ∀ (w : Str) (rest : Str), c ∉ w →
      splitOn c (w ++ c :: rest) = w :: splitOn c rest := by
    intro w rest hw
    induction w with
    | nil => simp [splitOn]
    | cons x xs ih =>
      simp at hw
      have hx : x ≠ c := fun e => hw.1 e.symm
      simp [splitOn, hx, ih hw.2]
  have key1 : ∀ (w : Str), c ∉ w → splitOn c w = [w] := by
    intro w hw
    induction w with
    | nil => simp [splitOn]
    | cons x xs ih =>
      simp at hw
      have hx : x ≠ c := fun e => hw.1 e.symm
      simp [splitOn, hx, ih hw.2]
  induction ws with
  | nil => exact absurd rfl hne
  | cons w ws ih =>
    cases ws with
    | nil => simp [joinWith]; exact key1 w (h w (by simp))
    | cons v vs =>
      simp only [joinWith, List.append_assoc, List.singleton_append]
      rw [key w _ (h w (by simp))]
      rw [ih (by simp) (fun u hu => h u (by simp [hu]))]

theorem joinWith_splitOn {c : Char} {s : Str} : joinWith [c] (splitOn c s) = s := by
  induction s with
  | nil => simp [splitOn, joinWith]
  | cons x xs ih =>
    simp only [splitOn]
    split
    · rename_i h
      cases hs : splitOn c xs with
      | nil => exact absurd hs splitOn_ne_nil
      | cons w ws =>
        rw [hs] at ih
        simp [joinWith, ih, h]
    · cases hs : splitOn c xs with
      | nil => exact absurd hs splitOn_ne_nil
      | cons w ws =>
        rw [hs] at ih
        cases ws with
        | nil => simp [joinWith] at ih ⊢; exact ih
        | cons v vs => simp [joinWith] at ih ⊢; exact ih

theorem mem_splitOn {c : Char} {s w : Str} (h : w ∈ splitOn c s) : c ∉ w := by
  induction s generalizing w with
  | nil => simp [splitOn] at h; simp [h]
  | cons x xs ih =>
    simp only [splitOn] at h
    split at h
    · simp at h
      rcases h with rfl | h
      · simp
      · exact ih h
    · rename_i hx
      cases hs : splitOn c xs with
      | nil => exact absurd hs splitOn_ne_nil
      | cons v vs =>
        rw [hs] at h ih
        simp at h
        rcases h with rfl | h
        · simp
          exact ⟨fun e => hx e.symm, ih (by simp)⟩
        · exact ih (by simp [h])

theorem split1_append {c : Char} {a b : Str} (ha : c ∉ a) :
    split1 c (a ++ c :: b) = some (a, b) := by
  induction a with
  | nil => simp [split1]
  | cons x xs ih =>
    simp at ha
    simp [split1, Ne.symm ha.1, ih ha.2]

end Gyp
