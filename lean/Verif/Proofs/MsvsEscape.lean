import Verif.Model.MsvsEscape
import Verif.Spec.Msbuild
import Verif.Props.Quoting
/-
Proofs about the escaping of preprocessor definitions (C78).
-/
namespace Gyp
open Spec

/-! ### MSBuild -/

/-- Characters that mean something to MSBuild. -/
def msSpecial (c : Char) : Prop := c = ';' ∨ c = '%' ∨ c = '$' ∨ c = '@' ∨ c = '*' ∨ c = '?'

theorem msTokens_plain (c : Char) (rest : Str) (h : ¬ msSpecial c) :
    msbuildTokens (c :: rest) = some (.chr c) :: msbuildTokens rest := by
  simp only [msSpecial, not_or] at h
  obtain ⟨h1, h2, h3, h4, h5, h6⟩ := h
  rw [msbuildTokens.eq_def]
  simp only [h1, h2, h3, h4, h5, h6, if_false, false_or, false_and]
  split
  · rfl
  · rfl

theorem msTokens_sep (rest : Str) : msbuildTokens (';' :: rest) = none :: msbuildTokens rest := by
  rw [msbuildTokens.eq_def]; simp

theorem msTokens_hex (a b : Char) (rest : Str) (c : Char) (h : hexPair [a, b] = some c) :
    msbuildTokens ('%' :: a :: b :: rest) = some (.chr c) :: msbuildTokens rest := by
  have h' : hexPair (a :: b :: rest) = some c := h
  rw [msbuildTokens.eq_def]
  simp [h']

/-- A character as it is written in a definition for MSBuild. -/
def msChar (c : Char) : Str := if c = '#' then c!"\\043" else msbuildEscapeChar c

/-- A character as it is on the command line of the compiler. -/
def clChar (c : Char) : Str := if c = '#' then c!"\\043" else [c]

theorem msTokens_msChar (c : Char) (rest : Str) :
    msbuildTokens (msChar c ++ rest) = (clChar c).map (some ∘ MsTok.chr) ++ msbuildTokens rest := by
  unfold msChar clChar
  by_cases h0 : c = '#'
  · subst h0
    rw [if_pos rfl, if_pos rfl]
    simp only [List.cons_append, List.nil_append, List.map_cons, List.map_nil, Function.comp_apply]
    rw [msTokens_plain _ _ (by unfold msSpecial; decide), msTokens_plain _ _ (by unfold msSpecial; decide),
      msTokens_plain _ _ (by unfold msSpecial; decide), msTokens_plain _ _ (by unfold msSpecial; decide)]
  rw [if_neg h0, if_neg h0]
  unfold msbuildEscapeChar
  by_cases h1 : c = '%'
  · subst h1; exact msTokens_hex _ _ _ _ (by decide +kernel)
  rw [if_neg h1]
  by_cases h2 : c = '$'
  · subst h2; exact msTokens_hex _ _ _ _ (by decide +kernel)
  rw [if_neg h2]
  by_cases h3 : c = '@'
  · subst h3; exact msTokens_hex _ _ _ _ (by decide +kernel)
  rw [if_neg h3]
  by_cases h4 : c = '\''
  · subst h4; exact msTokens_hex _ _ _ _ (by decide +kernel)
  rw [if_neg h4]
  by_cases h5 : c = ';'
  · subst h5; exact msTokens_hex _ _ _ _ (by decide +kernel)
  rw [if_neg h5]
  by_cases h6 : c = '?'
  · subst h6; exact msTokens_hex _ _ _ _ (by decide +kernel)
  rw [if_neg h6]
  by_cases h7 : c = '*'
  · subst h7; exact msTokens_hex _ _ _ _ (by decide +kernel)
  rw [if_neg h7]
  exact msTokens_plain c rest (by simp [msSpecial, h1, h2, h3, h5, h6, h7])

theorem msTokens_flatMap (s rest : Str) :
    msbuildTokens (s.flatMap msChar ++ rest) =
      (s.flatMap clChar).map (some ∘ MsTok.chr) ++ msbuildTokens rest := by
  induction s with
  | nil => rfl
  | cons c cs ih =>
    rw [List.flatMap_cons, List.append_assoc, msTokens_msChar, ih]
    simp

/-- The two replacements are one. -/
theorem replace_after_escape (s : Str) :
    replaceChar '#' c!"\\043" (EscapeMSBuildSpecialCharacters s) = s.flatMap msChar := by
  unfold EscapeMSBuildSpecialCharacters replaceChar
  induction s with
  | nil => rfl
  | cons c cs ih =>
    rw [List.flatMap_cons, List.flatMap_append, ih, List.flatMap_cons]
    congr 1
    unfold msChar msbuildEscapeChar
    by_cases h0 : c = '#'
    · subst h0; decide
    · rw [if_neg h0]
      repeat' split
      all_goals first | decide | simp [h0] | simp_all

theorem clChar_flatMap (s : Str) : s.flatMap clChar = replaceChar '#' c!"\\043" s := rfl

/-! Which definitions are refused -/

theorem escapeMsbuild_none (b : Bool) (s : Str) :
    EscapeCommandLineArgumentForMSBuild b s = none ↔
      (b = true ∧ s.head? = some '"') ∨ c!"\\\"" <:+: s := by
  induction s generalizing b with
  | nil => simp [EscapeCommandLineArgumentForMSBuild]
  | cons c cs ih =>
    rw [EscapeCommandLineArgumentForMSBuild]
    by_cases h : c = '"' ∧ b = true
    · rw [if_pos h]; simp [h.1, h.2]
    · rw [if_neg h, Option.map_eq_none_iff, ih]
      rw [List.infix_cons_iff]
      have hp : c!"\\\"" <+: c :: cs ↔ (c = '\\' ∧ cs.head? = some '"') := by
        rw [List.cons_prefix_cons]
        constructor
        · rintro ⟨e, t, ht⟩
          exact ⟨e.symm, by rw [← ht]; rfl⟩
        · rintro ⟨e, h2⟩
          refine ⟨e.symm, ?_⟩
          cases cs with
          | nil => cases h2
          | cons x xs => cases h2; exact ⟨xs, rfl⟩
      rw [hp]
      simp only [List.head?_cons, Option.some.injEq, decide_eq_true_eq]
      constructor
      · rintro (h1 | h2)
        · exact .inr (.inl h1)
        · exact .inr (.inr h2)
      · rintro (⟨h1, h2⟩ | h1 | h1)
        · exact absurd ⟨h2, h1⟩ h
        · exact .inl h1
        · exact .inr h1

theorem escapeMsbuild_some {b : Bool} {s t : Str}
    (h : EscapeCommandLineArgumentForMSBuild b s = some t) : t = s := by
  induction s generalizing b t with
  | nil => simp [EscapeCommandLineArgumentForMSBuild] at h; exact h
  | cons c cs ih =>
    rw [EscapeCommandLineArgumentForMSBuild] at h
    split at h
    · cases h
    · cases e : EscapeCommandLineArgumentForMSBuild (c = '\\') cs with
      | none => simp [e] at h
      | some u => simp [e] at h; rw [← h, ih e]

theorem doubled_infix (s : Str) :
    c!"\\\"" <:+: replaceChar '%' c!"%%" s ↔ c!"\\\"" <:+: s := by
  unfold replaceChar
  induction s with
  | nil => simp
  | cons c cs ih =>
    have hhead : (cs.flatMap fun x => if x = '%' then c!"%%" else [x]).head? = some '"' ↔
        cs.head? = some '"' := by
      cases cs with
      | nil => simp
      | cons x xs =>
        rw [List.flatMap_cons]
        split
        · subst_vars; simp
        · simp
    have hp : ∀ (t : Str), c!"\\\"" <+: '\\' :: t ↔ t.head? = some '"' := by
      intro t
      rw [List.cons_prefix_cons]
      constructor
      · rintro ⟨_, u, hu⟩; rw [← hu]; rfl
      · intro h2
        refine ⟨rfl, ?_⟩
        cases t with
        | nil => cases h2
        | cons x xs => cases h2; exact ⟨xs, rfl⟩
    have hn : ∀ (a : Char) (t : Str), a ≠ '\\' → (c!"\\\"" <:+: a :: t ↔ c!"\\\"" <:+: t) := by
      intro a t ha
      rw [List.infix_cons_iff, List.cons_prefix_cons]
      simp [Ne.symm ha]
    rw [List.flatMap_cons]
    by_cases h : c = '%'
    · subst h
      rw [if_pos rfl]
      simp only [List.cons_append, List.nil_append]
      rw [hn _ _ (by decide), hn _ _ (by decide), hn _ _ (by decide), ih]
    · rw [if_neg h]
      simp only [List.cons_append, List.nil_append]
      by_cases hb : c = '\\'
      · subst hb
        rw [List.infix_cons_iff, List.infix_cons_iff, hp, hp, ih, hhead]
      · rw [hn _ _ hb, hn _ _ hb, ih]

/-! The words of a list -/

theorem tokenWords_word (w : List MsTok) (ts : List (Option MsTok)) :
    tokenWords (w.map some ++ none :: ts) = w :: tokenWords ts := by
  induction w with
  | nil => rfl
  | cons t w ih => simp [tokenWords, ih]

theorem tokenWords_last (w : List MsTok) : tokenWords (w.map some) = [w] := by
  induction w with
  | nil => rfl
  | cons t w ih => simp [tokenWords, ih]

theorem escapedDefine_noDollar (s : Str) : '$' ∉ s.flatMap msChar := by
  rw [List.mem_flatMap]
  rintro ⟨c, _, hc⟩
  unfold msChar msbuildEscapeChar at hc
  repeat' split at hc
  all_goals first | (revert hc; decide) | skip
  rename_i h _ _ _ _ _
  simp at hc
  exact h hc.symm

theorem macros_noDollar (s : Str) (h : '$' ∉ s) : ConvertVCMacrosToMSBuild s = s := by
  unfold ConvertVCMacrosToMSBuild; rw [if_neg h]

theorem joined_words (ds : List Str) (last : Str) :
    tokenWords (msbuildTokens (joinWith c!";" (ds.map (·.flatMap msChar) ++ [last]))) =
      ds.map (fun d => literalWord (d.flatMap clChar)) ++ tokenWords (msbuildTokens last) := by
  induction ds with
  | nil => rfl
  | cons d ds ih =>
    have hj : joinWith c!";" ((d :: ds).map (·.flatMap msChar) ++ [last]) =
        d.flatMap msChar ++ (';' :: joinWith c!";" (ds.map (·.flatMap msChar) ++ [last])) := by
      cases ds <;> simp [joinWith]
    rw [hj, msTokens_flatMap, msTokens_sep]
    have : (List.map (some ∘ MsTok.chr) (d.flatMap clChar)) =
        (literalWord (d.flatMap clChar)).map some := by simp [literalWord]
    rw [this, tokenWords_word, ih]
    rfl

/-! What the compiler sees -/

theorem percent_hash (d : Str) :
    (replaceChar '%' c!"%%" d).flatMap clChar = replaceChar '%' c!"%%" (d.flatMap clChar) := by
  unfold replaceChar
  induction d with
  | nil => rfl
  | cons c cs ih =>
    rw [List.flatMap_cons, List.flatMap_append, ih, List.flatMap_cons, List.flatMap_append]
    congr 1
    by_cases h : c = '%'
    · subst h; decide
    · rw [if_neg h]
      by_cases h2 : c = '#'
      · subst h2; decide
      · simp [clChar, h, h2]

theorem hashOctal_other (c : Char) (t : Str)
    (h : ¬ c!"\\043" <+: c :: t) : hashOctal (c :: t) = c :: hashOctal t := by
  rw [hashOctal]
  rintro cs rfl rfl
  exact h ⟨cs, rfl⟩

theorem hash_prefix (t : Str) (p : Str) (hp : ∀ x ∈ p, x ≠ '\\' ∧ x ≠ '#') :
    p <+: t.flatMap clChar ↔ p <+: t := by
  induction p generalizing t with
  | nil => simp
  | cons x xs ih =>
    cases t with
    | nil => simp
    | cons c cs =>
      rw [List.flatMap_cons]
      by_cases h : c = '#'
      · subst h
        have := hp x (by simp)
        simp only [clChar, if_true, List.cons_append, List.cons_prefix_cons]
        simp [this.1, this.2]
      · simp only [clChar, if_neg h, List.cons_append, List.nil_append, List.cons_prefix_cons]
        rw [ih cs (fun y hy => hp y (by simp [hy]))]

theorem hashOctal_replaced (d : Str) (h : ¬ c!"\\043" <:+: d) :
    hashOctal (d.flatMap clChar) = d := by
  induction d with
  | nil => rfl
  | cons c cs ih =>
    rw [List.infix_cons_iff, not_or] at h
    rw [List.flatMap_cons]
    by_cases hc : c = '#'
    · subst hc
      simp only [clChar, if_true, List.cons_append, List.nil_append]
      rw [hashOctal, show hashOctal (List.flatMap clChar cs) = cs from ih h.2]
    · simp only [clChar, if_neg hc, List.cons_append, List.nil_append]
      rw [hashOctal_other, show hashOctal (List.flatMap clChar cs) = cs from ih h.2]
      intro hp
      apply h.1
      rw [List.cons_prefix_cons] at hp ⊢
      exact ⟨hp.1, (hash_prefix cs _ (by decide)).mp hp.2⟩

end Gyp
