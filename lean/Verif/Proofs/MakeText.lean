import Verif.Spec.MakeNames
import Verif.Props.MakeRules
import Verif.Proofs.Path
/-
Texts with references to variables of a makefile, and reading statement after statement.
-/
namespace Gyp
open Spec

theorem _root_.Gyp.Spec.RefText.mono {R R' : List Str} (h : ∀ n ∈ R, n ∈ R') {s : Str} (hs : RefText R s) :
    RefText R' s := by
  induction hs with
  | nil => exact .nil
  | char hc _ ih => exact .char hc ih
  | ref hn hp _ ih => exact .ref (h _ hn) hp ih

theorem _root_.Gyp.Spec.RefText.append {R : List Str} {a b : Str} (ha : RefText R a) (hb : RefText R b) :
    RefText R (a ++ b) := by
  induction ha with
  | nil => exact hb
  | char hc _ ih => exact .char hc ih
  | ref hn hp _ ih => rw [List.append_assoc]; exact .ref hn hp ih

theorem _root_.Gyp.Spec.RefText.plain {R : List Str} {s : Str} (h : '$' ∉ s) : RefText R s := by
  induction s with
  | nil => exact .nil
  | cons c s ih =>
    simp only [List.mem_cons, not_or] at h
    exact .char (Ne.symm h.1) (ih h.2)

theorem expandFrom_char (vars : MakeVars) {c : Char} (hc : c ≠ '$') (t : Str) :
    expandFrom vars none (c :: t) = c :: expandFrom vars none t := by
  rw [expandFrom]
  intro rest h
  exact absurd h hc

theorem expandFrom_name (vars : MakeVars) (n pre t : Str) (h : ')' ∉ n) :
    expandFrom vars (some pre) (n ++ ')' :: t) =
      refValue vars (pre ++ n) ++ expandFrom vars none t := by
  induction n generalizing pre with
  | nil => simp [expandFrom]
  | cons c n ih =>
    simp only [List.mem_cons, not_or] at h
    rw [List.cons_append, expandFrom, if_neg (Ne.symm h.1), ih _ h.2]
    simp

theorem expandFrom_ref (vars : MakeVars) (n t : Str) (h : ')' ∉ n) :
    expandFrom vars none (c!"$(" ++ n ++ c!")" ++ t) =
      refValue vars n ++ expandFrom vars none t := by
  rw [List.append_assoc, List.append_assoc, show c!"$(" = ['$', '('] from rfl]
  show expandFrom vars none ('$' :: '(' :: (n ++ (')' :: t))) = _
  rw [expandFrom, expandFrom_name vars n [] t h, List.nil_append]

theorem expand_append (vars : MakeVars) {R : List Str} {a : Str} (h : RefText R a) (b : Str) :
    expand vars (a ++ b) = expand vars a ++ expand vars b := by
  unfold expand
  induction h with
  | nil => rw [expandFrom]; rfl
  | char hc _ ih =>
    rw [List.cons_append, expandFrom_char vars hc, expandFrom_char vars hc, ih]; rfl
  | ref hn hp _ ih =>
    rw [List.append_assoc, expandFrom_ref vars _ _ hp, expandFrom_ref vars _ _ hp, ih,
      List.append_assoc]

theorem expand_ref (vars : MakeVars) (n : Str) (h : ')' ∉ n) :
    expand vars (c!"$(" ++ n ++ c!")") = refValue vars n := by
  have := expandFrom_ref vars n [] h
  rw [List.append_nil] at this
  unfold expand
  rw [this, expandFrom, List.append_nil]

theorem expand_plain (vars : MakeVars) {s : Str} (h : '$' ∉ s) : expand vars s = s := by
  unfold expand
  induction s with
  | nil => rfl
  | cons c s ih =>
    simp only [List.mem_cons, not_or] at h
    rw [expandFrom_char vars (Ne.symm h.1), ih h.2]

/-- References to variables that are not set stay. -/
theorem expand_stable (vars : MakeVars) {R : List Str} (hR : ∀ n ∈ R, aget vars n = none) {s : Str}
    (h : RefText R s) : expand vars s = s := by
  unfold expand
  induction h with
  | nil => rfl
  | char hc _ ih => rw [expandFrom_char vars hc, ih]
  | ref hn hp _ ih =>
    rw [expandFrom_ref vars _ _ hp, ih]
    simp [refValue, hR _ hn]

/-- What references become depends on the values of the variables only. -/
theorem expand_congr {v v' : MakeVars} {R : List Str} (hR : ∀ n ∈ R, aget v n = aget v' n) {s : Str}
    (h : RefText R s) : expand v s = expand v' s := by
  unfold expand
  induction h with
  | nil => rfl
  | char hc _ ih => rw [expandFrom_char v hc, expandFrom_char v' hc, ih]
  | ref hn hp _ ih =>
    rw [expandFrom_ref v _ _ hp, expandFrom_ref v' _ _ hp, ih]
    simp [refValue, hR _ hn]

theorem expand_join (vars : MakeVars) {R : List Str} (l : List Str) (h : ∀ s ∈ l, RefText R s) :
    expand vars (joinWith [' '] l) = joinWith [' '] (l.map (expand vars)) := by
  induction l with
  | nil => rfl
  | cons s l ih =>
    cases l with
    | nil => rfl
    | cons s' l =>
      show expand vars (s ++ [' '] ++ joinWith [' '] (s' :: l)) = _
      rw [List.append_assoc, expand_append vars (h s (by simp)),
        expand_append vars (R := R) (.char (by decide) .nil), ih fun x hx => h x (by simp [hx])]
      simp only [List.map_cons, joinWith, List.append_assoc]
      rfl

theorem _root_.Gyp.Spec.MkClean.append {a b : Str} (ha : MkClean a) (hb : MkClean b) : MkClean (a ++ b) := by
  intro c hc
  rcases List.mem_append.mp hc with h | h
  · exact ha c h
  · exact hb c h

theorem _root_.Gyp.Spec.MkClean.blank {s : Str} (h : MkClean s) : ' ' ∉ s := fun hc => h _ hc (by decide)

theorem _root_.Gyp.Spec.MkClean.ruleName {s : Str} (h : MkClean s) (hne : s ≠ []) : RuleName s := by
  refine ⟨hne, fun c hc hm => h c hc ?_⟩
  simp only [specialChars, List.mem_cons, List.not_mem_nil, or_false] at hm ⊢
  tauto

theorem replaceChar_absent {c : Char} {r s : Str} (h : c ∉ s) : replaceChar c r s = s := by
  unfold replaceChar
  induction s with
  | nil => rfl
  | cons x s ih =>
    simp only [List.mem_cons, not_or] at h
    rw [List.flatMap_cons, ih h.2, if_neg (Ne.symm h.1)]
    rfl

theorem _root_.Gyp.Spec.MkClean.quote {s : Str} (h : MkClean s) (q : Str) : QuoteSpaces s q = s := by
  unfold QuoteSpaces
  exact replaceChar_absent h.blank

theorem names_clean {s : Str} (h : MkClean s) (hne : s ≠ []) : Spec.names s = [s] := by
  have := names_join [s] (by simpa using h.ruleName hne) [] (Or.inl rfl)
  simpa [joinWith, h.quote, namesFrom, Spec.names] using this

theorem names_cleanList {l : List Str} (h : ∀ s ∈ l, MkClean s ∧ s ≠ []) :
    Spec.names (joinWith [' '] l) = l := by
  have := names_join l (fun s hs => (h s hs).1.ruleName (h s hs).2) [] (Or.inl rfl)
  rw [List.map_congr_left (g := id) (fun s hs => (h s hs).1.quote _), List.map_id] at this
  simpa [Spec.names, namesFrom] using this

/-- A name in a rule that stays one name. -/
theorem wordsOf_one {vars : MakeVars} {n x : Str} (hn : MkClean n) (hx : expand vars n = x)
    (hc : MkClean x) (hne : x ≠ []) : wordsOf vars n = [x] := by
  unfold wordsOf
  rw [replaceChar_absent hn.blank, hx, names_clean hc hne]

/-! ### Reading statement after statement -/

theorem varsAfter_append (vars : MakeVars) (a b : List MkLine) :
    varsAfter vars (a ++ b) = varsAfter (varsAfter vars a) b := List.foldl_append

theorem rulesFrom_append (vars : MakeVars) (a b : List MkLine) :
    rulesFrom vars (a ++ b) = rulesFrom vars a ++ rulesFrom (varsAfter vars a) b := by
  induction a generalizing vars with
  | nil => rfl
  | cons l a ih =>
    rw [List.cons_append, rulesFrom, rulesFrom, ih, List.append_assoc]; rfl

theorem patternsFrom_append (vars : MakeVars) (a b : List MkLine) :
    patternsFrom vars (a ++ b) = patternsFrom vars a ++ patternsFrom (varsAfter vars a) b := by
  induction a generalizing vars with
  | nil => rfl
  | cons l a ih =>
    cases l <;> simp only [List.cons_append, patternsFrom, ih] <;> rfl

theorem localsFrom_append (vars : MakeVars) (a b : List MkLine) :
    localsFrom vars (a ++ b) = localsFrom vars a ++ localsFrom (varsAfter vars a) b := by
  induction a generalizing vars with
  | nil => rfl
  | cons l a ih =>
    cases l <;> simp only [List.cons_append, localsFrom, ih, List.append_assoc] <;> rfl

/-- The variable that a statement sets. -/
def setsVar : MkLine → Option Str
  | .set n _ => some n
  | .setLater n _ => some n
  | .list n _ => some n
  | _ => none

theorem aget_addVar {vars : MakeVars} {l : MkLine} {n : Str} (h : setsVar l ≠ some n) :
    aget (addVar vars l) n = aget vars n := by
  cases l <;> simp_all [addVar, setsVar, aget]

theorem aget_varsAfter {vars : MakeVars} {ls : List MkLine} {n : Str}
    (h : ∀ l ∈ ls, setsVar l ≠ some n) : aget (varsAfter vars ls) n = aget vars n := by
  induction ls generalizing vars with
  | nil => rfl
  | cons l ls ih =>
    show aget (varsAfter (addVar vars l) ls) n = _
    rw [ih fun x hx => h x (by simp [hx]), aget_addVar (h l (by simp))]

theorem groups_some {gs : List (Option (List MkLine))} {l : List MkLine} (h : groups gs = some l) :
    ∃ parts : List (List MkLine), gs = parts.map some ∧ l = parts.flatten := by
  induction gs generalizing l with
  | nil => injection h with h; subst h; exact ⟨[], rfl, rfl⟩
  | cons g gs ih =>
    cases g with
    | none => cases h
    | some a =>
      unfold groups at h
      cases e : groups gs with
      | none => rw [e] at h; cases h
      | some b =>
        rw [e] at h
        injection h with h
        subst h
        obtain ⟨parts, rfl, rfl⟩ := ih e
        exact ⟨a :: parts, rfl, rfl⟩

theorem groups_cons {g : Option (List MkLine)} {gs : List (Option (List MkLine))}
    {l : List MkLine} (h : groups (g :: gs) = some l) :
    ∃ a b, g = some a ∧ groups gs = some b ∧ l = a ++ b := by
  cases g with
  | none => cases h
  | some a =>
    rw [groups] at h
    cases e : groups gs with
    | none => rw [e] at h; cases h
    | some b =>
      rw [e] at h
      injection h with h
      exact ⟨a, b, rfl, rfl, h.symm⟩

theorem groups_nil {l : List MkLine} (h : groups [] = some l) : l = [] := by
  injection h with h; exact h.symm

theorem eachDo_some {α : Type} {f : α → Option (List MkLine)} {xs : List α} {l : List MkLine}
    (h : eachDo f xs = some l) :
    ∃ parts : List (List MkLine), xs.map f = parts.map some ∧ l = parts.flatten := by
  induction xs generalizing l with
  | nil => injection h with h; subst h; exact ⟨[], rfl, rfl⟩
  | cons x xs ih =>
    unfold eachDo at h
    cases e1 : f x with
    | none => rw [e1] at h; cases h
    | some a =>
      cases e2 : eachDo f xs with
      | none => rw [e1, e2] at h; cases h
      | some b =>
        rw [e1, e2] at h
        injection h with h
        subst h
        obtain ⟨parts, h1, rfl⟩ := ih e2
        exact ⟨a :: parts, by simp [e1, h1], rfl⟩

theorem makeRule_some {a : RuleArgs} {ls : List MkLine} (h : makeRule a = some ls) :
    ls = [.rule a] := by
  unfold makeRule at h
  cases e : WriteMakeRule a with
  | none => rw [e] at h; cases h
  | some x => rw [e] at h; injection h with h; exact h.symm

end Gyp
