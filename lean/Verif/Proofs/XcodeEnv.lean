import Verif.Model.XcodeEnv
import Verif.Spec.XcodeEnv
import Verif.Props.Toposort
import Verif.Props.OrderedSet
/-
Lemmas about references to environment variables.
-/
namespace Gyp
open Spec

theorem envLetter_iff (c : Char) :
    envLetter c = true ↔ ('a' ≤ c ∧ c ≤ 'z') ∨ ('A' ≤ c ∧ c ≤ 'Z') := by
  simp [envLetter]

theorem envNameChar_iff (c : Char) : envNameChar c = true ↔
    ('a' ≤ c ∧ c ≤ 'z') ∨ ('A' ≤ c ∧ c ≤ 'Z') ∨ ('0' ≤ c ∧ c ≤ '9') ∨ c = '-' ∨ c = '_' := by
  simp only [envNameChar, envDigit, Bool.or_eq_true, envLetter_iff, Bool.and_eq_true,
    decide_eq_true_eq]
  tauto

theorem identChar_iff (c : Char) : identChar c = true ↔ IdentCont c := by
  unfold IdentCont
  simp only [identChar, envDigit, Bool.or_eq_true, envLetter_iff, Bool.and_eq_true,
    decide_eq_true_eq]
  tauto

theorem identStart_iff (c : Char) :
    identStart c = true ↔ ('a' ≤ c ∧ c ≤ 'z') ∨ ('A' ≤ c ∧ c ≤ 'Z') ∨ c = '_' := by
  simp only [identStart, Bool.or_eq_true, envLetter_iff, decide_eq_true_eq]
  tauto

theorem envName_chars {x : Str} (h : EnvName x) : ∀ c ∈ x, envNameChar c = true :=
  fun c hc => (envNameChar_iff c).mpr (h.2 c hc)

theorem identStart_identChar {c : Char} (h : identStart c = true) : identChar c = true := by
  rw [identStart_iff] at h
  rw [identChar_iff]
  unfold IdentCont
  tauto

theorem identChar_nameChar {c : Char} (h : identChar c = true) : envNameChar c = true := by
  rw [identChar_iff] at h
  rw [envNameChar_iff]
  unfold IdentCont at h
  tauto

theorem ident_envName {x : Str} (h : Ident x) : EnvName x := by
  obtain ⟨c, r, rfl, h1, h2⟩ := h
  refine ⟨by simp, ?_⟩
  intro d hd
  rcases List.mem_cons.mp hd with rfl | hd
  · tauto
  · have := h2 d hd
    unfold IdentCont at this
    tauto

theorem envName_no {x : Str} (h : EnvName x) {c : Char} (hc : envNameChar c = false) : c ∉ x := by
  intro hm
  rw [envName_chars h c hm] at hc
  cases hc

theorem takeWhile_name {x r : Str} {p : Char → Bool} (hx : ∀ c ∈ x, p c = true)
    (hr : ∀ c, r.head? = some c → p c = false) :
    (x ++ r).takeWhile p = x ∧ (x ++ r).dropWhile p = r := by
  induction x with
  | nil =>
    cases r with
    | nil => exact ⟨rfl, rfl⟩
    | cons c r =>
      have := hr c rfl
      simp [List.takeWhile_cons, List.dropWhile_cons, this]
  | cons a x ih =>
    have ha := hx a (by simp)
    have := ih (fun c hc => hx c (by simp [hc]))
    simp [List.takeWhile_cons, List.dropWhile_cons, ha, this]

/-! ### Enough fuel -/

theorem normBare_fuel (n : Nat) : ∀ (f g : Nat) (s : Str), s.length ≤ n → s.length ≤ f →
    s.length ≤ g → normBare f s = normBare g s := by
  induction n with
  | zero =>
    intro f g s h1 h2 h3
    have : s = [] := List.length_eq_zero_iff.mp (by omega)
    subst this
    cases f <;> cases g <;> rfl
  | succ n ih =>
    intro f g s h1 h2 h3
    cases s with
    | nil => cases f <;> cases g <;> rfl
    | cons c s =>
      simp only [List.length_cons] at h1 h2 h3
      obtain ⟨f, rfl⟩ : ∃ f', f = f' + 1 := ⟨f - 1, by omega⟩
      obtain ⟨g, rfl⟩ : ∃ g', g = g' + 1 := ⟨g - 1, by omega⟩
      have hd : (s.dropWhile identChar).length ≤ s.length :=
        (List.dropWhile_suffix _).sublist.length_le
      simp only [normBare]
      rw [ih f g s (by omega) (by omega) (by omega),
        ih f g (s.dropWhile identChar) (by omega) (by omega) (by omega)]

theorem bracketRefs_fuel (opn cls : Char) (n : Nat) : ∀ (f g : Nat) (s : Str), s.length ≤ n →
    s.length ≤ f → s.length ≤ g → bracketRefs opn cls f s = bracketRefs opn cls g s := by
  induction n with
  | zero =>
    intro f g s h1 h2 h3
    have : s = [] := List.length_eq_zero_iff.mp (by omega)
    subst this
    cases f <;> cases g <;> rfl
  | succ n ih =>
    intro f g s h1 h2 h3
    cases s with
    | nil => cases f <;> cases g <;> rfl
    | cons c s =>
      simp only [List.length_cons] at h1 h2 h3
      obtain ⟨f, rfl⟩ : ∃ f', f = f' + 1 := ⟨f - 1, by omega⟩
      obtain ⟨g, rfl⟩ : ∃ g', g = g' + 1 := ⟨g - 1, by omega⟩
      have hd : (s.tail.dropWhile envNameChar).tail.length ≤ s.length := by
        have h4 : (s.tail.dropWhile envNameChar).length ≤ s.tail.length :=
          (List.dropWhile_suffix _).sublist.length_le
        simp only [List.length_tail] at h4 ⊢
        omega
      simp only [bracketRefs]
      rw [ih f g s (by omega) (by omega) (by omega),
        ih f g (s.tail.dropWhile envNameChar).tail (by omega) (by omega) (by omega)]

/-- The whole text scanned. -/
def nb (s : Str) : Str := normBare s.length s
def brefs (opn cls : Char) (s : Str) : List Str := bracketRefs opn cls s.length s

theorem nb_cons (c : Char) (s : Str) : nb (c :: s) =
    if c = '$' ∧ atIdent s = true then
      c!"${" ++ s.takeWhile identChar ++ c!"}" ++ nb (s.dropWhile identChar)
    else c :: nb s := by
  have hd : (s.dropWhile identChar).length ≤ s.length :=
    (List.dropWhile_suffix _).sublist.length_le
  unfold nb
  simp only [List.length_cons, normBare]
  rw [normBare_fuel _ s.length (s.dropWhile identChar).length (s.dropWhile identChar)
    (Nat.le_refl _) hd (Nat.le_refl _)]

theorem brefs_cons (opn cls c : Char) (s : Str) : brefs opn cls (c :: s) =
    if c = '$' ∧ s.head? = some opn ∧ s.tail.takeWhile envNameChar ≠ [] ∧
        (s.tail.dropWhile envNameChar).head? = some cls then
      s.tail.takeWhile envNameChar :: brefs opn cls (s.tail.dropWhile envNameChar).tail
    else brefs opn cls s := by
  have hd : (s.tail.dropWhile envNameChar).tail.length ≤ s.length := by
    have h4 : (s.tail.dropWhile envNameChar).length ≤ s.tail.length :=
      (List.dropWhile_suffix _).sublist.length_le
    simp only [List.length_tail] at h4 ⊢
    omega
  unfold brefs
  simp only [List.length_cons, bracketRefs]
  rw [bracketRefs_fuel opn cls _ s.length (s.tail.dropWhile envNameChar).tail.length
    (s.tail.dropWhile envNameChar).tail (Nat.le_refl _) hd (Nat.le_refl _)]

theorem nb_skip {w : Str} (hw : '$' ∉ w) (r : Str) : nb (w ++ r) = w ++ nb r := by
  induction w with
  | nil => rfl
  | cons a w ih =>
    simp only [List.mem_cons, not_or] at hw
    rw [List.cons_append, nb_cons, if_neg (fun h => hw.1 h.1.symm), ih hw.2]
    rfl

theorem brefs_skip {opn cls : Char} {w : Str} (hw : '$' ∉ w) (r : Str) :
    brefs opn cls (w ++ r) = brefs opn cls r := by
  induction w with
  | nil => rfl
  | cons a w ih =>
    simp only [List.mem_cons, not_or] at hw
    rw [List.cons_append, brefs_cons, if_neg (fun h => hw.1 h.1.symm), ih hw.2]

/-! ### References in brackets -/

theorem infix_skip {p w : Str} (hw : '$' ∉ w) (r : Str) :
    ('$' :: p <:+: w ++ r) ↔ '$' :: p <:+: r := by
  induction w with
  | nil => exact Iff.rfl
  | cons a w ih =>
    simp only [List.mem_cons, not_or] at hw
    rw [List.cons_append, List.infix_cons_iff, ih hw.2]
    constructor
    · rintro (h | h)
      · exact absurd (List.cons_prefix_cons.mp h).1 hw.1
      · exact h
    · exact Or.inr

theorem mem_brefs {opn cls : Char} (ho : opn ≠ '$') (hc : cls ≠ '$') (hcn : envNameChar cls = false)
    (s x : Str) : x ∈ brefs opn cls s ↔ EnvName x ∧ '$' :: opn :: (x ++ [cls]) <:+: s := by
  have hd : envNameChar '$' = false := by decide
  induction h : s.length using Nat.strong_induction_on generalizing s with
  | _ n ih =>
    cases s with
    | nil =>
      simp [brefs, bracketRefs]
    | cons c s =>
      rw [brefs_cons]
      by_cases hm : c = '$' ∧ s.head? = some opn ∧ s.tail.takeWhile envNameChar ≠ [] ∧
        (s.tail.dropWhile envNameChar).head? = some cls
      · rw [if_pos hm]
        obtain ⟨rfl, h1, h2, h3⟩ := hm
        cases s with
        | nil => cases h1
        | cons a s =>
          simp only [List.head?_cons, Option.some.injEq] at h1
          subst h1
          simp only [List.tail_cons] at h2 h3 ⊢
          have hsplit := List.takeWhile_append_dropWhile (p := envNameChar) (l := s)
          have hall : ∀ d ∈ s.takeWhile envNameChar, envNameChar d = true :=
            fun d hd' => List.all_eq_true.mp List.all_takeWhile d hd'
          generalize s.takeWhile envNameChar = name at h2 hsplit hall ⊢
          generalize s.dropWhile envNameChar = rest at h3 hsplit ⊢
          cases rest with
          | nil => cases h3
          | cons e rest =>
            simp only [List.head?_cons, Option.some.injEq] at h3
            subst h3
            simp only [List.tail_cons]
            have hname : EnvName name := ⟨h2, fun d hd => (envNameChar_iff d).mp (hall d hd)⟩
            have hskip : '$' ∉ a :: (name ++ [e]) := by
              simp only [List.mem_cons, List.mem_append, List.not_mem_nil, or_false, not_or]
              exact ⟨ho.symm, fun h' => Bool.noConfusion ((hall _ h').symm.trans hd), hc.symm⟩
            have hs' : a :: s = (a :: (name ++ [e])) ++ rest := by rw [← hsplit]; simp
            have hlen : rest.length < n := by
              rw [← h, ← hsplit]; simp; omega
            have ih' : x ∈ brefs a e rest ↔ _ := ih rest.length hlen rest rfl
            rw [List.mem_cons, ih', List.infix_cons_iff, hs', infix_skip hskip]
            constructor
            · rintro (rfl | ⟨h4, h5⟩)
              · refine ⟨hname, Or.inl ?_⟩
                refine ⟨rest, ?_⟩
                simp
              · exact ⟨h4, Or.inr h5⟩
            · rintro ⟨h4, h5 | h5⟩
              · left
                obtain ⟨r, hr⟩ := h5
                simp only [List.cons_append, List.cons.injEq, true_and, List.append_assoc,
                  List.nil_append] at hr
                have t1 := takeWhile_name (p := envNameChar) (x := x) (r := e :: r)
                  (envName_chars h4) (by simp [hcn])
                have t2 := takeWhile_name (p := envNameChar) (x := name) (r := e :: rest)
                  hall (by simp [hcn])
                rw [hr] at t1
                exact t1.1.symm.trans t2.1
              · exact Or.inr ⟨h4, h5⟩
      · have ih' : x ∈ brefs opn cls s ↔ _ := ih s.length (by rw [← h]; simp) s rfl
        rw [if_neg hm, ih', List.infix_cons_iff]
        constructor
        · rintro ⟨h4, h5⟩; exact ⟨h4, Or.inr h5⟩
        · rintro ⟨h4, h5 | h5⟩
          · exfalso
            apply hm
            obtain ⟨r, hr⟩ := h5
            simp only [List.cons_append, List.cons.injEq, List.append_assoc, List.nil_append] at hr
            obtain ⟨rfl, rfl⟩ := hr
            have t1 := takeWhile_name (p := envNameChar) (x := x) (r := cls :: r)
              (envName_chars h4) (by simp [hcn])
            refine ⟨rfl, rfl, ?_, ?_⟩
            · rw [List.tail_cons, t1.1]; exact h4.1
            · rw [List.tail_cons, t1.2]; rfl
          · exact ⟨h4, h5⟩

theorem refersTo_iff (v x : Str) : RefersTo v x ↔ x ∈ brefs '{' '}' v := by
  rw [mem_brefs (by decide) (by decide) (by decide)]
  unfold RefersTo
  rw [show c!"${" ++ x ++ c!"}" = '$' :: '{' :: (x ++ ['}']) by simp]

/-! ### Replacing in a text made of pieces -/

theorem replaceStr_skip {P v w : Str} (hP : P.head? = some '$') (hw : '$' ∉ w) (r : Str) :
    replaceStr P v (w ++ r) = w ++ replaceStr P v r := by
  induction w with
  | nil => rfl
  | cons a w ih =>
    simp only [List.mem_cons, not_or] at hw
    rw [List.cons_append, replaceStr]
    rw [if_neg, ih hw.2]
    · rfl
    · rintro ⟨h, -⟩
      rw [List.isPrefixOf_iff_prefix] at h
      obtain ⟨q, hq⟩ := h
      cases P with
      | nil => cases hP
      | cons b P =>
        simp only [List.head?_cons, Option.some.injEq] at hP
        simp only [List.cons_append, List.cons.injEq] at hq
        exact hw.1 (hP.symm.trans hq.1)

theorem replaceStr_here {P v r : Str} (hP : P ≠ []) :
    replaceStr P v (P ++ r) = v ++ replaceStr P v r := by
  cases P with
  | nil => exact absurd rfl hP
  | cons a P =>
    rw [List.cons_append, replaceStr, if_pos]
    · congr 2
      rw [← List.cons_append, List.drop_left]
    · refine ⟨?_, by simp⟩
      rw [List.isPrefixOf_iff_prefix]
      exact ⟨r, by simp⟩

/-- Replacing `P`, which starts with `$`, in a text whose pieces contain `$` only at their
start. -/
theorem replace_pieces {P v : Str} (hP : P.head? = some '$') (l : List Str)
    (h1 : ∀ t ∈ l, ∀ r, P <+: t ++ r → t = P) (h2 : ∀ t ∈ l, ∃ a w, t = a :: w ∧ '$' ∉ w) :
    replaceStr P v l.flatten = l.flatMap fun t => if t = P then v else t := by
  have hne : P ≠ [] := fun e => by rw [e] at hP; cases hP
  induction l with
  | nil => simp [replaceStr]
  | cons t l ih =>
    have ih' := ih (fun t ht => h1 t (by simp [ht])) (fun t ht => h2 t (by simp [ht]))
    rw [List.flatten_cons, List.flatMap_cons]
    by_cases ht : t = P
    · rw [if_pos ht, ht, replaceStr_here hne, ih']
    · rw [if_neg ht]
      obtain ⟨a, w, rfl, hw⟩ := h2 t (by simp)
      rw [List.cons_append, replaceStr, if_neg, replaceStr_skip hP hw, ih']
      · rfl
      · rintro ⟨h, -⟩
        rw [List.isPrefixOf_iff_prefix] at h
        exact ht (h1 _ (by simp) _ h)

end Gyp
