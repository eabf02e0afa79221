import Verif.Spec.MakeRun
import Verif.Proofs.MakeState
import Verif.Props.Make
/-
Expansion of variables, reading of assignments and splitting of command lines.
-/
namespace Gyp
open Spec

/-! ### Expansion -/

theorem refRun_append (env : Str → Str) (st : RefSt) (a b : Str) :
    refRun env st (a ++ b) = (refRun env st a).bind fun st' => refRun env st' b := by
  induction a generalizing st with
  | nil => rfl
  | cons c a ih =>
    simp only [List.cons_append, refRun]
    cases refStep env st c with
    | none => rfl
    | some s => simp [ih]

/-- A text before the result. -/
def bottom (p : Str) : List Str → List Str
  | [] => []
  | [x] => [p ++ x]
  | x :: y :: r => x :: bottom p (y :: r)

theorem bottom_push (p x : Str) {st : List Str} (h : st ≠ []) : bottom p (x :: st) = x :: bottom p st := by
  cases st with
  | nil => exact absurd rfl h
  | cons y r => rfl

def under (p : Str) (st : RefSt) : RefSt := ⟨st.dollar, bottom p st.stack⟩

theorem refStep_under (env : Str → Str) (p : Str) (st : RefSt) (c : Char) :
    refStep env (under p st) c = (refStep env st c).map (under p) := by
  obtain ⟨d, stack⟩ := st
  match stack with
  | [] => rfl
  | [x] =>
    cases d <;> by_cases h1 : c = '$' <;> by_cases h2 : c = '(' <;>
      simp [refStep, under, bottom, h1, h2]
  | [x, o] =>
    cases d <;> by_cases h1 : c = '$' <;> by_cases h2 : c = '(' <;> by_cases h3 : c = ')' <;>
      simp [refStep, under, bottom, h1, h2, h3]
  | x :: o :: o' :: os =>
    cases d <;> by_cases h1 : c = '$' <;> by_cases h2 : c = '(' <;> by_cases h3 : c = ')' <;>
      simp [refStep, under, bottom, h1, h2, h3]

theorem refRun_under (env : Str → Str) (p : Str) (st : RefSt) (s : Str) :
    refRun env (under p st) s = (refRun env st s).map (under p) := by
  induction s generalizing st with
  | nil => rfl
  | cons c s ih =>
    simp only [refRun, refStep_under]
    cases refStep env st c with
    | none => rfl
    | some s => simp [ih]

theorem deep_iff {env : Str → Str} {s x : Str} :
    deep env s = some x ↔ refRun env ⟨false, [[]]⟩ s = some ⟨false, [x]⟩ := by
  unfold deep
  cases h : refRun env ⟨false, [[]]⟩ s with
  | none => simp
  | some st =>
    obtain ⟨d, stack⟩ := st
    match d, stack with
    | true, _ => simp
    | false, [] => simp
    | false, [y] => simp
    | false, _ :: _ :: _ => simp

theorem deep_run {env : Str → Str} {s x : Str} (h : deep env s = some x) (p : Str) :
    refRun env ⟨false, [p]⟩ s = some ⟨false, [p ++ x]⟩ := by
  have := refRun_under env p ⟨false, [[]]⟩ s
  rw [deep_iff.mp h] at this
  simpa [under, bottom] using this

theorem deep_append {env : Str → Str} {a b x y : Str} (ha : deep env a = some x)
    (hb : deep env b = some y) : deep env (a ++ b) = some (x ++ y) := by
  rw [deep_iff, refRun_append, deep_iff.mp ha]
  exact deep_run hb x

theorem deep_nil (env : Str → Str) : deep env [] = some [] := rfl

theorem deep_plain (env : Str → Str) {s : Str} (h : '$' ∉ s) : deep env s = some s := by
  induction s with
  | nil => rfl
  | cons c s ih =>
    simp only [List.mem_cons, not_or] at h
    have hc : deep env [c] = some [c] := by
      have hc : c ≠ '$' := Ne.symm h.1
      rw [deep_iff]
      simp [refRun, refStep, hc]
    exact deep_append hc (ih h.2)

theorem deep_cons {env : Str → Str} {c : Char} {s x : Str} (hc : c ≠ '$') (h : deep env s = some x) :
    deep env (c :: s) = some (c :: x) :=
  deep_append (deep_plain env (s := [c]) (by simpa using fun e => hc e.symm)) h

theorem deep_dollars (env : Str → Str) : deep env c!"$$" = some c!"$" := by
  rw [deep_iff]; rfl

theorem deep_auto (env : Str → Str) {c : Char} (h : c ≠ '$' ∧ c ≠ '(') :
    deep env ['$', c] = some (env [c]) := by
  rw [deep_iff]
  simp [refRun, refStep, h.1, h.2]

/-- Characters of the name of a variable. -/
def NameText (n : Str) : Prop := '$' ∉ n ∧ '(' ∉ n ∧ ')' ∉ n

theorem refRun_name (env : Str → Str) {n : Str} (h : NameText n) (cur o : Str) (os : List Str) :
    refRun env ⟨false, cur :: o :: os⟩ n = some ⟨false, (cur ++ n) :: o :: os⟩ := by
  induction n generalizing cur with
  | nil => simp [refRun]
  | cons c n ih =>
    obtain ⟨h1, h2, h3⟩ := h
    simp only [List.mem_cons, not_or] at h1 h2 h3
    have : refStep env ⟨false, cur :: o :: os⟩ c = some ⟨false, (cur ++ [c]) :: o :: os⟩ := by
      have e1 : c ≠ '$' := Ne.symm h1.1
      have e2 : c ≠ '(' := Ne.symm h2.1
      have e3 : c ≠ ')' := Ne.symm h3.1
      simp [refStep, e1, e2, e3]
    simp only [refRun, this, Option.bind_some]
    rw [ih ⟨h1.2, h2.2, h3.2⟩]
    simp

theorem deep_ref (env : Str → Str) {n : Str} (h : NameText n) :
    deep env (c!"$(" ++ n ++ c!")") = some (env n) := by
  rw [deep_iff, List.append_assoc, refRun_append]
  have : refRun env ⟨false, [[]]⟩ c!"$(" = some ⟨false, [[], []]⟩ := rfl
  rw [this, Option.bind_some, refRun_append, refRun_name env h]
  rfl

/-- A reference to a variable whose name ends with the value of another one. -/
theorem deep_computed (env : Str → Str) {pre n : Str} (hp : NameText pre) (hn : NameText n) :
    deep env (c!"$(" ++ pre ++ c!"$(" ++ n ++ c!"))") = some (env (pre ++ env n)) := by
  rw [deep_iff]
  simp only [List.append_assoc]
  rw [refRun_append]
  have : refRun env ⟨false, [[]]⟩ c!"$(" = some ⟨false, [[], []]⟩ := rfl
  rw [this, Option.bind_some, refRun_append, refRun_name env hp, Option.bind_some, refRun_append]
  have : refRun env ⟨false, [[] ++ pre, []]⟩ c!"$(" = some ⟨false, [[], [] ++ pre, []]⟩ := rfl
  rw [this, Option.bind_some, refRun_append, refRun_name env hn]
  rfl

/-- A function with the value of an automatic variable as argument. -/
theorem deep_function (env : Str → Str) {pre : Str} {c : Char} (hp : NameText pre)
    (hc : c ≠ '$' ∧ c ≠ '(') :
    deep env (c!"$(" ++ pre ++ ['$', c] ++ c!")") = some (env (pre ++ env [c])) := by
  rw [deep_iff]
  simp only [List.append_assoc]
  rw [refRun_append]
  have : refRun env ⟨false, [[]]⟩ c!"$(" = some ⟨false, [[], []]⟩ := rfl
  rw [this, Option.bind_some, refRun_append, refRun_name env hp, Option.bind_some, refRun_append]
  have : refRun env ⟨false, [[] ++ pre, []]⟩ ['$', c] = some ⟨false, [pre ++ env [c], []]⟩ := by
    simp [refRun, refStep, hc.1, hc.2]
  rw [this, Option.bind_some]
  rfl

theorem deep_refText {v : MakeVars} {R : List Str} (hR : ∀ n ∈ R, NameText n ∧ ∃ x, aget v n = some x)
    {s : Str} (h : RefText R s) : deep (valueOf v) s = some (expand v s) := by
  induction h with
  | nil => rfl
  | @char c s hc hs ih =>
    rw [deep_cons hc ih]
    unfold expand
    rw [expandFrom_char _ hc]
  | @ref n s hn hp hs ih =>
    obtain ⟨h1, x, hx⟩ := hR n hn
    rw [deep_append (deep_ref _ h1) ih]
    unfold expand
    rw [expandFrom_ref _ _ _ hp]
    simp [valueOf, refValue, hx]

theorem real_refText {v : MakeVars} {R : List Str} (hR : ∀ n ∈ R, NameText n ∧ ∃ x, aget v n = some x)
    {s : Str} (h : RefText R s) : real v s = expand v s := by
  rw [real, deep_refText hR h, Option.getD_some]

theorem deep_join {env : Str → Str} {l : List Str} {f : Str → Str}
    (h : ∀ s ∈ l, deep env s = some (f s)) :
    deep env (joinWith [' '] l) = some (joinWith [' '] (l.map f)) := by
  induction l with
  | nil => rfl
  | cons a l ih =>
    cases l with
    | nil => simpa [joinWith] using h a (by simp)
    | cons b l =>
      have := deep_append (h a (by simp))
        (deep_cons (c := ' ') (by decide) (ih fun s hs => h s (by simp [hs])))
      simpa [joinWith] using this

/-- What `makeExpand` reads is read alike. -/
theorem deep_of_makeExpand (env : Str → Str) : ∀ {s x : Str}, makeExpand s = some x → deep env s = some x
  | [], x, h => by simpa [makeExpand, deep_nil] using h
  | '$' :: '$' :: t, x, h => by
    rw [makeExpand] at h
    cases e : makeExpand t with
    | none => rw [e] at h; cases h
    | some y =>
      rw [e] at h
      injection h with h
      subst h
      exact deep_append (deep_dollars env) (deep_of_makeExpand env e)
  | c :: t, x, h => by
    by_cases hc : c = '$'
    · subst hc
      cases t with
      | nil => cases h
      | cons d t =>
        by_cases hd : d = '$'
        · subst hd
          rw [makeExpand] at h
          cases e : makeExpand t with
          | none => rw [e] at h; cases h
          | some y =>
            rw [e] at h
            injection h with h
            subst h
            exact deep_append (deep_dollars env) (deep_of_makeExpand env e)
        · rw [makeExpand] at h
          · cases h
          · intro t' e; injection e with e1 e2; exact hd e1
    · rw [expand_noDollar _ _ hc] at h
      cases e : makeExpand t with
      | none => rw [e] at h; cases h
      | some y =>
        rw [e] at h
        injection h with h
        subst h
        exact deep_cons hc (deep_of_makeExpand env e)

/-! ### Variables -/

theorem valuesAfter_append (v : MakeVars) (a b : List MkLine) :
    valuesAfter v (a ++ b) = valuesAfter (valuesAfter v a) b := List.foldl_append

theorem localValues_append (v : MakeVars) (a b : List MkLine) :
    localValues v (a ++ b) = localValues v a ++ localValues (valuesAfter v a) b := by
  induction a generalizing v with
  | nil => rfl
  | cons l a ih =>
    cases l <;> simp [localValues, ih, valuesAfter, putVar]

theorem aget_putVar {v : MakeVars} {l : MkLine} {n : Str} (h : setsVar l ≠ some n) :
    aget (putVar v l) n = aget v n := by
  cases l <;> simp_all [putVar, setsVar, aget]

theorem aget_valuesAfter {v : MakeVars} {ls : List MkLine} {n : Str} (h : ¬ Sets ls n) :
    aget (valuesAfter v ls) n = aget v n := by
  induction ls generalizing v with
  | nil => rfl
  | cons l ls ih =>
    show aget (valuesAfter (putVar v l) ls) n = _
    rw [ih fun ⟨x, hx, e⟩ => h ⟨x, List.mem_cons_of_mem _ hx, e⟩,
      aget_putVar fun e => h ⟨l, List.mem_cons_self, e⟩]

/-! ### Words -/

theorem lexStep_done (k : Bool) (m : Mode) (cur : Option Str) (d done : List Str) (c : Char) :
    lexStep k ⟨m, cur, d ++ done⟩ c =
      (lexStep k ⟨m, cur, done⟩ c).map fun s => { s with done := d ++ s.done } := by
  cases m <;> simp only [lexStep, Lex.push] <;> (repeat' split) <;> simp

theorem lexRun_done (k : Bool) (s : Lex) (d : List Str) (t : Str) :
    lexRun k { s with done := d ++ s.done } t =
      (lexRun k s t).map fun s => { s with done := d ++ s.done } := by
  induction t generalizing s with
  | nil => rfl
  | cons c t ih =>
    obtain ⟨m, cur, done⟩ := s
    simp only [lexRun, lexStep_done]
    cases lexStep k ⟨m, cur, done⟩ c with
    | none => rfl
    | some s => simp [ih]

theorem shellWords_iff {t : Str} {ws : List Str} : shellWords t = some ws ↔
    ∃ cur done, lexRun false ⟨.plain, none, []⟩ t = some ⟨.plain, cur, done⟩ ∧ done ++ cur.toList = ws := by
  unfold shellWords lexWords
  cases h : lexRun false ⟨.plain, none, []⟩ t with
  | none => simp
  | some s =>
    obtain ⟨m, cur, done⟩ := s
    by_cases hm : m = .plain
    · subst hm
      simp
    · simp [hm]

theorem words_append {a b : Str} {x y : List Str} (ha : shellWords a = some x)
    (hb : shellWords b = some y) : shellWords (a ++ ' ' :: b) = some (x ++ y) := by
  obtain ⟨c1, d1, h1, rfl⟩ := shellWords_iff.mp ha
  obtain ⟨c2, d2, h2, rfl⟩ := shellWords_iff.mp hb
  refine shellWords_iff.mpr ⟨c2, d1 ++ c1.toList ++ d2, ?_, by simp⟩
  rw [lexRun_append, h1, Option.bind_some]
  show lexRun false ⟨.plain, none, d1 ++ c1.toList⟩ b = _
  have := lexRun_done false ⟨.plain, none, []⟩ (d1 ++ c1.toList) b
  rw [List.append_nil, h2] at this
  simpa using this

theorem words_nil : shellWords [] = some [] := rfl

theorem lex_plain_word (k : Bool) {w : Str} (h : ∀ c ∈ w, activePlain c = false ∧ c ∉ [' ', '\t', '\\', '\'', '"'])
    (cur : Str) (done : List Str) :
    lexRun k ⟨.plain, some cur, done⟩ w = some ⟨.plain, some (cur ++ w), done⟩ := by
  induction w generalizing cur with
  | nil => simp [lexRun]
  | cons c w ih =>
    obtain ⟨h1, h2⟩ := h c (by simp)
    simp only [List.mem_cons, List.not_mem_nil, or_false, not_or] at h2
    have : lexStep k ⟨.plain, some cur, done⟩ c = some ⟨.plain, some (cur ++ [c]), done⟩ := by
      simp [lexStep, h1, h2, Lex.push]
    simp only [lexRun, this, Option.bind_some]
    rw [ih fun d hd => h d (by simp [hd])]
    simp

theorem lex_word (k : Bool) {w : Str} (h : PlainWord w) (done : List Str) :
    lexRun k ⟨.plain, none, done⟩ w = some ⟨.plain, some w, done⟩ := by
  obtain ⟨hne, hw⟩ := h
  cases w with
  | nil => exact absurd rfl hne
  | cons c w =>
    obtain ⟨h1, h2⟩ := hw c (by simp)
    simp only [List.mem_cons, List.not_mem_nil, or_false, not_or] at h2
    have : lexStep k ⟨.plain, none, done⟩ c = some ⟨.plain, some [c], done⟩ := by
      simp [lexStep, h1, h2, Lex.push]
    simp only [lexRun, this, Option.bind_some]
    rw [lex_plain_word k fun d hd => hw d (by simp [hd])]
    rfl

theorem words_plain {w : Str} (h : PlainWord w) : shellWords w = some [w] :=
  shellWords_iff.mpr ⟨some w, [], lex_word false h [], rfl⟩

theorem words_blank {b : Str} {y : List Str} (hb : shellWords b = some y) :
    shellWords (' ' :: b) = some y := by
  have := words_append words_nil hb
  simpa using this

theorem words_join {f : Str → Str} {l : List Str} {g : Str → List Str}
    (h : ∀ s ∈ l, shellWords (f s) = some (g s)) :
    shellWords (joinWith [' '] (l.map f)) = some (l.flatMap g) := by
  induction l with
  | nil => rfl
  | cons a l ih =>
    cases l with
    | nil => simpa [joinWith] using h a (by simp)
    | cons b l =>
      have := words_append (h a (by simp)) (ih fun s hs => h s (by simp [hs]))
      simpa [joinWith] using this

/-! ### Assignments -/

theorem make_literal {t : Str} (p : Nat) (out : Str) (hnl : '\n' ∉ t) (hh : '#' ∉ t) :
    ∃ p' out', t.foldl makeStep ⟨.text, p, out⟩ = ⟨.text, p', out'⟩ ∧
      out' ++ List.replicate p' '\\' = out ++ List.replicate p '\\' ++ t ∧
      (∀ c, t.getLast? = some c → c ≠ '\\' → p' = 0) := by
  induction t generalizing p out with
  | nil => exact ⟨p, out, rfl, by simp, by simp⟩
  | cons c t ih =>
    simp only [List.mem_cons, not_or] at hnl hh
    rw [List.foldl_cons]
    by_cases h2 : c = '\\'
    · subst h2
      have : makeStep ⟨.text, p, out⟩ '\\' = ⟨.text, p + 1, out⟩ := by simp [makeStep, makeText]
      rw [this]
      obtain ⟨p', out', e1, e2, e3⟩ := ih (p + 1) out hnl.2 hh.2
      refine ⟨p', out', e1, ?_, ?_⟩
      · rw [e2, List.replicate_succ']; simp
      · intro d hd hd'
        cases t with
        | nil => simp at hd; exact absurd hd.symm hd'
        | cons x xs => exact e3 d (by simpa [List.getLast?_cons_cons] using hd) hd'
    · have : makeStep ⟨.text, p, out⟩ c = ⟨.text, 0, out ++ List.replicate p '\\' ++ [c]⟩ := by
        have e1 : c ≠ '#' := Ne.symm hh.1
        have e2 : c ≠ '\n' := Ne.symm hnl.1
        simp [makeStep, makeText, h2, e1, e2]
      rw [this]
      obtain ⟨p', out', e1, e2, e3⟩ := ih 0 (out ++ List.replicate p '\\' ++ [c]) hnl.2 hh.2
      refine ⟨p', out', e1, by simpa using e2, ?_⟩
      intro d hd hd'
      cases t with
      | nil => simp at e1; exact e1.1.symm
      | cons x xs => exact e3 d (by simpa [List.getLast?_cons_cons] using hd) hd'

/-- A text without continuation. -/
theorem make_line {t : Str} (out : Str) (hnl : '\n' ∉ t) (hh : '#' ∉ t)
    (hl : ∀ c, t.getLast? = some c → c ≠ '\\') :
    t.foldl makeStep ⟨.text, 0, out⟩ = ⟨.text, 0, out ++ t⟩ := by
  obtain ⟨p', out', e1, e2, e3⟩ := make_literal 0 out hnl hh
  cases t with
  | nil => simp
  | cons c t =>
    obtain ⟨d, hd⟩ : ∃ d, (c :: t).getLast? = some d := ⟨_, List.getLast?_eq_some_getLast (by simp)⟩
    have hp := e3 d hd (hl d hd)
    subst hp
    rw [e1]
    simp at e2
    rw [e2]

theorem make_listItem {s : Str} (out : Str) (h : ListItem s) (hout : rstripBlanks (out ++ [' ']) = out) :
    (c!" \\\n\t" ++ s).foldl makeStep ⟨.text, 0, out⟩ = ⟨.text, 0, out ++ ' ' :: s⟩ := by
  obtain ⟨hnl, hh, ⟨c, hc, hb⟩, d, hd, hd', -⟩ := h
  have h1 : (c!" \\\n\t").foldl makeStep ⟨.text, 0, out⟩ = ⟨.cont, 0, out⟩ := by
    simp [makeStep, makeText, isBlank, hout]
  rw [List.foldl_append, h1]
  cases s with
  | nil => cases hc
  | cons x s =>
    injection hc with hc
    subst hc
    have h2 : (x :: s).foldl makeStep ⟨.cont, 0, out⟩ = (x :: s).foldl makeStep ⟨.text, 0, out ++ [' ']⟩ := by
      rw [List.foldl_cons, List.foldl_cons]
      congr 1
      simp [makeStep, hb, makeText]
    rw [h2, make_line _ hnl hh]
    · simp
    · intro e he
      rw [hd] at he
      injection he with he
      rw [← he]
      exact hd'

theorem rstrip_item {out s : Str} (h : ListItem s) :
    rstripBlanks (out ++ ' ' :: s ++ [' ']) = out ++ ' ' :: s := by
  obtain ⟨-, -, -, d, hd, -, hb⟩ := h
  obtain ⟨w, hw⟩ := List.getLast?_eq_some_iff.mp hd
  rw [hw, show out ++ ' ' :: (w ++ [d]) = (out ++ ' ' :: w) ++ [d] by simp]
  exact rstrip_stable _ _ hb

theorem make_listItems {vs : List Str} (out : Str) (h : ∀ s ∈ vs, ListItem s)
    (hout : rstripBlanks (out ++ [' ']) = out) :
    (vs.flatMap fun v => c!" \\\n\t" ++ v).foldl makeStep ⟨.text, 0, out⟩ =
      ⟨.text, 0, out ++ vs.flatMap fun v => ' ' :: v⟩ := by
  induction vs generalizing out with
  | nil => simp
  | cons v vs ih =>
    rw [List.flatMap_cons, List.foldl_append, make_listItem out (h v (by simp)) hout,
      ih _ (fun s hs => h s (by simp [hs])) (rstrip_item (h v (by simp)))]
    simp

/-- The name of a variable that is set. -/
def VarText (n : Str) : Prop := ∀ c ∈ n, c ≠ ':' ∧ c ≠ '\n' ∧ c ≠ '#' ∧ c ≠ '\\'

theorem VarText.line {n : Str} (h : VarText n) (out : Str) :
    n.foldl makeStep ⟨.text, 0, out⟩ = ⟨.text, 0, out ++ n⟩ :=
  make_line out (fun hc => (h _ hc).2.1 rfl) (fun hc => (h _ hc).2.2.1 rfl)
    fun c hc => (h c (List.mem_of_getLast? hc)).2.2.2

theorem listText (name : Str) (xs : List Str) :
    lineText (.list name xs) = name ++ (c!" :=" ++ ((xs.flatMap fun v => c!" \\\n\t" ++ v) ++ c!"\n\n")) := by
  unfold lineText render
  simp only [Option.getD_some, writeLines, List.flatMap_cons, List.flatMap_nil]
  by_cases hd : xs = []
  · simp [hd]
  · have := join_flatMap c!" \\\n\t" id xs hd
    rw [List.map_id] at this
    simp only [id_eq] at this
    rw [← this]
    simp [hd]

/-- The value of a list. -/
theorem textValue_list {v : MakeVars} {name : Str} {xs : List Str} {f : Str → Str} (hn : VarText name)
    (h : ∀ s ∈ xs, ListItem s) (hf : ∀ s ∈ xs, deep (valueOf v) s = some (f s)) :
    textValue v (lineText (.list name xs)) = joinWith [' '] (xs.map f) := by
  have hlog : makeLogicalLine (lineText (.list name xs)) =
      name ++ c!" :=" ++ xs.flatMap fun v => ' ' :: v := by
    unfold makeLogicalLine
    rw [listText, List.foldl_append, hn.line, List.foldl_append]
    have h1 : (c!" :=").foldl makeStep ⟨.text, 0, [] ++ name⟩ = ⟨.text, 0, name ++ c!" :="⟩ := by
      simp [makeStep, makeText]
    rw [h1, List.foldl_append, make_listItems _ h]
    · simp [makeStep, makeText]
    · rw [show name ++ c!" :=" = (name ++ c!" :") ++ ['='] by simp]
      exact rstrip_stable _ _ (by decide)
  have hsplit : split1 ':' (name ++ c!" :=" ++ xs.flatMap fun v => ' ' :: v) =
      some (name ++ [' '], '=' :: xs.flatMap fun v => ' ' :: v) := by
    have := split1_cons ':' (name ++ [' ']) ('=' :: xs.flatMap fun v => ' ' :: v) (by
      simp only [List.mem_append, List.mem_singleton, not_or]
      exact ⟨fun h => (hn ':' h).1 rfl, by decide⟩)
    simpa using this
  unfold textValue
  rw [hlog, hsplit]
  show real v ((xs.flatMap fun v => ' ' :: v).dropWhile isBlank) = _
  have hdrop : (xs.flatMap fun v => ' ' :: v).dropWhile isBlank = joinWith [' '] xs := by
    cases xs with
    | nil => rfl
    | cons x xs =>
      have hj := join_flatMap [' '] id (x :: xs) (by simp)
      simp only [List.map_id, id_eq, List.singleton_append] at hj
      rw [← hj]
      obtain ⟨-, -, ⟨c, hc, hb⟩, -⟩ := h x (by simp)
      cases x with
      | nil => cases hc
      | cons y ys =>
        injection hc with hc
        subst hc
        have : ∃ r, joinWith [' '] ((y :: ys) :: xs) = y :: r := by
          cases xs with
          | nil => exact ⟨ys, rfl⟩
          | cons z zs => exact ⟨_, rfl⟩
        obtain ⟨r, hr⟩ := this
        rw [hr, List.dropWhile_cons, if_pos (by decide), List.dropWhile_cons, if_neg (by simp [hb])]
  rw [hdrop, real, deep_join hf, Option.getD_some]

/-- The value of a text. -/
theorem textValue_set {v : MakeVars} {name x y : Str} (hn : VarText name) (hnl : '\n' ∉ x) (hh : '#' ∉ x)
    (hl : ∀ c, x.getLast? = some c → c ≠ '\\') (hb : ∀ c, x.head? = some c → isBlank c = false)
    (hy : deep (valueOf v) x = some y) : textValue v (lineText (.set name x)) = y := by
  have hlog : makeLogicalLine (lineText (.set name x)) = name ++ c!" := " ++ x := by
    unfold makeLogicalLine lineText render
    simp only [Option.getD_some, writeLines, List.flatMap_cons, List.flatMap_nil, List.append_nil]
    rw [List.foldl_append, List.foldl_append, List.foldl_append, hn.line]
    have h1 : (c!" := ").foldl makeStep ⟨.text, 0, [] ++ name⟩ = ⟨.text, 0, name ++ c!" := "⟩ := by
      simp [makeStep, makeText]
    rw [h1, make_line _ hnl hh hl]
    simp [makeStep, makeText]
  have hsplit : split1 ':' (name ++ c!" := " ++ x) = some (name ++ [' '], '=' :: ' ' :: x) := by
    have := split1_cons ':' (name ++ [' ']) ('=' :: ' ' :: x) (by
      simp only [List.mem_append, List.mem_singleton, not_or]
      exact ⟨fun h => (hn ':' h).1 rfl, by decide⟩)
    simpa using this
  unfold textValue
  rw [hlog, hsplit]
  show real v ((' ' :: x).dropWhile isBlank) = y
  have : (' ' :: x).dropWhile isBlank = x := by
    rw [List.dropWhile_cons, if_pos (by decide)]
    cases x with
    | nil => rfl
    | cons c x => rw [List.dropWhile_cons, if_neg (by simp [hb c rfl])]
  rw [this, real, hy, Option.getD_some]

end Gyp
