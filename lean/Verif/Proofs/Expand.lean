import Verif.Model.Expand
import Verif.Spec.Templates
import Verif.Props.Scan
import Verif.Props.ListFilters
import Mathlib.Data.List.Induction
/-
Lemmas on variable expansion.
-/
namespace Gyp
open Spec

/-! ### Numbers -/

theorem intStr_ascii (i : Int) : ∀ c ∈ intStr i, c = '-' ∨ asciiDigit c = true := by
  intro x hx
  cases i with
  | ofNat n => exact .inr (toDigits_digits n x hx)
  | negSucc n =>
    rcases List.mem_cons.mp hx with h | h
    · exact .inl h
    · exact .inr (toDigits_digits _ x h)

theorem ascii_lt {c : Char} (h : c = '-' ∨ asciiDigit c = true) : c.toNat < 128 := by
  rcases h with rfl | h
  · decide
  · have := (asciiDigit_iff.mp h).2; omega

/-- With ASCII digits the test is exact for every string. -/
theorem canonical_iff (s : Str) : IsStrCanonicalInt asciiDigit s = true ↔ ∃ i : Int, s = intStr i := by
  by_cases hs : ∀ c ∈ s, c.toNat < 128
  · exact C30_canonical asciiDigit (fun _ _ => rfl) s hs
  · constructor
    · intro h
      exfalso
      apply hs
      unfold IsStrCanonicalInt at h
      by_cases h0 : s = []
      · subst h0; simp
      rw [if_neg h0] at h
      by_cases h1 : s = ['0']
      · subst h1; decide
      rw [if_neg h1] at h
      intro c hc
      by_cases hm : s.head? = some '-'
      · simp only [hm, if_true] at h
        cases s with
        | nil => cases hc
        | cons x r =>
          have hx : x = '-' := by simpa using hm
          subst hx
          simp only [List.tail_cons] at h
          cases r with
          | nil => simp at h
          | cons y r =>
            simp only at h
            split at h
            · rw [List.all_eq_true] at h
              rcases List.mem_cons.mp hc with rfl | hc
              · decide
              · exact ascii_lt (.inr (h c hc))
            · cases h
      · simp only [hm, if_false] at h
        cases s with
        | nil => cases hc
        | cons x r =>
          simp only at h
          split at h
          · rw [List.all_eq_true] at h
            exact ascii_lt (.inr (h c hc))
          · cases h
    · rintro ⟨i, rfl⟩
      exact absurd (fun c hc => ascii_lt (intStr_ascii i c hc)) hs

theorem toInt_str (w : Str) : toInt (.str w) =
    if IsStrCanonicalInt asciiDigit w then .int (pyInt w) else .str w := rfl

theorem toInt_reads (w : Str) : ReadsAs w (toInt (.str w)) := by
  rw [toInt_str]
  unfold ReadsAs
  by_cases h : ∃ i : Int, w = intStr i
  · rw [if_pos ((canonical_iff w).mpr h)]
    obtain ⟨i, hi⟩ := h
    exact .inl ⟨i, hi, by rw [(C30_roundtrip w i hi).1]⟩
  · rw [if_neg (fun h' => h ((canonical_iff w).mp h'))]
    exact .inr ⟨h, rfl⟩

theorem reads_toInt {w : Str} {v : Val} (h : ReadsAs w v) : v = toInt (.str w) := by
  rw [toInt_str]
  rcases h with ⟨i, hi, rfl⟩ | ⟨hn, rfl⟩
  · rw [if_pos ((canonical_iff w).mpr ⟨i, hi⟩), (C30_roundtrip w i hi).1]
  · rw [if_neg (fun h' => hn ((canonical_iff w).mp h'))]

theorem strOf_toInt (env : ExpEnv) (w : Str) : env.strOf (toInt (.str w)) = w := by
  rw [toInt_str]
  by_cases h : IsStrCanonicalInt asciiDigit w = true
  · rw [if_pos h]
    obtain ⟨i, hi⟩ := (canonical_iff w).mp h
    exact (C30_roundtrip w i hi).2
  · rw [if_neg h]; rfl

theorem toInt_toInt (v : Val) : toInt (toInt v) = toInt v := by
  cases v with
  | str w =>
    by_cases h : IsStrCanonicalInt asciiDigit w = true
    · simp [toInt, h]
    · simp [toInt, h]
  | _ => rfl

theorem toInt_scalar (w : Str) : (toInt (.str w)).isScalar = true := by
  rw [toInt_str]
  split <;> rfl

/-! ### Symbols -/

/-- `<`, `>` or `^`. -/
def PhaseSymbol (c : Char) : Prop := c = '<' ∨ c = '>' ∨ c = '^'

theorem sym_not_number {sym : Char} (h : PhaseSymbol sym) {w : Str} (hw : sym ∈ w) :
    IsStrCanonicalInt asciiDigit w = false := by
  cases hc : IsStrCanonicalInt asciiDigit w with
  | false => rfl
  | true =>
    obtain ⟨i, rfl⟩ := (canonical_iff w).mp hc
    rcases intStr_ascii i sym hw with h' | h'
    · rcases h with rfl | rfl | rfl <;> cases h'
    · rcases h with rfl | rfl | rfl <;> exact absurd h' (by decide)

theorem intStr_no_sym {sym : Char} (h : PhaseSymbol sym) (i : Int) : sym ∉ intStr i := by
  intro hm
  have := sym_not_number h hm
  rw [(canonical_iff _).mpr ⟨i, rfl⟩] at this
  cases this

theorem escape_no_sym {sym : Char} (h : PhaseSymbol sym) {s : Str} (hs : sym ∉ s) :
    sym ∉ EncodePOSIXShellArgument s := by
  have hq : sym ≠ '"' ∧ sym ≠ '\\' := by rcases h with rfl | rfl | rfl <;> decide
  have he : sym ∉ backslashEscape s := by
    unfold backslashEscape
    intro hm
    obtain ⟨c, hc, hm⟩ := List.mem_flatMap.mp hm
    split at hm
    · rcases List.mem_cons.mp hm with h1 | h1
      · exact hq.2 h1
      · have : sym = c := by simpa using h1
        exact hs (this ▸ hc)
    · have : sym = c := by simpa using hm
      exact hs (this ▸ hc)
  unfold EncodePOSIXShellArgument
  simp only
  intro hm
  have hq' : sym ∉ (if needsQuote s then ['"'] else []) := by
    split
    · simpa using hq.1
    · simp
  rcases List.mem_append.mp hm with hm | hm
  · rcases List.mem_append.mp hm with hm | hm
    · exact hq' hm
    · exact he hm
  · exact hq' hm

theorem join_no_sym {sym : Char} (h : PhaseSymbol sym) : ∀ {l : List Str}, (∀ s ∈ l, sym ∉ s) →
    sym ∉ joinWith [' '] l
  | [], _ => by simp [joinWith]
  | [a], hl => by simpa [joinWith] using hl a (by simp)
  | a :: b :: l, hl => by
    have ih := join_no_sym h (l := b :: l) fun s hs => hl s (by simp at hs ⊢; exact .inr hs)
    have e : joinWith [' '] (a :: b :: l) = a ++ [' '] ++ joinWith [' '] (b :: l) := by
      simp [joinWith]
    rw [e]
    intro hm
    rcases List.mem_append.mp hm with hm | hm
    · rcases List.mem_append.mp hm with hm | hm
      · exact hl a (by simp) hm
      · have : sym = ' ' := by simpa using hm
        rcases h with rfl | rfl | rfl <;> cases this
    · exact ih hm

theorem encode_no_sym {sym : Char} (h : PhaseSymbol sym) {l : List Str} (hl : ∀ s ∈ l, sym ∉ s) :
    sym ∉ EncodePOSIXShellList l := by
  unfold EncodePOSIXShellList
  apply join_no_sym h
  intro s hs
  obtain ⟨a, ha, rfl⟩ := List.mem_map.mp hs
  exact escape_no_sym h (hl a ha)

/-! ### Finding references -/

theorem findRefs_skip (env : ExpEnv) : ∀ (a : Str) (pos : Nat) (rest : Str),
    findRefs env a.length pos (a ++ rest) = findRefs env 0 (pos + a.length) rest
  | [], pos, rest => by simp
  | c :: a, pos, rest => by
    have e : findRefs env (c :: a).length pos ((c :: a) ++ rest) =
        findRefs env a.length (pos + 1) (a ++ rest) := rfl
    rw [e, findRefs_skip env a]
    congr 1
    simp; omega

theorem matchHere_ne {env : ExpEnv} {pos : Nat} {c : Char} {r : Str} (h : c ≠ env.sym) :
    matchHere env pos (c :: r) = none := by
  unfold matchHere
  simp [h]

theorem findRefs_text (env : ExpEnv) : ∀ (t : Str), env.sym ∉ t → ∀ (pos : Nat) (rest : Str),
    findRefs env 0 pos (t ++ rest) = findRefs env 0 (pos + t.length) rest
  | [], _, pos, rest => by simp
  | c :: t, h, pos, rest => by
    have hc : c ≠ env.sym := fun e => h (by simp [e])
    have e : findRefs env 0 pos ((c :: t) ++ rest) = findRefs env 0 (pos + 1) (t ++ rest) := by
      rw [List.cons_append, findRefs, matchHere_ne hc]
    rw [e, findRefs_text env t (fun h' => h (by simp [h']))]
    congr 1
    simp; omega

/-- The match of a reference, or with `at_` of a list reference. -/
def refMatch (at_ : Bool) (pos : Nat) (n : Str) : RefMatch :=
  { start := pos, bang := false, at_ := at_, bar := false, cmd := none, isArray := false,
    len := n.length + 3 + (if at_ then 1 else 0) }

theorem dropWhile_name {n rest : Str} (h : ∀ c ∈ n, PlainChar c ∧ c ≠ '\n') :
    (n ++ ')' :: rest).dropWhile (fun c => c ≠ ')' && c ≠ '\n') = ')' :: rest := by
  induction n with
  | nil => simp
  | cons c n ih =>
    have hc := h c (by simp)
    have h1 : c ≠ ')' := by
      intro e
      have := hc.1
      rw [e] at this
      exact absurd this (by unfold PlainChar; decide)
    rw [List.cons_append, List.dropWhile_cons_of_pos (by simp [h1, hc.2])]
    exact ih fun c hc => h c (by simp [hc])

/-- The rest of a reference after the opening parenthesis. -/
theorem name_facts {space : Char → Bool} {sym : Char} {n : Str} (hg : GoodName space sym n)
    (rest : Str) : ∃ w, w = n ++ ')' :: rest ∧ w.takeWhile space = [] ∧ w.dropWhile space = w ∧
      eat '[' w = (false, w) ∧ w.dropWhile (fun c => c ≠ ')' && c ≠ '\n') = ')' :: rest ∧
      w.length = n.length + rest.length + 1 := by
  obtain ⟨hne, _, hc⟩ := hg
  obtain ⟨c, n', rfl⟩ := List.exists_cons_of_ne_nil hne
  have hs : space c = false := (hc c (by simp)).2.2.2
  have hb : c ≠ '[' := by
    intro e
    have := (hc c (by simp)).1
    rw [e] at this
    exact absurd this (by unfold PlainChar; decide)
  have hd := dropWhile_name (rest := rest) (n := c :: n') fun x hx => ⟨(hc x hx).1, (hc x hx).2.1⟩
  refine ⟨_, rfl, by simp [hs], by simp [hs], by simp [eat, hb], hd, by simp; omega⟩

theorem matchHere_ref {env : ExpEnv} {n : Str} (hg : GoodName env.space env.sym n) (pos : Nat)
    (rest : Str) :
    matchHere env pos (env.sym :: '(' :: (n ++ ')' :: rest)) = some (refMatch false pos n) := by
  obtain ⟨w, hw, h1, h2, h3, h4, h5⟩ := name_facts hg rest
  rw [← hw]
  unfold matchHere
  have c1 : cmdChar '(' = false := by decide
  have c2 : ∀ (c : Char) (r : Str), c ≠ '(' → eat c ('(' :: r) = (false, '(' :: r) := by
    intro c r hc; simp [eat, Ne.symm hc]
  have c3 : ∀ (c : Char) (r : Str), eat c (c :: r) = (true, r) := by intro c r; simp [eat]
  simp only [ne_eq, not_true_eq_false, if_false, c2 '!' w (by decide), c2 '@' w (by decide),
    c2 '|' w (by decide), Bool.or_self, Bool.false_eq_true, List.takeWhile_cons, c1,
    List.dropWhile_cons, c3, h1, h2, h3, h4, Bool.not_true, refMatch, decide_false, if_true]
  simp only [List.length_cons, h5, Option.some.injEq, RefMatch.mk.injEq, true_and]
  simp
  omega

theorem matchHere_splice {env : ExpEnv} {n : Str} (hg : GoodName env.space env.sym n) (pos : Nat)
    (rest : Str) :
    matchHere env pos (env.sym :: '@' :: '(' :: (n ++ ')' :: rest)) = some (refMatch true pos n) := by
  obtain ⟨w, hw, h1, h2, h3, h4, h5⟩ := name_facts hg rest
  rw [← hw]
  unfold matchHere
  have c1 : cmdChar '(' = false := by decide
  have c2 : eat '!' ('@' :: '(' :: w) = (false, '@' :: '(' :: w) := by simp [eat]
  have c3 : ∀ (c : Char) (r : Str), eat c (c :: r) = (true, r) := by intro c r; simp [eat]
  simp only [ne_eq, not_true_eq_false, if_false, c2, Bool.or_true, List.takeWhile_cons, c1,
    List.dropWhile_cons, c3, h1, h2, h3, h4, Bool.not_true, refMatch, decide_false, if_true,
    Bool.false_eq_true]
  simp only [List.length_cons, h5, Option.some.injEq, RefMatch.mk.injEq, true_and]
  simp
  omega

theorem findRefs_ref {env : ExpEnv} {n : Str} (hg : GoodName env.space env.sym n) (pos : Nat)
    (rest : Str) :
    findRefs env 0 pos (TextPiece.render env.sym (.ref n) ++ rest) =
      refMatch false pos n :: findRefs env 0 (pos + n.length + 3) rest := by
  have e : TextPiece.render env.sym (.ref n) ++ rest = env.sym :: '(' :: (n ++ ')' :: rest) := by
    simp [TextPiece.render]
  rw [e, findRefs, matchHere_ref hg]
  simp only
  congr 1
  have e2 : '(' :: (n ++ ')' :: rest) = ('(' :: (n ++ [')'])) ++ rest := by simp
  have e3 : (refMatch false pos n).len - 1 = ('(' :: (n ++ [')'])).length := by simp [refMatch]
  rw [e2, e3, findRefs_skip]
  congr 1
  simp; omega

theorem findRefs_splice {env : ExpEnv} {n : Str} (hg : GoodName env.space env.sym n) :
    findRefs env 0 0 (renderSplice env.sym n) = [refMatch true 0 n] := by
  have e : renderSplice env.sym n = env.sym :: '@' :: '(' :: (n ++ ')' :: []) := by
    simp [renderSplice]
  rw [e, findRefs, matchHere_splice hg]
  simp only
  congr 1
  have e2 : '@' :: '(' :: (n ++ [')']) = ('@' :: '(' :: (n ++ [')'])) ++ [] := by simp
  have e3 : (refMatch true 0 n).len - 1 = ('@' :: '(' :: (n ++ [')'])).length := by simp [refMatch]
  rw [e2, e3, findRefs_skip]
  rfl

/-- The matches of a text. -/
def matchesOf (pos : Nat) : List TextPiece → List RefMatch
  | [] => []
  | .text t :: ps => matchesOf (pos + t.length) ps
  | .ref n :: ps => refMatch false pos n :: matchesOf (pos + n.length + 3) ps

theorem render_cons (sym : Char) (p : TextPiece) (ps : List TextPiece) :
    render sym (p :: ps) = p.render sym ++ render sym ps := rfl

theorem render_append (sym : Char) (ps qs : List TextPiece) :
    render sym (ps ++ qs) = render sym ps ++ render sym qs := by
  simp [render]

theorem ref_length (sym : Char) (n : Str) : (TextPiece.render sym (.ref n)).length = n.length + 3 := by
  simp [TextPiece.render]

theorem findRefs_render {env : ExpEnv} : ∀ (ps : List TextPiece),
    (∀ p ∈ ps, GoodPiece env.space env.sym p) → ∀ pos,
    findRefs env 0 pos (render env.sym ps) = matchesOf pos ps
  | [], _, pos => rfl
  | .text t :: ps, h, pos => by
    rw [render_cons]
    have ht : env.sym ∉ t := h (.text t) (by simp)
    rw [TextPiece.render, findRefs_text env t ht, findRefs_render ps fun p hp => h p (by simp [hp])]
    rfl
  | .ref n :: ps, h, pos => by
    rw [render_cons]
    have hn : GoodName env.space env.sym n := h (.ref n) (by simp)
    rw [findRefs_ref hn, findRefs_render ps fun p hp => h p (by simp [hp])]
    rfl

theorem matchesOf_append (pos : Nat) (sym : Char) : ∀ (ps qs : List TextPiece),
    matchesOf pos (ps ++ qs) = matchesOf pos ps ++ matchesOf (pos + (render sym ps).length) qs := by
  intro ps
  induction ps generalizing pos with
  | nil => intro qs; simp [matchesOf, render]
  | cons p ps ih =>
    intro qs
    rw [render_cons, List.length_append, ← Nat.add_assoc]
    cases p with
    | text t => exact ih _ qs
    | ref n =>
      rw [ref_length, ← Nat.add_assoc]
      simp only [List.cons_append, matchesOf, ih]

/-- The names referred to. -/
def refNames : List TextPiece → List Str
  | [] => []
  | .text _ :: ps => refNames ps
  | .ref n :: ps => n :: refNames ps

theorem matchesOf_nil {pos : Nat} : ∀ {ps : List TextPiece}, matchesOf pos ps = [] ↔ refNames ps = [] := by
  intro ps
  induction ps generalizing pos with
  | nil => simp [matchesOf, refNames]
  | cons p ps ih => cases p <;> simp [matchesOf, refNames, ih]

/-- The names can be read off the text. -/
theorem names_of_matches (sym : Char) (s : Str) : ∀ (ps : List TextPiece) (before : Str),
    s = before ++ render sym ps →
    (matchesOf before.length ps).map (fun m => (s.drop (m.start + 2)).take (m.len - 3)) = refNames ps := by
  intro ps
  induction ps with
  | nil => intros; rfl
  | cons p ps ih =>
    intro before hs
    cases p with
    | text t =>
      have := ih (before ++ t) (by rw [hs, render_cons]; simp [TextPiece.render])
      rw [List.length_append] at this
      exact this
    | ref n =>
      have := ih (before ++ TextPiece.render sym (.ref n)) (by rw [hs, render_cons]; simp)
      rw [List.length_append, ref_length] at this
      simp only [matchesOf, List.map_cons, refNames]
      refine List.cons_eq_cons.mpr ⟨?_, by rw [← Nat.add_assoc] at this; exact this⟩
      have e : s = (before ++ [sym, '(']) ++ (n ++ (')' :: render sym ps)) := by
        rw [hs, render_cons]; simp [TextPiece.render]
      have l : (refMatch false before.length n).start + 2 = (before ++ [sym, '(']).length := by
        simp [refMatch]
      rw [e, l, List.drop_left]
      simp [refMatch]

/-! ### One replacement -/

theorem nested_plain : ∀ {n : Str}, (∀ c ∈ n, PlainChar c) → Nested n
  | [], _ => .nil
  | c :: _, h => .plain (h c (by simp)) (nested_plain fun x hx => h x (by simp [hx]))

theorem sym_plain {sym : Char} (h : PhaseSymbol sym) : PlainChar sym := by
  rcases h with rfl | rfl | rfl <;> (unfold PlainChar; decide)

theorem pySlice_nat (a b c : Str) {i j : Int} (hi : i = a.length) (hj : j = a.length + b.length) :
    pySlice (a ++ (b ++ c)) i j = b := by
  subst hi; subst hj
  have h1 : pyIndex (a ++ (b ++ c)).length (a.length : Int) = a.length := by
    unfold pyIndex
    rw [if_neg (by omega)]
    simp
  have h2 : pyIndex (a ++ (b ++ c)).length ((a.length : Int) + b.length) = (a ++ b).length := by
    unfold pyIndex
    rw [if_neg (by omega)]
    simp
    omega
  unfold pySlice
  rw [h1, h2, ← List.append_assoc, List.take_left, List.drop_left]

/-- The opening of a reference up to its parenthesis. -/
def refOpen (sym : Char) (at_ : Bool) : Str := if at_ then [sym, '@'] else [sym]

theorem refSpan_ref {sym : Char} (hsym : PhaseSymbol sym) {at_ : Bool} {n : Str}
    (hn : ∀ c ∈ n, PlainChar c) (before tail : Str) :
    refSpan (refMatch at_ before.length n) (before ++ (refOpen sym at_ ++ '(' :: (n ++ [')']) ++ tail)) =
      ⟨before.length + (refOpen sym at_).length + n.length + 2, n,
        refOpen sym at_ ++ '(' :: (n ++ [')'])⟩ := by
  have hplain : ∀ x ∈ refOpen sym at_, PlainChar x := by
    intro x hx
    unfold refOpen at hx
    have hat : PlainChar '@' := by unfold PlainChar; decide
    split at hx
    · rcases List.mem_cons.mp hx with rfl | hx
      · exact sym_plain hsym
      · rw [List.mem_singleton.mp hx]; exact hat
    · rw [List.mem_singleton.mp hx]; exact sym_plain hsym
  have hb : FindEnclosingBracketGroup (refOpen sym at_ ++ '(' :: (n ++ [')']) ++ tail) =
      some ((refOpen sym at_).length, (refOpen sym at_).length + n.length + 2) := by
    rw [C29_group]
    exact ⟨refOpen sym at_, n, tail, '(', ')', by simp, hplain, .inl ⟨rfl, rfl⟩, nested_plain hn, rfl, rfl⟩
  unfold refSpan
  have e : (before ++ (refOpen sym at_ ++ '(' :: (n ++ [')']) ++ tail)).drop
      (refMatch at_ before.length n).start = refOpen sym at_ ++ '(' :: (n ++ [')']) ++ tail := by
    have : (refMatch at_ before.length n).start = before.length := rfl
    rw [this, List.drop_left]
  rw [e, hb]
  simp only
  have hst : ((refMatch at_ before.length n).start : Int) = before.length := rfl
  rw [hst]
  refine RefSpan.mk.injEq .. |>.mpr ⟨by push_cast; omega, ?_, ?_⟩
  · have : before ++ (refOpen sym at_ ++ '(' :: (n ++ [')']) ++ tail) =
        (before ++ refOpen sym at_ ++ ['(']) ++ (n ++ (')' :: tail)) := by simp
    rw [this]
    apply pySlice_nat
    · simp; omega
    · simp; omega
  · apply pySlice_nat
    · rfl
    · simp; omega

theorem strip_name {env : ExpEnv} {n : Str} (h : ∀ c ∈ n, env.space c = false) : env.strip n = n := by
  have key : ∀ m : Str, (∀ c ∈ m, env.space c = false) → m.dropWhile env.space = m := by
    intro m hm
    cases m with
    | nil => rfl
    | cons c m => simp [hm c (by simp)]
  unfold ExpEnv.strip
  rw [key n h, key n.reverse (fun c hc => h c (by simpa using hc)), List.reverse_reverse]

theorem expandStep_str (env : ExpEnv) (r : Rec) (s : Str) (vars : Dict) :
    expandStep env r (.str s) vars =
      if IsStrCanonicalInt asciiDigit s then .ok (.int (pyInt s))
      else if env.sym ∉ s then .ok (.str s)
      else if findRefs env 0 0 s = [] then .ok (.str s)
      else
        match expandMatches env r vars (findRefs env 0 0 s).reverse (.str s) with
        | .error e => .error e
        | .ok out =>
          match expandAgain r vars (.str s) out with
          | .error e => .error e
          | .ok v => .ok (finish v) := rfl

theorem finish_scalar {v : Val} (hv : v.isScalar = true) : finish v = toInt v := by
  cases v <;> first | rfl | cases hv

/-- A text without the symbol is final. -/
theorem expandStep_plain {env : ExpEnv} {r : Rec} {s : Str} {vars : Dict} (h : env.sym ∉ s) :
    expandStep env r (.str s) vars = .ok (toInt (.str s)) := by
  unfold expandStep
  rw [toInt_str]
  simp only [ExpEnv.strOf]
  by_cases hc : IsStrCanonicalInt asciiDigit s = true
  · simp [hc]
  · simp [hc, h]

theorem expandStep_toInt {env : ExpEnv} {r : Rec} {s : Str} {vars : Dict} (h : env.sym ∉ s) :
    expandStep env r (toInt (.str s)) vars = .ok (toInt (.str s)) := by
  by_cases hc : IsStrCanonicalInt asciiDigit s = true
  · unfold expandStep
    rw [strOf_toInt, toInt_str]
    simp [hc]
  · have : toInt (.str s) = .str s := by rw [toInt_str]; simp [hc]
    rw [this, expandStep_plain h, this]

/-- Looking a good name up. -/
theorem refValue_name {env : ExpEnv} {f : Nat} {at_ : Bool} {pos : Nat} {n : Str} {vars : Dict}
    (hg : GoodName env.space env.sym n) (hf : f ≠ 0) :
    refValue env (recs env f) (refMatch at_ pos n) n vars =
      match lookupVar n vars with
      | .error e => .error e
      | .ok v => .ok (n, v) := by
  obtain ⟨f, rfl⟩ := Nat.exists_eq_succ_of_ne_zero hf
  have h1 : (recs env (f + 1)).expand (.str n) vars = .ok (.str n) := by
    have := expandStep_plain (env := env) (r := recs env f) (s := n) (vars := vars)
      (fun h => (hg.2.2 _ h).2.2.1 rfl)
    rw [toInt_str, if_neg (fun h => hg.2.1 ((canonical_iff n).mp h))] at this
    exact this
  unfold refValue
  have hbar : (refMatch at_ pos n).bar = false := rfl
  have hbang : (refMatch at_ pos n).bang = false := rfl
  simp only [hbar, hbang, Bool.false_eq_true, if_false, h1]
  rw [strip_name fun c hc => (hg.2.2 c hc).2.2.2]
  cases lookupVar n vars <;> rfl

/-! ### What templates stand for -/

theorem textMeaning_nil (enc : List Str → Str) (val : Str → Option Meaning) :
    textMeaning enc val [] = some [] := rfl

theorem textMeaning_cons {enc : List Str → Str} {val : Str → Option Meaning} {p : TextPiece}
    {ps : List TextPiece} {w : Str} : textMeaning enc val (p :: ps) = some w ↔
      ∃ a b, p.meaning enc val = some a ∧ textMeaning enc val ps = some b ∧ w = a ++ b := by
  unfold textMeaning
  rw [List.mapM_cons]
  cases h1 : p.meaning enc val with
  | none => simp [bind, Option.bind]
  | some a =>
    cases h2 : List.mapM (TextPiece.meaning enc val) ps with
    | none => simp [bind, Option.bind]
    | some bs => simp [bind, Option.bind, pure, eq_comm]

theorem itemsMeaning_cons {enc : List Str → Str} {val : Str → Option Meaning} {p : Item}
    {ps : List Item} {w : List Str} : itemsMeaning enc val (p :: ps) = some w ↔
      ∃ a b, p.meaning enc val = some a ∧ itemsMeaning enc val ps = some b ∧ w = a ++ b := by
  unfold itemsMeaning
  rw [List.mapM_cons]
  cases h1 : p.meaning enc val with
  | none => simp [bind, Option.bind]
  | some a =>
    cases h2 : List.mapM (Item.meaning enc val) ps with
    | none => simp [bind, Option.bind]
    | some bs => simp [bind, Option.bind, pure, eq_comm]

theorem textMeaning_append {enc : List Str → Str} {val : Str → Option Meaning} :
    ∀ {ps qs : List TextPiece} {w : Str}, textMeaning enc val (ps ++ qs) = some w ↔
      ∃ a b, textMeaning enc val ps = some a ∧ textMeaning enc val qs = some b ∧ w = a ++ b
  | [], qs, w => by simp [textMeaning_nil]
  | p :: ps, qs, w => by
    rw [List.cons_append, textMeaning_cons]
    constructor
    · rintro ⟨a, b, h1, h2, rfl⟩
      obtain ⟨c, d, h3, h4, rfl⟩ := textMeaning_append.mp h2
      exact ⟨a ++ c, d, textMeaning_cons.mpr ⟨a, c, h1, h3, rfl⟩, h4, by simp⟩
    · rintro ⟨a, b, h1, h2, rfl⟩
      obtain ⟨c, d, h3, h4, rfl⟩ := textMeaning_cons.mp h1
      exact ⟨c, d ++ b, h3, textMeaning_append.mpr ⟨d, b, h4, h2, rfl⟩, by simp⟩

theorem textMeaning_isSome {enc : List Str → Str} {val : Str → Option Meaning} :
    ∀ {ps : List TextPiece}, (∃ w, textMeaning enc val ps = some w) ↔
      ∀ n ∈ refNames ps, ∃ m, val n = some m
  | [] => by simp [textMeaning_nil, refNames]
  | .text t :: ps => by
    simp only [textMeaning_cons, refNames]
    rw [← textMeaning_isSome]
    constructor
    · rintro ⟨w, a, b, h1, h2, rfl⟩; exact ⟨b, h2⟩
    · rintro ⟨b, h2⟩; exact ⟨_, t, b, rfl, h2, rfl⟩
  | .ref n :: ps => by
    simp only [textMeaning_cons, refNames, List.mem_cons, forall_eq_or_imp]
    rw [← textMeaning_isSome]
    constructor
    · rintro ⟨w, a, b, h1, h2, rfl⟩
      refine ⟨?_, b, h2⟩
      simp only [TextPiece.meaning] at h1
      cases hv : val n with
      | none => simp [hv] at h1
      | some m => exact ⟨m, rfl⟩
    · rintro ⟨⟨m, hm⟩, b, h2⟩
      cases m with
      | scalar s => exact ⟨_, s, b, by simp [TextPiece.meaning, hm], h2, rfl⟩
      | list l => exact ⟨_, enc l, b, by simp [TextPiece.meaning, hm], h2, rfl⟩

theorem piece_mono {enc : List Str → Str} {val val' : Str → Option Meaning}
    (h : ∀ n m, val n = some m → val' n = some m) {p : TextPiece} {w : Str}
    (hp : p.meaning enc val = some w) : p.meaning enc val' = some w := by
  cases p with
  | text t => exact hp
  | ref n =>
    simp only [TextPiece.meaning] at hp ⊢
    cases hv : val n with
    | none => simp [hv] at hp
    | some m => rw [hv] at hp; rw [h n m hv]; exact hp

theorem text_mono {enc : List Str → Str} {val val' : Str → Option Meaning}
    (h : ∀ n m, val n = some m → val' n = some m) : ∀ {ps : List TextPiece} {w : Str},
    textMeaning enc val ps = some w → textMeaning enc val' ps = some w
  | [], _, hp => hp
  | p :: ps, w, hp => by
    obtain ⟨a, b, h1, h2, rfl⟩ := textMeaning_cons.mp hp
    exact textMeaning_cons.mpr ⟨a, b, piece_mono h h1, text_mono h h2, rfl⟩

theorem item_mono {enc : List Str → Str} {val val' : Str → Option Meaning}
    (h : ∀ n m, val n = some m → val' n = some m) {p : Item} {w : List Str}
    (hp : p.meaning enc val = some w) : p.meaning enc val' = some w := by
  cases p with
  | str ps =>
    simp only [Item.meaning] at hp ⊢
    cases hv : textMeaning enc val ps with
    | none => simp [hv] at hp
    | some m => rw [hv] at hp; rw [text_mono h hv]; exact hp
  | splice n =>
    simp only [Item.meaning] at hp ⊢
    cases hv : val n with
    | none => simp [hv] at hp
    | some m => rw [hv] at hp; rw [h n m hv]; exact hp

theorem items_mono {enc : List Str → Str} {val val' : Str → Option Meaning}
    (h : ∀ n m, val n = some m → val' n = some m) : ∀ {ps : List Item} {w : List Str},
    itemsMeaning enc val ps = some w → itemsMeaning enc val' ps = some w
  | [], _, hp => hp
  | p :: ps, w, hp => by
    obtain ⟨a, b, h1, h2, rfl⟩ := itemsMeaning_cons.mp hp
    exact itemsMeaning_cons.mpr ⟨a, b, item_mono h h1, items_mono h h2, rfl⟩

theorem var_mono (enc : List Str → Str) (tbl : Str → Option Template) : ∀ (d : Nat) (n : Str) (m : Meaning),
    varMeaning enc tbl d n = some m → varMeaning enc tbl (d + 1) n = some m
  | 0, _, _, h => by cases h
  | d + 1, n, m, h => by
    rw [varMeaning] at h ⊢
    cases ht : tbl n with
    | none => simp [ht] at h
    | some t =>
      rw [ht] at h
      cases t with
      | scalar ps =>
        simp only at h ⊢
        cases hv : textMeaning enc (varMeaning enc tbl d) ps with
        | none => simp [hv] at h
        | some w => rw [hv] at h; rw [text_mono (var_mono enc tbl d) hv]; exact h
      | list items =>
        simp only at h ⊢
        cases hv : itemsMeaning enc (varMeaning enc tbl d) items with
        | none => simp [hv] at h
        | some w => rw [hv] at h; rw [items_mono (var_mono enc tbl d) hv]; exact h

theorem var_mono_le (enc : List Str → Str) (tbl : Str → Option Template) {d d' : Nat} (h : d ≤ d') :
    ∀ (n : Str) (m : Meaning), varMeaning enc tbl d n = some m → varMeaning enc tbl d' n = some m := by
  induction h with
  | refl => intro n m h; exact h
  | step _ ih => intro n m h; exact var_mono _ _ _ _ _ (ih n m h)

theorem var_scalar {enc : List Str → Str} {tbl : Str → Option Template} {d : Nat} {n : Str} {w : Str}
    (h : varMeaning enc tbl (d + 1) n = some (.scalar w)) :
    ∃ ps, tbl n = some (.scalar ps) ∧ textMeaning enc (varMeaning enc tbl d) ps = some w := by
  rw [varMeaning] at h
  cases ht : tbl n with
  | none => simp [ht] at h
  | some t =>
    rw [ht] at h
    cases t with
    | scalar ps => exact ⟨ps, rfl, by simpa using h⟩
    | list items => simp at h

theorem var_list {enc : List Str → Str} {tbl : Str → Option Template} {d : Nat} {n : Str} {l : List Str}
    (h : varMeaning enc tbl (d + 1) n = some (.list l)) :
    ∃ items, tbl n = some (.list items) ∧ itemsMeaning enc (varMeaning enc tbl d) items = some l := by
  rw [varMeaning] at h
  cases ht : tbl n with
  | none => simp [ht] at h
  | some t =>
    rw [ht] at h
    cases t with
    | scalar ps => simp at h
    | list items => exact ⟨items, rfl, by simpa using h⟩

/-- No text that a variable stands for contains the symbol. -/
def NoSym (sym : Char) : Meaning → Prop
  | .scalar s => sym ∉ s
  | .list l => ∀ s ∈ l, sym ∉ s

theorem text_no_sym {space : Char → Bool} {sym : Char} (hs : PhaseSymbol sym)
    {val : Str → Option Meaning} (hv : ∀ n m, val n = some m → NoSym sym m) :
    ∀ {ps : List TextPiece} {w : Str}, (∀ p ∈ ps, GoodPiece space sym p) →
    textMeaning EncodePOSIXShellList val ps = some w → sym ∉ w
  | [], w, _, h => by
    rw [textMeaning_nil] at h
    cases h
    simp
  | p :: ps, w, hg, h => by
    obtain ⟨a, b, h1, h2, rfl⟩ := textMeaning_cons.mp h
    have hb := text_no_sym hs hv (fun p hp => hg p (by simp [hp])) h2
    intro hm
    rcases List.mem_append.mp hm with hm | hm
    · have hp := hg p (by simp)
      cases p with
      | text t => cases h1; exact hp hm
      | ref n =>
        simp only [TextPiece.meaning] at h1
        cases hn : val n with
        | none => simp [hn] at h1
        | some m =>
          have := hv n m hn
          rw [hn] at h1
          cases m with
          | scalar s => cases h1; exact this hm
          | list l => cases h1; exact encode_no_sym hs this hm
    · exact hb hm

theorem items_no_sym {space : Char → Bool} {sym : Char} (hs : PhaseSymbol sym)
    {val : Str → Option Meaning} (hv : ∀ n m, val n = some m → NoSym sym m) :
    ∀ {items : List Item} {l : List Str}, (∀ i ∈ items, GoodItem space sym i) →
    itemsMeaning EncodePOSIXShellList val items = some l → ∀ s ∈ l, sym ∉ s
  | [], l, _, h => by
    cases h
    simp
  | i :: items, l, hg, h => by
    obtain ⟨a, b, h1, h2, rfl⟩ := itemsMeaning_cons.mp h
    have hb := items_no_sym hs hv (fun p hp => hg p (by simp [hp])) h2
    intro s hm
    rcases List.mem_append.mp hm with hm | hm
    · have hi := hg i (by simp)
      cases i with
      | str ps =>
        simp only [Item.meaning] at h1
        cases ht : textMeaning EncodePOSIXShellList val ps with
        | none => simp [ht] at h1
        | some w =>
          rw [ht] at h1
          cases h1
          rw [List.mem_singleton.mp hm]
          exact text_no_sym hs hv hi ht
      | splice n =>
        simp only [Item.meaning] at h1
        cases hn : val n with
        | none => simp [hn] at h1
        | some m =>
          have := hv n m hn
          rw [hn] at h1
          cases m with
          | scalar s => simp at h1
          | list l => cases h1; exact this s hm
    · exact hb s hm

theorem var_no_sym {space : Char → Bool} {sym : Char} (hs : PhaseSymbol sym)
    {tbl : Str → Option Template} (hT : ∀ n t, tbl n = some t → GoodTemplate space sym t) :
    ∀ (d : Nat) (n : Str) (m : Meaning), varMeaning EncodePOSIXShellList tbl d n = some m → NoSym sym m
  | 0, _, _, h => by cases h
  | d + 1, n, .scalar w, h => by
    obtain ⟨ps, h1, h2⟩ := var_scalar h
    exact text_no_sym hs (var_no_sym hs hT d) (hT n _ h1) h2
  | d + 1, n, .list l, h => by
    obtain ⟨items, h1, h2⟩ := var_list h
    exact items_no_sym hs (var_no_sym hs hT d) (hT n _ h1) h2

/-! ### Expanding templates -/

/-- What the theorems assume about the variables. -/
structure Setting (env : ExpEnv) (vars : Dict) (tbl : Str → Option Template) : Prop where
  sym : PhaseSymbol env.sym
  good : ∀ n t, tbl n = some t → GoodTemplate env.space env.sym t
  writes : WritesTable env.sym vars tbl

/-- Texts up to this depth are expanded. -/
def TextsDone (env : ExpEnv) (vars : Dict) (tbl : Str → Option Template) (d : Nat) : Prop :=
  ∀ f, 2 * d ≤ f → ∀ ps w, (∀ p ∈ ps, GoodPiece env.space env.sym p) →
    textMeaning EncodePOSIXShellList (varMeaning EncodePOSIXShellList tbl d) ps = some w →
    (recs env (f + 1)).expand (.str (render env.sym ps)) vars = .ok (toInt (.str w))

/-- Items up to this depth are expanded. -/
def ItemsDone (env : ExpEnv) (vars : Dict) (tbl : Str → Option Template) (d : Nat) : Prop :=
  ∀ f, 2 * d ≤ f → ∀ items vs l, (∀ i ∈ items, GoodItem env.space env.sym i) →
    List.Forall₂ (WritesItem env.sym) vs items →
    itemsMeaning EncodePOSIXShellList (varMeaning EncodePOSIXShellList tbl d) items = some l →
    procListStep (recs env (f + 1)) vs vars = .ok (l.map fun s => toInt (.str s))

theorem writesItem_scalar {sym : Char} {v : Val} {i : Item} (h : WritesItem sym v i) :
    v.isScalar = true := by
  cases i with
  | str ps =>
    rcases h with rfl | ⟨i, rfl, _⟩ <;> rfl
  | splice n => cases h; rfl

theorem items_scalar {sym : Char} : ∀ {vs : List Val} {items : List Item},
    List.Forall₂ (WritesItem sym) vs items → vs.any (fun v => !v.isScalar) = false
  | _, _, .nil => rfl
  | _, _, .cons h t => by simp [writesItem_scalar h, items_scalar t]

theorem strOf_map (env : ExpEnv) (l : List Str) :
    (l.map fun s => toInt (.str s)).map env.strOf = l := by
  rw [List.map_map]
  conv => rhs; rw [← List.map_id l]
  apply List.map_congr_left
  intro s _
  exact strOf_toInt env s

theorem lookup_found {n : Str} {vars : Dict} {v : Val} (h : Dict.get? vars n = some v) :
    lookupVar n vars = .ok v := by
  unfold lookupVar
  rw [h]

theorem check_list {env : ExpEnv} {f : Nat} {n : Str} {vars : Dict} {vs : List Val} {l : List Val}
    (hn : n ≠ []) (hs : vs.any (fun v => !v.isScalar) = false)
    (hp : (recs env f).procList vs vars = .ok l) :
    checkReplacement (recs env f) n vars (.list vs) = .ok (.list l) := by
  simp only [checkReplacement]
  rw [if_neg (by simp [hn]), if_neg (by simp [hs]), hp]

theorem refOpen_false (sym : Char) : refOpen sym false = [sym] := rfl

theorem render_ref (sym : Char) (n : Str) :
    TextPiece.render sym (.ref n) = refOpen sym false ++ '(' :: (n ++ [')']) := rfl

theorem pyIndex_nat {len i : Nat} (h : i ≤ len) : pyIndex len (i : Int) = i := by
  unfold pyIndex
  rw [if_neg (by omega)]
  simp [h]

/-- One reference in a text is replaced by the text of the value. -/
theorem expandMatch_ref {env : ExpEnv} {vars : Dict} {f : Nat} {n : Str} {v v' : Val}
    (hsym : PhaseSymbol env.sym) (hg : GoodName env.space env.sym n) (hf : f ≠ 0)
    (hv : Dict.get? vars n = some v) (hc : checkReplacement (recs env f) n vars v = .ok v')
    (before tail : Str) :
    expandMatch env (recs env f) vars (refMatch false before.length n)
      (before ++ (TextPiece.render env.sym (.ref n) ++ tail)) =
      .ok (.str (before ++ (encodeReplacement env v' ++ tail))) := by
  have hspan := refSpan_ref hsym (at_ := false) (n := n) (fun c hc => (hg.2.2 c hc).1) before tail
  rw [← render_ref] at hspan
  unfold expandMatch
  rw [hspan]
  simp only
  rw [refValue_name hg hf, lookup_found hv]
  simp only
  rw [hc]
  have hat : (refMatch false before.length n).at_ = false := rfl
  have hst : (refMatch false before.length n).start = before.length := rfl
  simp only [hat, Bool.false_and, Bool.false_eq_true, if_false, hst]
  have e1 : (before.length : Int) + (refOpen env.sym false).length + n.length + 2 =
      ((before ++ TextPiece.render env.sym (.ref n)).length : Nat) := by
    rw [List.length_append, ref_length, refOpen_false]
    simp
    omega
  rw [e1, pyIndex_nat (by simp), List.take_left, ← List.append_assoc, List.drop_left]
  simp

theorem inline_ref {env : ExpEnv} {vars : Dict} {tbl : Str → Option Template} {d f : Nat} {n : Str}
    {w : Str} (S : Setting env vars tbl) (hi : ItemsDone env vars tbl d) (hf : 2 * d + 2 ≤ f)
    (hg : GoodName env.space env.sym n)
    (hw : TextPiece.meaning EncodePOSIXShellList (varMeaning EncodePOSIXShellList tbl (d + 1)) (.ref n) =
      some w) :
    ∃ qs, (∀ p ∈ qs, GoodPiece env.space env.sym p) ∧
      textMeaning EncodePOSIXShellList (varMeaning EncodePOSIXShellList tbl d) qs = some w ∧
      ∀ before tail, expandMatch env (recs env f) vars (refMatch false before.length n)
        (before ++ (TextPiece.render env.sym (.ref n) ++ tail)) =
        .ok (.str (before ++ (render env.sym qs ++ tail))) := by
  have hf0 : f ≠ 0 := by omega
  simp only [TextPiece.meaning] at hw
  cases hm : varMeaning EncodePOSIXShellList tbl (d + 1) n with
  | none => simp [hm] at hw
  | some m =>
    rw [hm] at hw
    cases m with
    | scalar s =>
      cases hw
      obtain ⟨ps, ht, hps⟩ := var_scalar hm
      obtain ⟨v, hv, hwr⟩ := S.writes n _ ht
      refine ⟨ps, S.good n _ ht, hps, fun before tail => ?_⟩
      rcases hwr with rfl | ⟨i, rfl, rfl⟩
      · exact expandMatch_ref S.sym hg hf0 hv rfl before tail
      · have := expandMatch_ref S.sym hg hf0 hv rfl before tail
        rw [this]
        simp [encodeReplacement, ExpEnv.strOf, render, TextPiece.render]
    | list l =>
      cases hw
      obtain ⟨items, ht, hl⟩ := var_list hm
      obtain ⟨v, hv, vs, rfl, hvs⟩ := S.writes n _ ht
      have hns := items_no_sym S.sym (var_no_sym S.sym S.good d) (S.good n _ ht) hl
      refine ⟨[.text (EncodePOSIXShellList l)], ?_, ?_, fun before tail => ?_⟩
      · intro p hp
        rw [List.mem_singleton.mp hp]
        exact encode_no_sym S.sym hns
      · exact textMeaning_cons.mpr ⟨_, _, rfl, textMeaning_nil _ _, by simp⟩
      · obtain ⟨g, rfl⟩ : ∃ g, f = g + 2 := ⟨f - 2, by omega⟩
        have hp : (recs env (g + 2)).procList vs vars = .ok (l.map fun s => toInt (.str s)) :=
          hi g (by omega) items vs l (S.good n _ ht) hvs hl
        have := expandMatch_ref S.sym hg hf0 hv (check_list hg.1 (items_scalar hvs) hp) before tail
        rw [this]
        simp only [encodeReplacement]
        rw [strOf_map]
        simp [render, TextPiece.render]

/-- One pass over a text: every reference is replaced, with one level less to go. -/
theorem one_pass {env : ExpEnv} {vars : Dict} {tbl : Str → Option Template} {d f : Nat}
    (S : Setting env vars tbl) (hi : ItemsDone env vars tbl d) (hf : 2 * d + 2 ≤ f) (ps : List TextPiece) :
    ∀ w, (∀ p ∈ ps, GoodPiece env.space env.sym p) →
    textMeaning EncodePOSIXShellList (varMeaning EncodePOSIXShellList tbl (d + 1)) ps = some w →
    ∃ qs, (∀ p ∈ qs, GoodPiece env.space env.sym p) ∧
      textMeaning EncodePOSIXShellList (varMeaning EncodePOSIXShellList tbl d) qs = some w ∧
      ∀ tail, expandMatches env (recs env f) vars (matchesOf 0 ps).reverse
        (.str (render env.sym ps ++ tail)) = .ok (.str (render env.sym qs ++ tail)) := by
  induction ps using List.reverseRecOn with
  | nil =>
    intro w _ h
    refine ⟨[], by simp, ?_, fun tail => rfl⟩
    rw [textMeaning_nil] at h ⊢
    exact h
  | append_singleton ps p ih =>
    intro w hg h
    obtain ⟨a, b, ha, hb, rfl⟩ := textMeaning_append.mp h
    obtain ⟨b1, b2, hb1, hb2, rfl⟩ := textMeaning_cons.mp hb
    rw [textMeaning_nil] at hb2
    cases hb2
    rw [List.append_nil]
    obtain ⟨qs, hq1, hq2, hq3⟩ := ih a (fun p hp => hg p (by simp [hp])) ha
    have hgp := hg p (by simp)
    cases p with
    | text t =>
      have hb1 : b1 = t := (Option.some.inj hb1).symm
      rw [hb1] at hb ⊢
      refine ⟨qs ++ [.text t], ?_, ?_, fun tail => ?_⟩
      · intro p hp
        rcases List.mem_append.mp hp with hp | hp
        · exact hq1 p hp
        · rw [List.mem_singleton.mp hp]; exact hgp
      · exact textMeaning_append.mpr ⟨a, t, hq2, textMeaning_cons.mpr ⟨t, [], rfl, textMeaning_nil _ _,
          by simp⟩, rfl⟩
      · rw [matchesOf_append 0 env.sym, render_append, render_append]
        have e : matchesOf (0 + (render env.sym ps).length) [.text t] = [] := rfl
        have e2 : render env.sym [.text t] = t := by simp [render, TextPiece.render]
        rw [e, e2, List.append_nil, List.append_assoc, List.append_assoc]
        exact hq3 _
    | ref n =>
      obtain ⟨rs, hr1, hr2, hr3⟩ := inline_ref S hi hf hgp hb1
      refine ⟨qs ++ rs, ?_, textMeaning_append.mpr ⟨a, b1, hq2, hr2, rfl⟩, fun tail => ?_⟩
      · intro p hp
        rcases List.mem_append.mp hp with hp | hp
        · exact hq1 p hp
        · exact hr1 p hp
      · rw [matchesOf_append 0 env.sym, render_append, render_append, Nat.zero_add]
        have e : matchesOf (render env.sym ps).length [.ref n] =
          [refMatch false (render env.sym ps).length n] := rfl
        have e2 : render env.sym [.ref n] = TextPiece.render env.sym (.ref n) := by simp [render]
        rw [e, e2, List.reverse_append, List.append_assoc, List.append_assoc]
        simp only [List.reverse_cons, List.reverse_nil, List.nil_append, List.singleton_append,
          expandMatches]
        rw [hr3]
        exact hq3 _

theorem no_refs_text {env : ExpEnv} : ∀ {ps : List TextPiece},
    (∀ p ∈ ps, GoodPiece env.space env.sym p) → refNames ps = [] → env.sym ∉ render env.sym ps
  | [], _, _ => by simp [render]
  | .text t :: ps, h, hr => by
    rw [render_cons]
    intro hm
    rcases List.mem_append.mp hm with hm | hm
    · exact h (.text t) (by simp) hm
    · exact no_refs_text (ps := ps) (fun p hp => h p (by simp [hp])) hr hm
  | .ref n :: ps, _, hr => by simp [refNames] at hr

theorem refs_sym {sym : Char} : ∀ {ps : List TextPiece}, refNames ps ≠ [] → sym ∈ render sym ps
  | [], h => by simp [refNames] at h
  | .text t :: ps, h => by
    rw [render_cons]
    exact List.mem_append_right _ (refs_sym h)
  | .ref n :: ps, _ => by
    rw [render_cons]
    simp [TextPiece.render]

theorem no_refs_render {sym : Char} {val : Str → Option Meaning} : ∀ {ps : List TextPiece} {w : Str},
    refNames ps = [] → textMeaning EncodePOSIXShellList val ps = some w → w = render sym ps
  | [], w, _, h => by cases h; rfl
  | .text t :: ps, w, hr, h => by
    obtain ⟨a, b, h1, h2, rfl⟩ := textMeaning_cons.mp h
    cases h1
    rw [render_cons, no_refs_render (sym := sym) (ps := ps) hr h2]
    rfl
  | .ref n :: ps, _, hr, _ => by simp [refNames] at hr

/-- The names are determined by the text. -/
theorem refNames_render {env : ExpEnv} {ps qs : List TextPiece}
    (hp : ∀ p ∈ ps, GoodPiece env.space env.sym p) (hq : ∀ p ∈ qs, GoodPiece env.space env.sym p)
    (h : render env.sym ps = render env.sym qs) : refNames ps = refNames qs := by
  have h1 := names_of_matches env.sym (render env.sym ps) ps [] rfl
  have h2 := names_of_matches env.sym (render env.sym qs) qs [] rfl
  rw [List.length_nil, ← findRefs_render ps hp] at h1
  rw [List.length_nil, ← findRefs_render qs hq] at h2
  rw [← h1, ← h2, h]

theorem texts_done {env : ExpEnv} {vars : Dict} {tbl : Str → Option Template}
    (S : Setting env vars tbl) (d : Nat) (ht : ∀ e, e < d → TextsDone env vars tbl e)
    (hi : ∀ e, e < d → ItemsDone env vars tbl e) : TextsDone env vars tbl d := by
  intro f hf ps w hg hw
  by_cases hr : refNames ps = []
  · have h1 := no_refs_render (sym := env.sym) hr hw
    have h2 := no_refs_text hg hr
    rw [h1]
    exact expandStep_plain h2
  by_cases hlow : ∃ e, e < d ∧ ∃ w', textMeaning EncodePOSIXShellList
      (varMeaning EncodePOSIXShellList tbl e) ps = some w'
  · obtain ⟨e, he, w', hw'⟩ := hlow
    have : w' = w := by
      have := text_mono (var_mono_le EncodePOSIXShellList tbl (Nat.le_of_lt he)) hw'
      rw [hw] at this
      cases this; rfl
    subst this
    exact ht e he f (by omega) ps w' hg hw'
  cases d with
  | zero =>
    exfalso
    obtain ⟨n, hn⟩ := List.exists_mem_of_ne_nil _ hr
    obtain ⟨m, hm⟩ := textMeaning_isSome.mp ⟨w, hw⟩ n hn
    cases hm
  | succ d =>
    obtain ⟨qs, hq1, hq2, hq3⟩ := one_pass S (hi d (by omega)) (by omega : 2 * d + 2 ≤ f) ps w hg hw
    have hne : render env.sym ps ≠ render env.sym qs := by
      intro e
      have hn := refNames_render hg hq1 e
      apply hlow
      refine ⟨d, by omega, ?_⟩
      rw [textMeaning_isSome, hn, ← textMeaning_isSome]
      exact ⟨w, hq2⟩
    have hsym := refs_sym (sym := env.sym) hr
    have hfind := findRefs_render ps hg 0
    have hms : findRefs env 0 0 (render env.sym ps) ≠ [] := by
      rw [hfind]
      intro h
      exact hr (matchesOf_nil.mp h)
    have hpass := hq3 []
    rw [List.append_nil, List.append_nil] at hpass
    have hagain : (recs env f).expand (.str (render env.sym qs)) vars = .ok (toInt (.str w)) := by
      obtain ⟨g, rfl⟩ : ∃ g, f = g + 1 := ⟨f - 1, by omega⟩
      exact ht d (by omega) g (by omega) qs w hq1 hq2
    change expandStep env (recs env f) (.str (render env.sym ps)) vars = _
    rw [expandStep_str, if_neg (by rw [sym_not_number S.sym hsym]; simp), if_neg (by simpa using hsym),
      if_neg hms, hfind, hpass]
    simp only [expandAgain]
    rw [if_neg (by simpa [Val.scalarEq] using hne), hagain]
    simp only
    rw [finish_scalar (toInt_scalar w), toInt_toInt]

theorem splice_open (sym : Char) (n : Str) :
    renderSplice sym n = [] ++ (refOpen sym true ++ '(' :: (n ++ [')']) ++ []) := by
  simp [renderSplice, refOpen]

/-- `<@(name)` as a whole item stands for the items of the list. -/
theorem splice_done {env : ExpEnv} {vars : Dict} {tbl : Str → Option Template} {d f : Nat} {n : Str}
    {l : List Str} (S : Setting env vars tbl) (hi : ItemsDone env vars tbl d) (hf : 2 * d + 2 ≤ f)
    (hg : GoodName env.space env.sym n)
    (hm : varMeaning EncodePOSIXShellList tbl (d + 1) n = some (.list l)) :
    expandStep env (recs env f) (.str (renderSplice env.sym n)) vars =
      .ok (.list (l.map fun s => toInt (.str s))) := by
  have hf0 : f ≠ 0 := by omega
  obtain ⟨items, ht, hl⟩ := var_list hm
  obtain ⟨v, hv, vs, rfl, hvs⟩ := S.writes n _ ht
  have hns := items_no_sym S.sym (var_no_sym S.sym S.good d) (S.good n _ ht) hl
  obtain ⟨g, rfl⟩ : ∃ g, f = g + 2 := ⟨f - 2, by omega⟩
  have hp : (recs env (g + 2)).procList vs vars = .ok (l.map fun s => toInt (.str s)) :=
    hi g (by omega) items vs l (S.good n _ ht) hvs hl
  have hc := check_list hg.1 (items_scalar hvs) hp
  have hsym : env.sym ∈ renderSplice env.sym n := by simp [renderSplice]
  have hspan := refSpan_ref S.sym (at_ := true) (n := n) (fun c hc => (hg.2.2 c hc).1) [] []
  rw [← splice_open] at hspan
  have htext : refOpen env.sym true ++ '(' :: (n ++ [')']) = renderSplice env.sym n := by
    simp [renderSplice, refOpen]
  rw [htext] at hspan
  have hmatch : expandMatch env (recs env (g + 2)) vars (refMatch true 0 n) (renderSplice env.sym n) =
      .ok (.list (l.map fun s => toInt (.str s))) := by
    unfold expandMatch
    have e0 : refMatch true 0 n = refMatch true ([] : Str).length n := rfl
    rw [e0, hspan]
    simp only
    rw [refValue_name hg hf0, lookup_found hv]
    simp only
    rw [hc]
    have hat : (refMatch true ([] : Str).length n).at_ = true := rfl
    rw [hat]
    simp
  rw [expandStep_str, if_neg (by rw [sym_not_number S.sym hsym]; simp), if_neg (by simpa using hsym),
    findRefs_splice hg, if_neg (by simp)]
  simp only [List.reverse_cons, List.reverse_nil, List.nil_append, expandMatches]
  rw [hmatch]
  simp only [expandAgain]
  have hfl : firstIsList (l.map fun s => toInt (.str s)) = false := by
    cases l with
    | nil => rfl
    | cons s l =>
      simp only [List.map_cons]
      rw [toInt_str]
      split <;> rfl
  have hmap : (l.map fun s => toInt (.str s)).mapM (fun item => (recs env (g + 2)).expand item vars) =
      .ok (l.map fun s => toInt (.str s)) := by
    apply mapM_of_forall₂
    rw [List.forall₂_same]
    intro x hx
    obtain ⟨s, hs, rfl⟩ := List.mem_map.mp hx
    exact expandStep_toInt (hns s hs)
  rw [hfl]
  simp only [Bool.false_eq_true, if_false]
  rw [hmap]
  simp only [finish, List.map_map]
  congr 2
  apply List.map_congr_left
  intro s _
  exact toInt_toInt _

theorem procItem_scalar {r : Rec} {vars : Dict} {s w : Str}
    (h : r.expand (.str s) vars = .ok (toInt (.str w))) :
    procItem r vars (.str s) = .ok [toInt (.str w)] := by
  simp only [procItem]
  rw [h, toInt_str]
  split <;> rename_i heq
  · cases heq
  · split at heq <;> cases heq
  · split at heq <;> cases heq
    simp [*]
  · split at heq <;> cases heq
    simp [*]
  · rename_i h1 h2 h3
    split at heq
    · cases heq
      exact absurd rfl (h3 _)
    · cases heq
      exact absurd rfl (h2 _)

theorem item_done {env : ExpEnv} {vars : Dict} {tbl : Str → Option Template} (S : Setting env vars tbl)
    (d : Nat) (ht : TextsDone env vars tbl d) (hi : ∀ e, e < d → ItemsDone env vars tbl e) (f : Nat)
    (hf : 2 * d ≤ f) (i : Item) (v : Val) (l : List Str) (hg : GoodItem env.space env.sym i)
    (hw : WritesItem env.sym v i)
    (hm : Item.meaning EncodePOSIXShellList (varMeaning EncodePOSIXShellList tbl d) i = some l) :
    procItem (recs env (f + 1)) vars v = .ok (l.map fun s => toInt (.str s)) := by
  cases i with
  | str ps =>
    simp only [Item.meaning] at hm
    cases hx : textMeaning EncodePOSIXShellList (varMeaning EncodePOSIXShellList tbl d) ps with
    | none => simp [hx] at hm
    | some w =>
      rw [hx] at hm
      cases hm
      rcases hw with rfl | ⟨i, rfl, rfl⟩
      · exact procItem_scalar (ht f hf ps w hg hx)
      · obtain ⟨a, b, h1, h2, rfl⟩ := textMeaning_cons.mp hx
        rw [textMeaning_nil] at h2
        cases h1
        cases h2
        simp only [procItem, List.append_nil, List.map_cons, List.map_nil]
        rw [toInt_str, if_pos ((canonical_iff _).mpr ⟨i, rfl⟩), (C30_roundtrip _ i rfl).1]
  | splice n =>
    cases d with
    | zero => simp [Item.meaning, varMeaning] at hm
    | succ d =>
      simp only [Item.meaning] at hm
      cases hx : varMeaning EncodePOSIXShellList tbl (d + 1) n with
      | none => simp [hx] at hm
      | some m =>
        rw [hx] at hm
        cases m with
        | scalar s => simp at hm
        | list l' =>
          cases hm
          cases hw
          simp only [procItem]
          have := splice_done S (hi d (by omega)) (by omega : 2 * d + 2 ≤ f) hg hx
          rw [show (recs env (f + 1)).expand (.str (renderSplice env.sym n)) vars =
            expandStep env (recs env f) (.str (renderSplice env.sym n)) vars from rfl, this]

theorem items_done {env : ExpEnv} {vars : Dict} {tbl : Str → Option Template} (S : Setting env vars tbl)
    (d : Nat) (ht : TextsDone env vars tbl d) (hi : ∀ e, e < d → ItemsDone env vars tbl e) :
    ItemsDone env vars tbl d := by
  intro f hf items vs l hg hw hm
  have key : ∃ ls, vs.mapM (procItem (recs env (f + 1)) vars) = .ok ls ∧
      ls.flatten = l.map fun s => toInt (.str s) := by
    induction hw generalizing l with
    | nil => cases hm; exact ⟨[], rfl, rfl⟩
    | cons h t ih =>
      obtain ⟨a, b, h1, h2, rfl⟩ := itemsMeaning_cons.mp hm
      obtain ⟨ls, h3, h4⟩ := ih b (fun i hi => hg i (by simp [hi])) h2
      refine ⟨(a.map fun s => toInt (.str s)) :: ls, ?_, by simp [h4]⟩
      rw [List.mapM_cons, item_done S d ht hi f hf _ _ a (hg _ (by simp)) h h1]
      simp only [bind, Except.bind, h3]
      rfl
  obtain ⟨ls, h1, h2⟩ := key
  unfold procListStep
  rw [h1]
  simp only
  rw [h2]

theorem all_done {env : ExpEnv} {vars : Dict} {tbl : Str → Option Template} (S : Setting env vars tbl) :
    ∀ d, TextsDone env vars tbl d ∧ ItemsDone env vars tbl d := by
  intro d
  induction d using Nat.strongRecOn with
  | _ d ih =>
    have ht := texts_done S d (fun e he => (ih e he).1) (fun e he => (ih e he).2)
    exact ⟨ht, items_done S d ht fun e he => (ih e he).2⟩

end Gyp
