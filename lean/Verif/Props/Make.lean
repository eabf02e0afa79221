import Verif.Props.ShellQuote
import Verif.Spec.Make
import Mathlib.Data.List.Chain
/-
C40: defines written to a Makefile reach the compiler unchanged, through make's
line splicing, comment removal and expansion, and the shell.
-/
namespace Gyp
open Spec

theorem split1_cons (c : Char) (name t : Str) (h : c ∉ name) :
    split1 c (name ++ c :: t) = some (name, t) := by
  induction name with
  | nil => simp [split1]
  | cons x xs ih =>
    simp only [List.mem_cons, not_or] at h
    have : x ≠ c := fun e => h.1 e.symm
    simp [split1, this, ih h.2]

/-- `\#` does not occur. -/
def noBsHash (t : Str) : Prop := List.IsChain (fun a b => ¬ (a = '\\' ∧ b = '#')) t

theorem noBsHash_flatMap (f : Char → Str) (t : Str)
    (hf : ∀ c, ∃ d e u, f c = d :: u ∧ (f c).getLast? = some e ∧ (e = '\\' → c = '\\') ∧
      (d = '#' → c = '#') ∧ noBsHash (f c))
    (h : noBsHash t) : noBsHash (t.flatMap f) := by
  induction t with
  | nil => simp [noBsHash]
  | cons c cs ih =>
    obtain ⟨d, e, u, h1, h2, h3, h4, h5⟩ := hf c
    unfold noBsHash at h ⊢
    rw [List.isChain_cons] at h
    have ih := ih h.2
    rw [List.flatMap_cons, List.isChain_append]
    refine ⟨h5, ih, ?_⟩
    intro x hx y hy
    rw [h2] at hx
    cases hx
    rintro ⟨rfl, rfl⟩
    have hc := h3 rfl
    cases cs with
    | nil => simp at hy
    | cons c' cs' =>
      obtain ⟨d', e', u', g1, _, _, g4, _⟩ := hf c'
      rw [List.flatMap_cons, g1] at hy
      simp at hy
      have hc' := g4 hy
      exact h.1 c' rfl ⟨hc, hc'⟩

/-- Reading text in which every `#` is written `\#`. -/
theorem make_hash (t : Str) (p : Nat) (out : Str) (hnl : '\n' ∉ t) (hch : noBsHash t)
    (hp : 0 < p → t.head? ≠ some '#') :
    ∃ p' out', (replaceChar '#' c!"\\#" t).foldl makeStep ⟨.text, p, out⟩ = ⟨.text, p', out'⟩ ∧
      out' ++ List.replicate p' '\\' = out ++ List.replicate p '\\' ++ t ∧
      (∀ c, t.getLast? = some c → c ≠ '\\' → p' = 0) := by
  induction t generalizing p out with
  | nil => exact ⟨p, out, by simp [replaceChar], by simp, by simp⟩
  | cons c cs ih =>
    simp only [List.mem_cons, not_or] at hnl
    unfold noBsHash at hch
    rw [List.isChain_cons] at hch
    have hc : c ≠ '\n' := fun e => hnl.1 e.symm
    unfold replaceChar at ih ⊢
    rw [List.flatMap_cons, List.foldl_append]
    by_cases h1 : c = '#'
    · subst h1
      have hp0 : p = 0 := by
        rcases Nat.eq_zero_or_pos p with h | h
        · exact h
        · exact absurd rfl (hp h)
      subst hp0
      rw [if_pos rfl]
      have : (c!"\\#").foldl makeStep ⟨.text, 0, out⟩ = ⟨.text, 0, out ++ ['#']⟩ := by
        simp [makeStep, makeText]
      rw [this]
      obtain ⟨p', out', e1, e2, e3⟩ := ih 0 (out ++ ['#']) hnl.2 hch.2 (by omega)
      refine ⟨p', out', e1, by simpa using e2, ?_⟩
      intro d hd hd'
      cases cs with
      | nil => simp at e1; exact e1.1.symm
      | cons x xs => exact e3 d (by simpa [List.getLast?_cons_cons] using hd) hd'
    · rw [if_neg h1]
      by_cases h2 : c = '\\'
      · subst h2
        have : ['\\'].foldl makeStep ⟨.text, p, out⟩ = ⟨.text, p + 1, out⟩ := by
          simp [makeStep, makeText]
        rw [this]
        obtain ⟨p', out', e1, e2, e3⟩ := ih (p + 1) out hnl.2 hch.2
          (fun _ hh => hch.1 '#' hh ⟨rfl, rfl⟩)
        refine ⟨p', out', e1, ?_, ?_⟩
        · rw [e2, List.replicate_succ']; simp
        · intro d hd hd'
          cases cs with
          | nil => simp at hd; exact absurd hd.symm hd'
          | cons x xs => exact e3 d (by simpa [List.getLast?_cons_cons] using hd) hd'
      · have : [c].foldl makeStep ⟨.text, p, out⟩ =
            ⟨.text, 0, out ++ List.replicate p '\\' ++ [c]⟩ := by
          simp [makeStep, makeText, h1, h2, hc]
        rw [this]
        obtain ⟨p', out', e1, e2, e3⟩ := ih 0 (out ++ List.replicate p '\\' ++ [c]) hnl.2 hch.2
          (by omega)
        refine ⟨p', out', e1, by simpa using e2, ?_⟩
        intro d hd hd'
        cases cs with
        | nil => simp at e1; exact e1.1.symm
        | cons x xs => exact e3 d (by simpa [List.getLast?_cons_cons] using hd) hd'

/-- The two inner layers of `EscapeCppDefine`. -/
def inner (s : Str) : Str := EscapeMakeVariableExpansion (makeEscapeShellArgument s)

theorem inner_shape (s : Str) : ∃ u, inner s = '\'' :: u ∧ (inner s).getLast? = some '\'' := by
  unfold inner EscapeMakeVariableExpansion makeEscapeShellArgument replaceChar
  refine ⟨_, by simp; rfl, ?_⟩
  simp only [List.flatMap_append, List.getLast?_append]
  simp

theorem inner_noNl (s : Str) (h : '\n' ∉ s) : '\n' ∉ inner s := by
  unfold inner EscapeMakeVariableExpansion makeEscapeShellArgument replaceChar
  simp only [List.mem_flatMap, List.mem_append, List.mem_singleton, not_exists, not_and]
  intro c hc hn
  by_cases h1 : c = '$'
  · subst h1; simp at hn
  · rw [if_neg h1] at hn
    simp at hn
    subst hn
    rcases hc with (hc | hc) | hc
    · simp at hc
    · obtain ⟨d, hd, hn⟩ := hc
      by_cases h2 : d = '\''
      · subst h2; simp at hn
      · rw [if_neg h2] at hn
        simp at hn
        subst hn
        exact h hd
    · simp at hc

theorem inner_noBsHash (s : Str) (h : noBsHash s) : noBsHash (inner s) := by
  unfold inner EscapeMakeVariableExpansion makeEscapeShellArgument
  apply noBsHash_flatMap
  · intro c
    by_cases h1 : c = '$'
    · subst h1
      exact ⟨'$', '$', ['$'], rfl, rfl, by decide, by decide, by simp [noBsHash]⟩
    · rw [if_neg h1]
      exact ⟨c, c, [], rfl, rfl, id, id, by simp [noBsHash]⟩
  · have h1 : noBsHash (replaceChar '\'' c!"'\\''" s) := by
      apply noBsHash_flatMap _ _ _ h
      intro c
      by_cases h1 : c = '\''
      · subst h1
        exact ⟨'\'', '\'', c!"\\''", rfl, rfl, by decide, by decide, by simp [noBsHash]⟩
      · rw [if_neg h1]
        exact ⟨c, c, [], rfl, rfl, id, id, by simp [noBsHash]⟩
    unfold noBsHash at h1 ⊢
    rw [List.isChain_append, List.isChain_append]
    refine ⟨⟨by simp, h1, ?_⟩, by simp, ?_⟩
    · intro x hx y _ e
      simp at hx
      subst hx
      simp at e
    · intro x _ y hy e
      simp at hy
      subst hy
      simp at e

/-- One continued list item. -/
theorem make_item (s : Str) (out : Str) (hnl : '\n' ∉ s) (hch : noBsHash s)
    (hout : rstripBlanks (out ++ [' ']) = out) :
    (c!" \\\n\t" ++ EscapeCppDefine s).foldl makeStep ⟨.text, 0, out⟩ =
      ⟨.text, 0, out ++ ' ' :: inner s⟩ := by
  obtain ⟨u, hu, hlast⟩ := inner_shape s
  have hE : EscapeCppDefine s = replaceChar '#' c!"\\#" (inner s) := rfl
  have h1 : (c!" \\\n\t").foldl makeStep ⟨.text, 0, out⟩ = ⟨.cont, 0, out⟩ := by
    simp [makeStep, makeText, isBlank, hout]
  rw [List.foldl_append, h1, hE]
  have h2 : (replaceChar '#' c!"\\#" (inner s)).foldl makeStep ⟨.cont, 0, out⟩ =
      (replaceChar '#' c!"\\#" (inner s)).foldl makeStep ⟨.text, 0, out ++ [' ']⟩ := by
    rw [hu]
    unfold replaceChar
    rw [List.flatMap_cons, if_neg (by decide), List.foldl_append, List.foldl_append]
    simp [makeStep, isBlank, makeText]
  rw [h2]
  obtain ⟨p', out', e1, e2, e3⟩ := make_hash (inner s) 0 (out ++ [' '])
    (inner_noNl s hnl) (inner_noBsHash s hch) (by omega)
  have hp := e3 '\'' hlast (by decide)
  subst hp
  rw [e1]
  simp at e2
  rw [e2]

theorem rstrip_stable (out : Str) (c : Char) (h : isBlank c = false) :
    rstripBlanks (out ++ [c] ++ [' ']) = out ++ [c] := by
  simp [rstripBlanks, List.dropWhile_cons, h, isBlank]
  have : isBlank c = false := h
  simp [isBlank] at this
  simp [this]

theorem make_items (vs : List Str) (out : Str) (hnl : ∀ v ∈ vs, '\n' ∉ v)
    (hch : ∀ v ∈ vs, noBsHash v) (hout : rstripBlanks (out ++ [' ']) = out) :
    (vs.flatMap fun v => c!" \\\n\t" ++ EscapeCppDefine v).foldl makeStep ⟨.text, 0, out⟩ =
      ⟨.text, 0, out ++ vs.flatMap fun v => ' ' :: inner v⟩ := by
  induction vs generalizing out with
  | nil => simp
  | cons v vs ih =>
    rw [List.flatMap_cons, List.foldl_append,
      make_item v out (hnl v (by simp)) (hch v (by simp)) hout]
    rw [ih _ (fun w hw => hnl w (by simp [hw])) (fun w hw => hch w (by simp [hw]))]
    · simp
    · obtain ⟨u, _, hlast⟩ := inner_shape v
      obtain ⟨w, hw⟩ : ∃ w, inner v = w ++ ['\''] := by
        rw [List.getLast?_eq_some_iff] at hlast
        exact hlast
      rw [hw, show out ++ ' ' :: (w ++ ['\'']) = (out ++ ' ' :: w) ++ ['\''] by simp]
      exact rstrip_stable _ _ (by decide)

theorem join_flatMap (sep : Str) (f : Str → Str) (vs : List Str) (h : vs ≠ []) :
    sep ++ joinWith sep (vs.map f) = vs.flatMap fun v => sep ++ f v := by
  induction vs with
  | nil => exact absurd rfl h
  | cons v vs ih =>
    cases vs with
    | nil => simp [joinWith]
    | cons w ws =>
      have := ih (by simp)
      rw [List.flatMap_cons, ← this]
      simp [joinWith]

theorem expand_noDollar (c : Char) (t : Str) (h : c ≠ '$') :
    makeExpand (c :: t) = (makeExpand t).map (c :: ·) := by
  rw [makeExpand]
  · intro t' e; exact absurd e h
  · intro e; exact absurd e h

theorem expand_escaped (s t : Str) :
    makeExpand (EscapeMakeVariableExpansion s ++ t) = (makeExpand t).map (s ++ ·) := by
  unfold EscapeMakeVariableExpansion replaceChar
  induction s with
  | nil => simp
  | cons c cs ih =>
    rw [List.flatMap_cons]
    by_cases h : c = '$'
    · subst h
      rw [if_pos rfl, List.append_assoc]
      simp only [List.cons_append, List.nil_append]
      rw [makeExpand, ih]
      cases makeExpand t <;> rfl
    · rw [if_neg h, List.append_assoc]
      simp only [List.cons_append, List.nil_append]
      rw [expand_noDollar c _ h, ih]
      cases makeExpand t <;> rfl

theorem expand_items (vs : List Str) :
    makeExpand (vs.flatMap fun v => ' ' :: inner v) =
      some (vs.flatMap fun v => ' ' :: makeEscapeShellArgument v) := by
  induction vs with
  | nil => rfl
  | cons v vs ih =>
    rw [List.flatMap_cons, List.flatMap_cons, List.cons_append, expand_noDollar _ _ (by decide)]
    unfold inner at ih ⊢
    rw [expand_escaped, ih]
    rfl

/-- The shell reads a make-quoted argument as that argument. -/
theorem lex_makeEscape (k : Bool) (a : Str) (done : List Str) :
    lexRun k ⟨.plain, none, done⟩ (makeEscapeShellArgument a) = some ⟨.plain, some a, done⟩ := by
  unfold makeEscapeShellArgument
  rw [lexRun_append, lexRun_append]
  have h1 : lexRun k ⟨.plain, none, done⟩ ['\''] = some ⟨.single, some [], done⟩ := rfl
  rw [h1, Option.bind_some, lex_single_replaced k c!"'\\''" a [] done
    (fun w done => by simp [lexRun, lexStep, Lex.push])]
  rfl

/-- C40: a single argument quoted for the shell by the make generator. -/
theorem C40_shell_argument (a : Str) : shellWords (makeEscapeShellArgument a) = some [a] := by
  simp [shellWords, lexWords, lex_makeEscape]

/-- C40: for every list of definitions, what make and then the shell make of the
written variable is exactly the list of `-D` arguments.  Definitions must not
contain a newline, and (where the code deviates, see `C40_backslash_hash`) no
backslash directly before `#`. -/
theorem C40_defines_partial (name : Str) (defines : List Str)
    (hname : ∀ c ∈ name, c ≠ ':' ∧ c ≠ '\n' ∧ c ≠ '#' ∧ c ≠ '\\' ∧ isBlank c = false)
    (hne : name ≠ [])
    (hnl : ∀ d ∈ defines, '\n' ∉ d) (hbh : ∀ d ∈ defines, ¬ c!"\\#" <:+: d) :
    ∃ value, makeAssignment (WriteList defines name c!"-D" EscapeCppDefine) =
        some (name, value) ∧
      shellWords value = some (defines.map (c!"-D" ++ ·)) := by
  -- the items
  have hchain : ∀ t : Str, ¬ c!"\\#" <:+: t → noBsHash t := by
    intro t
    induction t with
    | nil => intro _; simp [noBsHash]
    | cons c cs ih =>
      intro h
      have h' : ¬ c!"\\#" <:+: cs := fun hh => h (hh.trans (List.suffix_cons c cs).isInfix)
      unfold noBsHash at ih ⊢
      rw [List.isChain_cons]
      refine ⟨?_, ih h'⟩
      intro d hd e
      cases cs with
      | nil => simp at hd
      | cons x xs =>
        simp at hd
        subst hd
        exact h ⟨[], xs, by rw [e.1, e.2]; rfl⟩
  obtain ⟨vs, hvs⟩ : ∃ vs, vs = defines.map (c!"-D" ++ ·) := ⟨_, rfl⟩
  have hvnl : ∀ v ∈ vs, '\n' ∉ v := by
    intro v hv
    rw [hvs] at hv
    obtain ⟨d, hd, rfl⟩ := List.mem_map.mp hv
    simp [hnl d hd]
  have hvch : ∀ v ∈ vs, noBsHash v := by
    intro v hv
    rw [hvs] at hv
    obtain ⟨d, hd, rfl⟩ := List.mem_map.mp hv
    have := hchain d (hbh d hd)
    unfold noBsHash at this ⊢
    simp only [List.cons_append, List.nil_append, List.isChain_cons]
    refine ⟨by simp, ?_, this⟩
    intro y _ e
    simp at e
  -- text
  have htext : WriteList defines name c!"-D" EscapeCppDefine =
      name ++ (c!" :=" ++ ((vs.flatMap fun v => c!" \\\n\t" ++ EscapeCppDefine v) ++ c!"\n\n")) := by
    unfold WriteList
    by_cases hd : defines = []
    · subst hvs; simp [hd]
    · have hv0 : vs ≠ [] := by rw [hvs]; simpa using hd
      rw [← join_flatMap _ _ vs hv0]
      simp [hd, hvs, List.map_map, Function.comp_def]
  have hn : ∀ (n out : Str), (∀ c ∈ n, c ≠ ':' ∧ c ≠ '\n' ∧ c ≠ '#' ∧ c ≠ '\\' ∧ isBlank c = false) →
      n.foldl makeStep ⟨.text, 0, out⟩ = ⟨.text, 0, out ++ n⟩ := by
    intro n
    induction n with
    | nil => intro out _; simp
    | cons c cs ih =>
      intro out h
      obtain ⟨_, h1, h2, h3, _⟩ := h c (by simp)
      rw [List.foldl_cons]
      have : makeStep ⟨.text, 0, out⟩ c = ⟨.text, 0, out ++ [c]⟩ := by
        simp [makeStep, makeText, h1, h2, h3]
      rw [this, ih _ (fun d hd => h d (by simp [hd]))]
      simp
  have hlog : makeLogicalLine (WriteList defines name c!"-D" EscapeCppDefine) =
      name ++ c!" :=" ++ vs.flatMap fun v => ' ' :: inner v := by
    unfold makeLogicalLine
    rw [htext, List.foldl_append, hn name [] hname, List.foldl_append]
    have h1 : (c!" :=").foldl makeStep ⟨.text, 0, [] ++ name⟩ = ⟨.text, 0, name ++ c!" :="⟩ := by
      simp [makeStep, makeText]
    rw [h1, List.foldl_append, make_items vs _ hvnl hvch]
    · simp [makeStep, makeText]
    · rw [show name ++ c!" :=" = (name ++ c!" :") ++ ['='] by simp]
      exact rstrip_stable _ _ (by decide)
  have hsplit : split1 ':' (name ++ c!" :=" ++ vs.flatMap fun v => ' ' :: inner v) =
      some (name ++ [' '], '=' :: vs.flatMap fun v => ' ' :: inner v) := by
    have := split1_cons ':' (name ++ [' ']) ('=' :: vs.flatMap fun v => ' ' :: inner v) (by
      simp only [List.mem_append, List.mem_singleton, not_or]
      exact ⟨fun h => (hname ':' h).1 rfl, by decide⟩)
    simpa using this
  have hrs : rstripBlanks (name ++ [' ']) = name := by
    obtain ⟨w, c, hw⟩ : ∃ w c, name = w ++ [c] :=
      ⟨name.dropLast, name.getLast hne, (List.dropLast_append_getLast hne).symm⟩
    have hb := (hname c (by simp [hw])).2.2.2.2
    rw [hw]
    exact rstrip_stable w c hb
  refine ⟨(vs.flatMap fun v => ' ' :: makeEscapeShellArgument v).dropWhile isBlank, ?_, ?_⟩
  · unfold makeAssignment
    rw [hlog, hsplit]
    show Option.map (fun v => (rstripBlanks (name ++ [' ']), v))
      (makeExpand ((vs.flatMap fun v => ' ' :: inner v).dropWhile isBlank)) = _
    rw [hrs]
    have : makeExpand ((vs.flatMap fun v => ' ' :: inner v).dropWhile isBlank) =
        some ((vs.flatMap fun v => ' ' :: makeEscapeShellArgument v).dropWhile isBlank) := by
      cases hv : vs with
      | nil => rfl
      | cons v ws =>
        have he := expand_items (v :: ws)
        rw [List.flatMap_cons, List.cons_append, expand_noDollar _ _ (by decide)] at he
        obtain ⟨u, hu, _⟩ := inner_shape v
        have hq : ∃ u', makeEscapeShellArgument v = '\'' :: u' := ⟨_, rfl⟩
        obtain ⟨u', hu'⟩ := hq
        simp only [List.flatMap_cons, hu, hu', List.cons_append] at he ⊢
        have d1 : ∀ x : Str, (' ' :: '\'' :: x).dropWhile isBlank = '\'' :: x := fun x => rfl
        rw [d1, d1]
        cases hm : makeExpand ('\'' :: (u ++ ws.flatMap fun v => ' ' :: inner v)) with
        | none => rw [hm] at he; cases he
        | some z =>
          rw [hm] at he
          simp at he
          rw [he]
    rw [this]
    rfl
  · have hdrop : (vs.flatMap fun v => ' ' :: makeEscapeShellArgument v).dropWhile isBlank =
        joinWith [' '] (vs.map makeEscapeShellArgument) := by
      cases hv : vs with
      | nil => rfl
      | cons v ws =>
        have h := join_flatMap [' '] makeEscapeShellArgument (v :: ws) (by simp)
        simp only [List.singleton_append] at h
        rw [← h]
        cases ws with
        | nil => rfl
        | cons w ws' => rfl
    rw [hdrop, ← hvs]
    exact lex_join false makeEscapeShellArgument vs
      (fun a _ done => lex_makeEscape false a done) []

example : ∃ value, makeAssignment (WriteList [c!"A=\"it's $5\"", c!"B=#1", c!"C=x\\y "]
      c!"DEFS_Debug" c!"-D" EscapeCppDefine) = some (c!"DEFS_Debug", value) ∧
    shellWords value = some [c!"-DA=\"it's $5\"", c!"-DB=#1", c!"-DC=x\\y "] :=
  C40_defines_partial _ _ (by decide) (by decide) (by decide) (by decide)

/-- The full claim is false: for a define with a backslash before `#` the comment
sign becomes active and the rest of the variable is cut off. -/
theorem C40_backslash_hash :
    makeAssignment (WriteList [c!"A=\\#x", c!"B"] c!"DEFS" c!"-D" EscapeCppDefine) =
      some (c!"DEFS", c!"'-DA=\\") := by decide +kernel

/-- Make variable names built from arbitrary strings only use word characters. -/
theorem C40_variable_name (s : Str) :
    (StringToMakefileVariable s).length = s.length ∧
    ∀ c ∈ StringToMakefileVariable s, c.isAlphanum ∨ c = '_' := by
  constructor
  · simp [StringToMakefileVariable]
  · intro c hc
    simp only [StringToMakefileVariable, List.mem_map] at hc
    obtain ⟨a, _, rfl⟩ := hc
    by_cases h : makeVarChar a = true
    · rw [if_pos h]
      simp only [makeVarChar, Bool.or_eq_true, Bool.and_eq_true, decide_eq_true_eq] at h
      simp only [Char.isAlphanum, Char.isAlpha, Char.isUpper, Char.isLower, Char.isDigit,
        Bool.or_eq_true, Bool.and_eq_true, decide_eq_true_eq]
      rcases h with ((h | h) | h) | h
      · left; left; right; exact h
      · left; left; left; exact h
      · left; right; exact h
      · right; exact h
    · rw [if_neg h]; simp

end Gyp
