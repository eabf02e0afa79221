import Verif.Model.ShellQuote
import Verif.Spec.Shell
/-
C04, C05, C41: shell quoting.
-/
namespace Gyp
open Gyp.Spec

theorem lexRun_append (k : Bool) (s : Lex) (a b : Str) :
    lexRun k s (a ++ b) = (lexRun k s a).bind fun s' => lexRun k s' b := by
  induction a generalizing s with
  | nil => rfl
  | cons c cs ih =>
    simp only [List.cons_append, lexRun]
    cases lexStep k s c with
    | none => rfl
    | some s' => exact ih s'

/-- Reading escaped text outside quotes, when no character needs quoting. -/
theorem lex_plain_escaped (k : Bool) (arg : Str) (cur : Option Str) (done : List Str)
    (h : ∀ c ∈ arg, c ∉ quoteClass) (hne : arg ≠ []) :
    lexRun k ⟨.plain, cur, done⟩ (backslashEscape arg) =
      some ⟨.plain, some (cur.getD [] ++ arg), done⟩ := by
  induction arg generalizing cur with
  | nil => exact absurd rfl hne
  | cons c cs ih =>
    have hc := h c (by simp)
    have hcs : ∀ d ∈ cs, d ∉ quoteClass := fun d hd => h d (by simp [hd])
    have hstep : lexRun k ⟨.plain, cur, done⟩
        (if c = '"' ∨ c = '\\' ∨ c = '`' then ['\\', c] else [c]) =
        some ⟨.plain, some (cur.getD [] ++ [c]), done⟩ := by
      by_cases he : c = '"' ∨ c = '\\' ∨ c = '`'
      · rw [if_pos he]
        have hnl : c ≠ '\n' := by rintro rfl; revert he; decide
        simp [lexRun, lexStep, hnl, Lex.push]
      · rw [if_neg he]
        simp only [quoteClass, List.mem_cons, List.not_mem_nil, or_false, not_or] at hc
        simp only [not_or] at he
        simp [lexRun, lexStep, activePlain, hc, he, Lex.push]
    unfold backslashEscape
    rw [List.flatMap_cons, lexRun_append, hstep]
    simp only [Option.bind_some]
    cases cs with
    | nil => simp [lexRun]
    | cons d ds =>
      have := ih (some (cur.getD [] ++ [c])) hcs (by simp)
      unfold backslashEscape at this
      rw [this]
      simp

/-- Reading escaped text inside double quotes. -/
theorem lex_double_escaped (k : Bool) (arg : Str) (w : Str) (done : List Str)
    (h : k = true ∨ '$' ∉ arg) :
    lexRun k ⟨.double, some w, done⟩ (backslashEscape arg) =
      some ⟨.double, some (w ++ arg), done⟩ := by
  induction arg generalizing w with
  | nil => simp [backslashEscape, lexRun]
  | cons c cs ih =>
    have hcs : k = true ∨ '$' ∉ cs := by
      rcases h with h | h
      · exact Or.inl h
      · right; intro hh; exact h (by simp [hh])
    have hstep : lexRun k ⟨.double, some w, done⟩
        (if c = '"' ∨ c = '\\' ∨ c = '`' then ['\\', c] else [c]) =
        some ⟨.double, some (w ++ [c]), done⟩ := by
      by_cases he : c = '"' ∨ c = '\\' ∨ c = '`'
      · rw [if_pos he]
        have hnl : c ≠ '\n' := by rintro rfl; revert he; decide
        have h2 : c = '$' ∨ c = '`' ∨ c = '"' ∨ c = '\\' := by
          rcases he with he | he | he <;> simp [he]
        simp [lexRun, lexStep, hnl, h2, Lex.push]
      · rw [if_neg he]
        simp only [not_or] at he
        have hd : ¬ (c = '$' ∧ k = false) := by
          rintro ⟨rfl, rfl⟩
          rcases h with h | h
          · cases h
          · exact h (by simp)
        simp only [lexRun, lexStep, he.1, he.2.1, he.2.2, hd, if_false, Lex.push]
        simp
    unfold backslashEscape
    rw [List.flatMap_cons, lexRun_append, hstep]
    simp only [Option.bind_some]
    have := ih (w ++ [c]) hcs
    unfold backslashEscape at this
    rw [this]
    simp

/-- After the encoded argument the reader stands behind exactly that word. -/
theorem lex_encoded (k : Bool) (arg : Str) (done : List Str) (h : k = true ∨ '$' ∉ arg) :
    lexRun k ⟨.plain, none, done⟩ (EncodePOSIXShellArgument arg) =
      some ⟨.plain, some arg, done⟩ := by
  unfold EncodePOSIXShellArgument
  by_cases hq : needsQuote arg = true
  · simp only [hq, if_true]
    rw [lexRun_append, lexRun_append]
    have h1 : lexRun k ⟨.plain, none, done⟩ ['"'] = some ⟨.double, some [], done⟩ := rfl
    rw [h1, Option.bind_some, lex_double_escaped k arg [] done h]
    rfl
  · have hq' : needsQuote arg = false := by simpa using hq
    simp only [hq', Bool.false_eq_true, if_false, List.nil_append, List.append_nil]
    unfold needsQuote at hq'
    simp only [Bool.or_eq_false_iff, List.any_eq_false, decide_eq_true_eq] at hq'
    have hne : arg ≠ [] := by
      rintro rfl; simp at hq'
    rw [lex_plain_escaped k arg none done hq'.1 hne]
    simp

/-- A list of texts each of which reads as one word, joined by blanks, reads as
the list of words. -/
theorem lex_join (k : Bool) (enc : Str → Str) (args : List Str)
    (h : ∀ a ∈ args, ∀ done, lexRun k ⟨.plain, none, done⟩ (enc a) =
      some ⟨.plain, some a, done⟩) (done : List Str) :
    (lexRun k ⟨.plain, none, done⟩ (joinWith [' '] (args.map enc))).bind
      (fun s => if s.mode = .plain then some (s.done ++ s.cur.toList) else none) =
      some (done ++ args) := by
  induction args generalizing done with
  | nil => simp [joinWith, lexRun]
  | cons a as ih =>
    have ha := h a (by simp)
    have has := ih (fun b hb => h b (by simp [hb]))
    cases as with
    | nil => simp [joinWith, ha]
    | cons b bs =>
      have := has (done ++ [a])
      simp only [List.map_cons, joinWith] at this ⊢
      rw [lexRun_append, lexRun_append, ha, Option.bind_some]
      have h1 : lexRun k ⟨.plain, some a, done⟩ [' '] = some ⟨.plain, none, done ++ [a]⟩ := rfl
      rw [h1, Option.bind_some, this]
      simp

/-! ## C04 -/

/-- C04: an encoded argument is read by the shell as exactly one word, the
argument itself, for every argument without `$`. -/
theorem C04_shell_argument (arg : Str) (h : '$' ∉ arg) :
    shellWords (EncodePOSIXShellArgument arg) = some [arg] := by
  simp [shellWords, lexWords, lex_encoded false arg [] (Or.inr h)]

example : shellWords (EncodePOSIXShellArgument c!"it's \"a\\b\" `x` \n#;*") =
    some [c!"it's \"a\\b\" `x` \n#;*"] := C04_shell_argument _ (by decide)

/-- C04 with `$`: for every argument whatsoever the encoded text is a single
word, and apart from `$` inside double quotes nothing in it is active. -/
theorem C04_shell_argument_dollar (arg : Str) :
    shellWordsKeepDollar (EncodePOSIXShellArgument arg) = some [arg] := by
  simp [shellWordsKeepDollar, lexWords, lex_encoded true arg [] (Or.inl rfl)]

/-- Without the hypothesis `$`-freeness the strict claim fails: `$` stays
active (documented behaviour, common.py:247-248). -/
theorem C04_dollar_stays_active : shellWords (EncodePOSIXShellArgument c!"$HOME") = none := by
  decide

/-! ## C05 -/

/-- C05: an encoded argument list is read as exactly that argument vector. -/
theorem C05_shell_list (args : List Str) (h : ∀ a ∈ args, '$' ∉ a) :
    shellWords (EncodePOSIXShellList args) = some args :=
  lex_join false EncodePOSIXShellArgument args
    (fun a ha done => lex_encoded false a done (Or.inr (h a ha))) []

example : shellWords (EncodePOSIXShellList [c!"cp", c!"a b", c!"", c!"c'd"]) =
    some [c!"cp", c!"a b", c!"", c!"c'd"] := C05_shell_list _ (by decide)

/-- C05 with `$`: same number of words, same order, same text before parameter
expansion, for every list. -/
theorem C05_shell_list_dollar (args : List Str) :
    shellWordsKeepDollar (EncodePOSIXShellList args) = some args :=
  lex_join true EncodePOSIXShellArgument args
    (fun a _ done => lex_encoded true a done (Or.inl rfl)) []

/-! ## C41 -/

/-- Inside single quotes everything but `'` is copied. -/
theorem lex_single (k : Bool) (s w : Str) (done : List Str) (h : '\'' ∉ s) :
    lexRun k ⟨.single, some w, done⟩ s = some ⟨.single, some (w ++ s), done⟩ := by
  induction s generalizing w with
  | nil => simp [lexRun]
  | cons c cs ih =>
    simp at h
    have hc : c ≠ '\'' := fun e => h.1 e.symm
    simp only [lexRun, lexStep, hc, if_false, Option.bind_some, Lex.push, Option.getD_some]
    rw [ih _ h.2]
    simp

/-- A single-quoted text in which embedded quotes are written as `esc`, which
closes the quotation, adds a quote and reopens it. -/
theorem lex_single_replaced (k : Bool) (esc : Str) (arg w : Str) (done : List Str)
    (hesc : ∀ w done, lexRun k ⟨.single, some w, done⟩ esc =
      some ⟨.single, some (w ++ ['\'']), done⟩) :
    lexRun k ⟨.single, some w, done⟩ (replaceChar '\'' esc arg) =
      some ⟨.single, some (w ++ arg), done⟩ := by
  induction arg generalizing w with
  | nil => simp [replaceChar, lexRun]
  | cons c cs ih =>
    unfold replaceChar at ih ⊢
    rw [List.flatMap_cons, lexRun_append]
    by_cases hc : c = '\''
    · subst hc
      rw [if_pos rfl, hesc, Option.bind_some, ih]
      simp
    · rw [if_neg hc]
      have := lex_single k [c] w done (by simp; exact fun e => hc e.symm)
      rw [this, Option.bind_some, ih]
      simp

theorem lex_plain_safe (k : Bool) (s : Str) (cur : Option Str) (done : List Str)
    (h : ∀ c ∈ s, ninjaSafeChar c = true ∧ c ≠ '\\') (hne : s ≠ []) :
    lexRun k ⟨.plain, cur, done⟩ s = some ⟨.plain, some (cur.getD [] ++ s), done⟩ := by
  induction s generalizing cur with
  | nil => exact absurd rfl hne
  | cons c cs ih =>
    obtain ⟨h1, h2⟩ := h c (by simp)
    have hsp : c ≠ ' ' := by rintro rfl; revert h1; decide
    have htab : c ≠ '\t' := by rintro rfl; revert h1; decide
    have hsq : c ≠ '\'' := by rintro rfl; revert h1; decide
    have hdq : c ≠ '"' := by rintro rfl; revert h1; decide
    have hact : activePlain c = false := by
      cases ha : activePlain c with
      | false => rfl
      | true =>
        exfalso
        simp only [activePlain, List.mem_cons, List.not_mem_nil, or_false,
          decide_eq_true_eq] at ha
        rcases ha with rfl|rfl|rfl|rfl|rfl|rfl|rfl|rfl|rfl|rfl|rfl|rfl|rfl|rfl|rfl|rfl|rfl <;>
          revert h1 <;> decide
    have hstep : lexStep k ⟨.plain, cur, done⟩ c =
        some ⟨.plain, some (cur.getD [] ++ [c]), done⟩ := by
      simp [lexStep, hsp, htab, h2, hsq, hdq, hact, Lex.push]
    rw [lexRun, hstep, Option.bind_some]
    cases cs with
    | nil => simp [lexRun]
    | cons d ds =>
      rw [ih _ (fun e he => h e (by simp [he])) (by simp)]
      simp

/-- C41, full claim: every argument reaches the program unchanged.  It is
*false* for the code: see the two witnesses below; the hypothesis here excludes
exactly the arguments that are passed unquoted although they contain a
backslash or end in a newline. -/
theorem C41_ninja_shell_argument_partial (arg : Str)
    (h : ninjaNoQuoting arg = true → '\\' ∉ arg ∧ '\n' ∉ arg) :
    shellWords (ninjaQuoteShellArgument arg) = some [arg] := by
  unfold ninjaQuoteShellArgument shellWords
  by_cases hq : ninjaNoQuoting arg = true
  · obtain ⟨hb, hn⟩ := h hq
    rw [if_pos hq]
    have hend : endsWith arg ['\n'] = false := by
      cases he : endsWith arg ['\n'] with
      | false => rfl
      | true =>
        unfold endsWith at he
        rw [List.isSuffixOf_iff_suffix] at he
        exact absurd (he.subset (by simp)) hn
    simp only [ninjaNoQuoting, hend, Bool.false_eq_true, if_false, Bool.and_eq_true,
      Bool.not_eq_true', List.all_eq_true, List.isEmpty_eq_false_iff] at hq
    have := lex_plain_safe false arg none []
      (fun c hc => ⟨hq.2 c hc, fun e => hb (e ▸ hc)⟩) hq.1
    simp [lexWords, this]
  · rw [if_neg hq]
    have h1 : lexRun false ⟨.plain, none, []⟩ ['\''] = some ⟨.single, some [], []⟩ := rfl
    have h2 := lex_single_replaced false c!"'\"'\"'" arg [] [] 
      (fun w done => by simp [lexRun, lexStep, Lex.push])
    unfold lexWords
    rw [lexRun_append, lexRun_append, h1, Option.bind_some, h2]
    rfl

/-- C41: every argument that contains a character outside the safe class is
passed through unchanged, without exception. -/
theorem C41_ninja_shell_argument_quoted (arg : Str)
    (h : ∃ c ∈ arg.dropLast, ninjaSafeChar c = false) :
    shellWords (ninjaQuoteShellArgument arg) = some [arg] := by
  apply C41_ninja_shell_argument_partial
  intro hq
  exfalso
  obtain ⟨c, hc, hs⟩ := h
  simp only [ninjaNoQuoting, Bool.and_eq_true, List.all_eq_true] at hq
  have := hq.2 c (by
    split
    · exact hc
    · exact List.dropLast_subset _ hc)
  rw [hs] at this
  cases this

example : shellWords (ninjaQuoteShellArgument c!"-DX=\"it's $x\"") =
    some [c!"-DX=\"it's $x\""] :=
  C41_ninja_shell_argument_quoted _ ⟨'"', by decide, by decide⟩

/-- The full claim of C41 is false: a backslash is in the "safe" class, so it is
written unquoted and the shell drops it. -/
theorem C41_backslash_lost :
    shellWords (ninjaQuoteShellArgument c!"a\\b") = some [c!"ab"] := by decide

/-- The full claim of C41 is false: `$` in the pattern also matches before a
final newline, so such an argument is written unquoted and the newline ends the
command. -/
theorem C41_final_newline_active :
    shellWords (ninjaQuoteShellArgument c!"ab\n") = none := by decide

end Gyp
