import Verif.Proofs.Ninja
import Mathlib.Data.List.Chain
import Mathlib.Data.List.Infix
import Mathlib.Data.List.Flatten
/-
C37 (escaping) and C38 (line wrapping) for `ninja_syntax.py`, stated against the
reader in `Spec/Ninja.lean`.
-/
namespace Gyp
open Spec

/-! ## C38 -/

/-- C38: a wrapped line has exactly the tokens of the unwrapped one.  `n` is three
less than the room on a continuation line; the last hypothesis excludes texts with
a run of `n` or more dollar signs (see `C38_dollar_run_glues`). -/
theorem C38_wrapping_keeps_tokens (width indent : Nat) (text : Str) (hnl : '\n' ∉ text)
    (hrun : ¬ List.replicate (width - 2 * (indent + 2) - 3) '$' <:+: text) :
    ninjaTokens (ninjaLine width text indent) = ninjaTokens (text ++ ['\n']) := by
  unfold ninjaTokens ninjaLine
  exact (lineLoop_tokens width (2 * (indent + 2)) _ text (2 * indent) ⟨.normal, none, []⟩
    (Or.inr ⟨rfl, rfl⟩) hnl (by omega) rfl hrun).flush

/-- C38 for values: when no two blanks follow each other, the value read from the
wrapped line is the value of the unwrapped one, blank for blank. -/
theorem C38_wrapping_keeps_value (width : Nat) (text : Str) (hnl : '\n' ∉ text)
    (hdd : ¬ [' ', ' '] <:+: text) :
    ninjaValue (ninjaLine width text 0) = ninjaValue (text ++ ['\n']) := by
  unfold ninjaValue ninjaLine
  rw [lineLoop_value width _ _ text hnl hdd (.normal, []) (.normal, []) rfl
    (Or.inl (by simp))]

/-- The same for an indented line: after its indentation. -/
theorem C38_wrapping_keeps_value_indented (width indent : Nat) (text : Str)
    (hnl : '\n' ∉ text) (hdd : ¬ [' ', ' '] <:+: text) :
    ninjaValue (ninjaLine width text indent) =
      List.replicate (2 * indent) (.lit ' ') ++ ninjaValue (text ++ ['\n']) := by
  have hlead : ∀ (k : Nat) (acc : List Piece), (List.replicate k ' ').foldl valueStep
      (VMode.normal, acc) = (VMode.normal, acc ++ List.replicate k (.lit ' ')) := by
    intro k
    induction k with
    | zero => simp
    | succ k ih =>
      intro acc
      rw [List.replicate_succ, List.foldl_cons]
      have : valueStep (.normal, acc) ' ' = (.normal, acc ++ [.lit ' ']) := by simp [valueStep]
      rw [this, ih]
      simp [List.replicate_succ]
  unfold ninjaValue ninjaLine
  rw [lineLoop_value width _ _ text hnl hdd (.normal, List.replicate (2 * indent) (.lit ' '))
    (.normal, []) (by rw [hlead]; simp) (Or.inl (by simp)), valueStep_acc]

/-- A wrap really happens, and hypotheses are met. -/
example : ninjaLine 12 c!"cmd = aa bb$ cc" 0 = c!"cmd = aa $\n    bb$ cc\n" := by
  decide +kernel
example : ninjaTokens (ninjaLine 20 c!"cmd = aa bb$ cc dd$$ ee" 0) =
    ninjaTokens c!"cmd = aa bb$ cc dd$$ ee\n" :=
  C38_wrapping_keeps_tokens 20 0 c!"cmd = aa bb$ cc dd$$ ee" (by decide)
    (by decide)

/-- Where the blank-for-blank claim fails: of two blanks at the line limit one is
swallowed by the continuation. -/
theorem C38_double_blank_lost :
    ninjaValue (ninjaLine 12 c!"cmd = aaa  bb" 0) = ninjaValue c!"cmd = aaa bb\n" := by
  decide +kernel

/-- Where the token claim fails: a text beginning with a run of dollars as long as
the line, before two blanks, is glued to the next word, because the count of
dollars ignores index 0. -/
theorem C38_dollar_run_glues :
    ninjaTokens (ninjaLine 4 c!"$  bbbbb" 0) ≠ ninjaTokens c!"$  bbbbb\n" := by
  decide +kernel

/-! ## C37 -/

theorem value_escaped (s : Str) (acc : List Piece) :
    (replaceChar '$' c!"$$" s).foldl valueStep (.normal, acc) =
      (.normal, acc ++ s.map .lit) := by
  induction s generalizing acc with
  | nil => simp [replaceChar]
  | cons c cs ih =>
    unfold replaceChar at ih ⊢
    rw [List.flatMap_cons, List.foldl_append]
    by_cases hc : c = '$'
    · subst hc
      rw [if_pos rfl]
      have : (c!"$$").foldl valueStep (.normal, acc) = (.normal, acc ++ [.lit '$']) := by
        simp [valueStep]
      rw [this, ih]; simp
    · rw [if_neg hc]
      have : [c].foldl valueStep (.normal, acc) = (.normal, acc ++ [.lit c]) := by
        simp [valueStep, hc]
      rw [this, ih]; simp

/-- C37: ninja reads an escaped string as the original string. -/
theorem C37_escape (s e : Str) (h : ninjaEscape s = some e) :
    ninjaValue e = s.map .lit := by
  unfold ninjaEscape at h
  split at h
  · cases h
  · cases h
    simp [ninjaValue, value_escaped]

/-- C37: escaping fails exactly on strings with a newline. -/
theorem C37_escape_defined (s : Str) : ninjaEscape s = none ↔ '\n' ∈ s := by
  unfold ninjaEscape
  split <;> simp_all

example : ∃ e, ninjaEscape c!"a$b c:$$" = some e ∧ ninjaValue e = (c!"a$b c:$$").map .lit :=
  ⟨_, rfl, C37_escape _ _ rfl⟩

/-- A path the property is about: no `$` (reserved for ninja variables), no `|`
and no newline. -/
def plainPath (p : Str) : Prop := p ≠ [] ∧ '$' ∉ p ∧ '|' ∉ p ∧ '\n' ∉ p

instance (p : Str) : Decidable (plainPath p) := by unfold plainPath; infer_instance

theorem replaceStr_absent (old new s : Str) (c : Char) (cs : Str) (ho : old = c :: cs)
    (h : c ∉ s) : replaceStr old new s = s := by
  induction s with
  | nil => rw [replaceStr]
  | cons x xs ih =>
    rw [replaceStr]
    simp only [List.mem_cons, not_or] at h
    have : ¬ (old.isPrefixOf (x :: xs) = true ∧ old ≠ []) := by
      rintro ⟨h1, -⟩
      rw [ho] at h1
      simp only [List.isPrefixOf, Bool.and_eq_true, beq_iff_eq] at h1
      exact h.1 h1.1
    rw [if_neg this, ih h.2]

theorem escape_path_eq (p : Str) (h : '$' ∉ p) :
    escape_path p = p.flatMap fun c => if c = ' ' ∨ c = ':' then ['$', c] else [c] := by
  unfold escape_path
  rw [replaceStr_absent _ _ p '$' [' '] rfl h]
  unfold replaceChar
  rw [List.flatMap_assoc]
  apply List.flatMap_congr
  intro c _
  by_cases h1 : c = ' '
  · subst h1; decide
  · by_cases h2 : c = ':'
    · subst h2; decide
    · simp [h1, h2]

theorem tokens_path (p : Str) (h : '$' ∉ p ∧ '|' ∉ p ∧ '\n' ∉ p) (cur : Option (List Piece))
    (done : List Tok) (hne : p ≠ []) :
    (escape_path p).foldl ninjaStep ⟨.normal, cur, done⟩ =
      ⟨.normal, some (cur.getD [] ++ p.map .lit), done⟩ := by
  rw [escape_path_eq p h.1]
  induction p generalizing cur with
  | nil => exact absurd rfl hne
  | cons c cs ih =>
    simp only [List.mem_cons, not_or] at h
    rw [List.flatMap_cons, List.foldl_append]
    have hstep : (if c = ' ' ∨ c = ':' then ['$', c] else [c]).foldl ninjaStep
        ⟨.normal, cur, done⟩ = ⟨.normal, some (cur.getD [] ++ [.lit c]), done⟩ := by
      by_cases hc : c = ' ' ∨ c = ':'
      · rw [if_pos hc]
        have hc' : c = '$' ∨ c = ' ' ∨ c = ':' := Or.inr hc
        simp [ninjaStep, ninjaPlain, NLex.push, hc']
      · rw [if_neg hc]
        have e1 : c ≠ '$' := fun e => h.1.1 e.symm
        have e2 : c ≠ '|' := fun e => h.2.1.1 e.symm
        have e3 : c ≠ '\n' := fun e => h.2.2.1 e.symm
        simp only [not_or] at hc
        simp [ninjaStep, ninjaPlain, hc, e1, e2, e3, NLex.push]
    rw [hstep]
    cases hcs : cs with
    | nil => simp
    | cons d ds =>
      rw [← hcs, ih ⟨h.1.2, h.2.1.2, h.2.2.2⟩ _ (by simp [hcs])]
      simp

/-- Tokens of a blank-separated list of escaped paths. -/
theorem tokens_paths (ps : List Str) (h : ∀ p ∈ ps, plainPath p) (done : List Tok) :
    ((joinWith [' '] (ps.map escape_path)).foldl ninjaStep ⟨.normal, none, done⟩).flush =
      done ++ ps.map (fun p => .word (p.map .lit)) ∧
    ((joinWith [' '] (ps.map escape_path)).foldl ninjaStep ⟨.normal, none, done⟩).mode =
      .normal := by
  induction ps generalizing done with
  | nil => simp [joinWith, NLex.flush]
  | cons p ps ih =>
    have hp := h p (by simp)
    have hps := ih (fun q hq => h q (by simp [hq]))
    have ht := tokens_path p ⟨hp.2.1, hp.2.2.1, hp.2.2.2⟩ none done hp.1
    cases ps with
    | nil => simp [joinWith, ht, NLex.flush]
    | cons q qs =>
      have := hps (done ++ [.word (p.map .lit)])
      simp only [List.map_cons, joinWith, List.foldl_append, ht] at this ⊢
      have h1 : [' '].foldl ninjaStep ⟨.normal, some (Option.getD none [] ++ p.map .lit), done⟩ =
          ⟨.normal, none, done ++ [.word (p.map .lit)]⟩ := by
        simp [ninjaStep, ninjaPlain, NLex.flush]
      rw [h1]
      simpa using this

/-- Blanks between words: reading `" " ++ words`. -/
theorem tokens_more (done : List Tok) (s : NLex) (t : Str)
    (hs : s.mode = .normal) (hf : s.flush = done) :
    ((' ' :: t).foldl ninjaStep s) = t.foldl ninjaStep ⟨.normal, none, done⟩ := by
  obtain ⟨m, c, d⟩ := s
  dsimp only at hs
  subst hs
  simp [ninjaStep, ninjaPlain, hf]

theorem joinWith_append_ne (sep : Str) (a b : List Str) (ha : a ≠ []) (hb : b ≠ []) :
    joinWith sep (a ++ b) = joinWith sep a ++ sep ++ joinWith sep b := by
  induction a with
  | nil => exact absurd rfl ha
  | cons x xs ih =>
    cases xs with
    | nil =>
      cases b with
      | nil => exact absurd rfl hb
      | cons y ys => simp [joinWith]
    | cons z zs =>
      have := ih (by simp)
      simp only [List.cons_append, joinWith] at this ⊢
      rw [this]
      simp

/-- `takeWords` stops at a non-word. -/
theorem takeWords_words (ps : List Str) (ts : List Tok)
    (hts : ∀ w ts', ts ≠ .word w :: ts') :
    takeWords (ps.map (fun p => Tok.word (p.map Piece.lit)) ++ ts) = (ps, ts) := by
  have hpl : ∀ p : Str, plainWord (p.map Piece.lit) = some p := by
    intro p
    unfold plainWord
    induction p with
    | nil => rfl
    | cons c cs ih => simp [List.mapM_cons, ih]
  induction ps with
  | nil =>
    cases ts with
    | nil => rfl
    | cons t ts' =>
      cases t with
      | word w => exact absurd rfl (hts w ts')
      | _ => rfl
  | cons p ps ih =>
    simp only [List.map_cons, List.cons_append, takeWords, hpl, ih]

def words (ps : List Str) : List Tok := ps.map (fun p => Tok.word (p.map Piece.lit))

/-- A group of paths after a separator token. -/
theorem tokens_group (sep : Str) (tok : Tok) (ps : List Str) (done : List Tok) (s : NLex)
    (hs : s.mode = .normal) (hf : s.flush = done) (h : ∀ p ∈ ps, plainPath p)
    (hsep : ∀ d, (sep ++ [' ']).foldl ninjaStep ⟨.normal, none, d⟩ =
      ⟨.normal, none, d ++ [tok]⟩) (hps : ps ≠ []) :
    ((' ' :: joinWith [' '] (sep :: ps.map escape_path)).foldl ninjaStep s).flush =
      done ++ tok :: words ps ∧
    ((' ' :: joinWith [' '] (sep :: ps.map escape_path)).foldl ninjaStep s).mode = .normal := by
  rw [tokens_more done s _ hs hf]
  cases ps with
  | nil => exact absurd rfl hps
  | cons q qs =>
    have ht := tokens_paths (q :: qs) h (done ++ [tok])
    have hj : joinWith [' '] (sep :: (q :: qs).map escape_path) =
        (sep ++ [' ']) ++ joinWith [' '] ((q :: qs).map escape_path) := rfl
    rw [hj, List.foldl_append, hsep]
    simpa [words] using ht

theorem tokens_build (outputs : List Str) (rule : Str) (inputs implicit orderOnly : List Str)
    (ho : outputs ≠ []) (hop : ∀ p ∈ outputs, plainPath p)
    (hr : plainPath rule ∧ escape_path rule = rule)
    (hi : ∀ p ∈ inputs, plainPath p) (him : ∀ p ∈ implicit, plainPath p)
    (hoo : ∀ p ∈ orderOnly, plainPath p) :
    ninjaTokens (ninjaBuildText outputs rule inputs implicit orderOnly ++ ['\n']) =
      words (c!"build" :: outputs) ++ .colon :: words (rule :: inputs) ++
      (if implicit ≠ [] then .pipe :: words implicit else []) ++
      (if orderOnly ≠ [] then .pipe2 :: words orderOnly else []) ++ [.eol] := by
  -- the pieces of the text
  have htext : ninjaBuildText outputs rule inputs implicit orderOnly ++ ['\n'] =
      joinWith [' '] ((c!"build" :: outputs).map escape_path) ++ (c!": " ++
      (joinWith [' '] ((rule :: inputs).map escape_path) ++
       ((if implicit ≠ [] then ' ' :: joinWith [' '] (c!"|" :: implicit.map escape_path) else []) ++
       ((if orderOnly ≠ [] then ' ' :: joinWith [' '] (c!"||" :: orderOnly.map escape_path)
         else []) ++ ['\n'])))) := by
    have hb : escape_path c!"build" = c!"build" := by
      rw [escape_path_eq _ (by decide)]; decide
    have h1 : joinWith [' '] ((c!"build" :: outputs).map escape_path) =
        c!"build " ++ joinWith [' '] (outputs.map escape_path) := by
      cases outputs with
      | nil => exact absurd rfl ho
      | cons q qs => simp [joinWith, hb]
    have h2 : ∀ (a b : List Str), a ≠ [] →
        joinWith [' '] (a ++ b) = joinWith [' '] a ++
          (if b ≠ [] then ' ' :: joinWith [' '] b else []) := by
      intro a b ha
      by_cases hb : b = []
      · simp [hb]
      · rw [joinWith_append_ne _ _ _ ha hb]; simp [hb]
    unfold ninjaBuildText
    rw [h1]
    dsimp only
    rw [show rule :: (inputs.map escape_path ++
        (if implicit ≠ [] then c!"|" :: implicit.map escape_path else []) ++
        (if orderOnly ≠ [] then c!"||" :: orderOnly.map escape_path else [])) =
        ((rule :: inputs).map escape_path ++
        (if implicit ≠ [] then c!"|" :: implicit.map escape_path else [])) ++
        (if orderOnly ≠ [] then c!"||" :: orderOnly.map escape_path else []) by
      simp [hr.2]]
    rw [h2 _ _ (by simp), h2 _ _ (by simp)]
    by_cases e1 : implicit = [] <;> by_cases e2 : orderOnly = [] <;> simp [e1, e2]
  rw [htext]
  unfold ninjaTokens
  rw [List.foldl_append]
  have hbuild : plainPath c!"build" := by decide
  obtain ⟨f1, m1⟩ := tokens_paths (c!"build" :: outputs)
    (by simpa using ⟨hbuild, hop⟩) []
  generalize hS1 : (joinWith [' '] ((c!"build" :: outputs).map escape_path)).foldl ninjaStep
    ⟨.normal, none, []⟩ = S1 at f1 m1
  have hS2 : (c!": ").foldl ninjaStep S1 = ⟨.normal, none, S1.flush ++ [.colon]⟩ := by
    obtain ⟨m, c, d⟩ := S1
    dsimp only at m1
    subst m1
    simp [ninjaStep, ninjaPlain, NLex.flush]
  rw [List.foldl_append, hS2, f1, List.foldl_append]
  obtain ⟨f2, m2⟩ := tokens_paths (rule :: inputs)
    (by simpa using ⟨hr.1, hi⟩)
    ([] ++ List.map (fun p => Tok.word (List.map Piece.lit p)) (c!"build" :: outputs) ++ [Tok.colon])
  generalize (joinWith [' '] ((rule :: inputs).map escape_path)).foldl ninjaStep _ = S3 at f2 m2 ⊢
  rw [List.foldl_append]
  -- implicit group
  have hg1 : ∃ S4 : NLex, (if implicit ≠ [] then
        ' ' :: joinWith [' '] (c!"|" :: implicit.map escape_path) else []).foldl ninjaStep S3 = S4 ∧
      S4.mode = .normal ∧
      S4.flush = S3.flush ++ (if implicit ≠ [] then .pipe :: words implicit else []) := by
    by_cases e : implicit = []
    · exact ⟨S3, by simp [e], m2, by simp [e]⟩
    · have := tokens_group c!"|" .pipe implicit _ S3 m2 rfl him
        (fun d => by simp [ninjaStep, ninjaPlain, NLex.flush]) e
      exact ⟨_, rfl, by simpa [e] using this.2, by simpa [e] using this.1⟩
  obtain ⟨S4, hS4, m4, f4⟩ := hg1
  rw [hS4, List.foldl_append]
  have hg2 : ∃ S5 : NLex, (if orderOnly ≠ [] then
        ' ' :: joinWith [' '] (c!"||" :: orderOnly.map escape_path) else []).foldl ninjaStep S4 = S5 ∧
      S5.mode = .normal ∧
      S5.flush = S4.flush ++ (if orderOnly ≠ [] then .pipe2 :: words orderOnly else []) := by
    by_cases e : orderOnly = []
    · exact ⟨S4, by simp [e], m4, by simp [e]⟩
    · have := tokens_group c!"||" .pipe2 orderOnly _ S4 m4 rfl hoo
        (fun d => by simp [ninjaStep, ninjaPlain, NLex.flush]) e
      exact ⟨_, rfl, by simpa [e] using this.2, by simpa [e] using this.1⟩
  obtain ⟨S5, hS5, m5, f5⟩ := hg2
  rw [hS5]
  have hfin : (['\n'].foldl ninjaStep S5).flush = S5.flush ++ [.eol] := by
    obtain ⟨m, c, d⟩ := S5
    dsimp only at m5
    subst m5
    simp [ninjaStep, ninjaPlain, NLex.flush]
  rw [hfin, f5, f4, f2]
  simp [words]

theorem parse_build_tokens (outputs : List Str) (rule : Str)
    (inputs implicit orderOnly : List Str) :
    parseBuild (words (c!"build" :: outputs) ++ .colon :: words (rule :: inputs) ++
      (if implicit ≠ [] then .pipe :: words implicit else []) ++
      (if orderOnly ≠ [] then .pipe2 :: words orderOnly else []) ++ [.eol]) =
    some ⟨outputs, rule, inputs, implicit, orderOnly⟩ := by
  unfold parseBuild
  have e1 : ∀ (a : List Str) (t : List Tok) (ht : ∀ w ts', t ≠ .word w :: ts'),
      takeWords (words a ++ t) = (a, t) := fun a t ht => takeWords_words a t ht
  rw [show words (c!"build" :: outputs) ++ .colon :: words (rule :: inputs) ++
      (if implicit ≠ [] then .pipe :: words implicit else []) ++
      (if orderOnly ≠ [] then .pipe2 :: words orderOnly else []) ++ [Tok.eol] =
      words (c!"build" :: outputs) ++ (.colon :: (words (rule :: inputs) ++
      ((if implicit ≠ [] then .pipe :: words implicit else []) ++
      ((if orderOnly ≠ [] then .pipe2 :: words orderOnly else []) ++ [Tok.eol])))) by simp]
  rw [e1 _ _ (by simp)]
  dsimp only
  rw [if_neg (by simp), e1 _ _ (by
    by_cases h1 : implicit = [] <;> by_cases h2 : orderOnly = [] <;> simp [h1, h2])]
  dsimp only
  have e2 : ∀ a : List Str, takeWords (words a ++ [Tok.eol]) = (a, [.eol]) :=
    fun a => e1 a _ (by simp)
  have e3 : ∀ a b : List Str, takeWords (words a ++ Tok.pipe2 :: (words b ++ [Tok.eol])) =
      (a, .pipe2 :: (words b ++ [.eol])) := fun a b => e1 a _ (by simp)
  by_cases h1 : implicit = [] <;> by_cases h2 : orderOnly = [] <;> simp [h1, h2, e2, e3]

/-- C37: a build statement written for any outputs, rule name, inputs, implicit and
order-only inputs is read by ninja as exactly those lists, path by path. -/
theorem C37_build_statement (outputs : List Str) (rule : Str)
    (inputs implicit orderOnly : List Str)
    (ho : outputs ≠ []) (hop : ∀ p ∈ outputs, plainPath p)
    (hr : plainPath rule ∧ ' ' ∉ rule ∧ ':' ∉ rule)
    (hi : ∀ p ∈ inputs, plainPath p) (him : ∀ p ∈ implicit, plainPath p)
    (hoo : ∀ p ∈ orderOnly, plainPath p) :
    parseBuild (ninjaTokens (ninjaBuildText outputs rule inputs implicit orderOnly ++ ['\n'])) =
      some ⟨outputs, rule, inputs, implicit, orderOnly⟩ := by
  have hre : escape_path rule = rule := by
    rw [escape_path_eq rule hr.1.2.1]
    have : ∀ r : Str, ' ' ∉ r → ':' ∉ r →
        (r.flatMap fun c => if c = ' ' ∨ c = ':' then ['$', c] else [c]) = r := by
      intro r
      induction r with
      | nil => intros; rfl
      | cons c cs ih =>
        intro h1 h2
        simp only [List.mem_cons, not_or] at h1 h2
        have e1 : c ≠ ' ' := fun e => h1.1 e.symm
        have e2 : c ≠ ':' := fun e => h2.1 e.symm
        rw [List.flatMap_cons, ih h1.2 h2.2]
        simp [e1, e2]
    exact this rule hr.2.1 hr.2.2
  rw [tokens_build outputs rule inputs implicit orderOnly ho hop ⟨hr.1, hre⟩ hi him hoo]
  exact parse_build_tokens outputs rule inputs implicit orderOnly

/-- Every dollar of an escaped path is followed by a blank or a colon. -/
theorem chain_escape (p : Str) (h : '$' ∉ p) :
    List.IsChain (fun a b => ¬ (a = '$' ∧ b = '$')) (escape_path p) ∧
    (escape_path p).getLast? ≠ some '$' := by
  rw [escape_path_eq p h]
  induction p with
  | nil => simp
  | cons c cs ih =>
    simp only [List.mem_cons, not_or] at h
    obtain ⟨ih1, ih2⟩ := ih h.2
    have hc : c ≠ '$' := fun e => h.1 e.symm
    rw [List.flatMap_cons]
    constructor
    · by_cases hs : c = ' ' ∨ c = ':'
      · rw [if_pos hs]
        rw [List.isChain_append]
        refine ⟨by simp [hc], ih1, ?_⟩
        intro x hx y hy
        simp at hx
        subst hx
        exact fun e => hc e.1
      · rw [if_neg hs, List.isChain_append]
        refine ⟨by simp, ih1, ?_⟩
        intro x hx y hy
        simp at hx
        subst hx
        exact fun e => hc e.1
    · rw [List.getLast?_append]
      cases hl : (cs.flatMap fun c => if c = ' ' ∨ c = ':' then ['$', c] else [c]).getLast? with
      | none =>
        by_cases hs : c = ' ' ∨ c = ':' <;> simp [hs, hc]
      | some x => rw [hl] at ih2; simpa using ih2

def noDD (t : Str) : Prop :=
  List.IsChain (fun a b => ¬ (a = '$' ∧ b = '$')) t ∧ t.getLast? ≠ some '$'

theorem noDD_append {a b : Str} (ha : noDD a) (hb : noDD b) : noDD (a ++ b) := by
  constructor
  · rw [List.isChain_append]
    refine ⟨ha.1, hb.1, ?_⟩
    intro x hx y hy e
    apply ha.2
    rw [← e.1]; exact hx
  · rw [List.getLast?_append]
    cases hl : b.getLast? with
    | none => simpa using ha.2
    | some x => rw [← hl]; simpa [hl] using hb.2

theorem noDD_join (ps : List Str) (h : ∀ p ∈ ps, noDD p) : noDD (joinWith [' '] ps) := by
  induction ps with
  | nil => exact ⟨by simp [joinWith], by simp [joinWith]⟩
  | cons p ps ih =>
    have hp := h p (by simp)
    have hps := ih (fun q hq => h q (by simp [hq]))
    cases ps with
    | nil => simpa [joinWith] using hp
    | cons q qs =>
      have : joinWith [' '] (p :: q :: qs) = p ++ [' '] ++ joinWith [' '] (q :: qs) := rfl
      rw [this]
      exact noDD_append (noDD_append hp ⟨by simp, by simp⟩) hps

theorem noDD_of_noDollar {p : Str} (h : '$' ∉ p) : noDD p := by
  constructor
  · induction p with
    | nil => simp
    | cons c cs ih =>
      simp only [List.mem_cons, not_or] at h
      rw [List.isChain_cons]
      exact ⟨fun _ _ e => h.1 e.1.symm, ih h.2⟩
  · intro hl
    exact h (List.mem_of_getLast? hl)

theorem noDD_noRun {t : Str} (h : noDD t) (n : Nat) (hn : 2 ≤ n) :
    ¬ List.replicate n '$' <:+: t := by
  rintro ⟨a, b, hab⟩
  have h1 := h.1
  rw [← hab, List.isChain_append, List.isChain_append] at h1
  have h2 := h1.1.2.1
  obtain ⟨m, rfl⟩ : ∃ m, n = m + 2 := ⟨n - 2, by omega⟩
  rw [List.replicate_succ, List.replicate_succ, List.isChain_cons_cons] at h2
  exact h2.1 ⟨rfl, rfl⟩

/-- C37 and C38 together: the build statement as it is written to the file, wrapped
at any width that leaves room for five characters on a continuation line, is read
by ninja as exactly the lists passed in. -/
theorem C37_build_statement_wrapped (width : Nat) (hw : 9 ≤ width) (outputs : List Str)
    (rule : Str) (inputs implicit orderOnly : List Str)
    (ho : outputs ≠ []) (hop : ∀ p ∈ outputs, plainPath p)
    (hr : plainPath rule ∧ ' ' ∉ rule ∧ ':' ∉ rule)
    (hi : ∀ p ∈ inputs, plainPath p) (him : ∀ p ∈ implicit, plainPath p)
    (hoo : ∀ p ∈ orderOnly, plainPath p) :
    parseBuild (ninjaTokens (ninjaBuild width outputs rule inputs implicit orderOnly)) =
      some ⟨outputs, rule, inputs, implicit, orderOnly⟩ := by
  unfold ninjaBuild
  have hesc : ∀ ps : List Str, (∀ p ∈ ps, plainPath p) →
      ∀ p ∈ ps.map escape_path, noDD p ∧ '\n' ∉ p := by
    intro ps h p hp
    obtain ⟨q, hq, rfl⟩ := List.mem_map.mp hp
    refine ⟨chain_escape q (h q hq).2.1, ?_⟩
    rw [escape_path_eq q (h q hq).2.1]
    intro hm
    obtain ⟨c, hc, hm⟩ := List.mem_flatMap.mp hm
    by_cases hs : c = ' ' ∨ c = ':'
    · rw [if_pos hs] at hm
      simp at hm
      subst hm
      simp at hs
    · rw [if_neg hs] at hm
      simp at hm
      subst hm
      exact (h q hq).2.2.2 hc
  have hall : ∀ p ∈ rule :: (inputs.map escape_path ++
      (if implicit ≠ [] then c!"|" :: implicit.map escape_path else []) ++
      (if orderOnly ≠ [] then c!"||" :: orderOnly.map escape_path else [])),
      noDD p ∧ '\n' ∉ p := by
    intro p hp
    simp only [List.mem_cons, List.mem_append] at hp
    rcases hp with rfl | (hp | hp) | hp
    · exact ⟨noDD_of_noDollar hr.1.2.1, hr.1.2.2.2⟩
    · exact hesc _ hi p hp
    · by_cases e : implicit = []
      · simp [e] at hp
      · rw [if_pos e, List.mem_cons] at hp
        rcases hp with rfl | hp
        · exact ⟨noDD_of_noDollar (by decide), by decide⟩
        · exact hesc _ him p hp
    · by_cases e : orderOnly = []
      · simp [e] at hp
      · rw [if_pos e, List.mem_cons] at hp
        rcases hp with rfl | hp
        · exact ⟨noDD_of_noDollar (by decide), by decide⟩
        · exact hesc _ hoo p hp
  have hnlj : ∀ ps : List Str, (∀ p ∈ ps, '\n' ∉ p) → '\n' ∉ joinWith [' '] ps := by
    intro ps
    induction ps with
    | nil => intro _; simp [joinWith]
    | cons p ps ih =>
      intro h
      have h1 := h p (by simp)
      have h2 := ih (fun q hq => h q (by simp [hq]))
      cases ps with
      | nil => simpa [joinWith] using h1
      | cons q qs =>
        have : joinWith [' '] (p :: q :: qs) = p ++ [' '] ++ joinWith [' '] (q :: qs) := rfl
        rw [this]
        simp only [List.mem_append, not_or]
        exact ⟨⟨h1, by decide⟩, h2⟩
  have hdd : noDD (ninjaBuildText outputs rule inputs implicit orderOnly) := by
    unfold ninjaBuildText
    refine noDD_append (noDD_append (noDD_append (noDD_of_noDollar (by decide)) ?_)
      (noDD_of_noDollar (by decide))) ?_
    · exact noDD_join _ (fun p hp => (hesc _ hop p hp).1)
    · exact noDD_join _ (fun p hp => (hall p hp).1)
  have hnl : '\n' ∉ ninjaBuildText outputs rule inputs implicit orderOnly := by
    unfold ninjaBuildText
    simp only [List.mem_append, not_or]
    refine ⟨⟨⟨by decide, ?_⟩, by decide⟩, ?_⟩
    · exact hnlj _ (fun p hp => (hesc _ hop p hp).2)
    · exact hnlj _ (fun p hp => (hall p hp).2)
  rw [C38_wrapping_keeps_tokens width 0 _ hnl (noDD_noRun hdd _ (by omega))]
  exact C37_build_statement outputs rule inputs implicit orderOnly ho hop hr hi him hoo

example : parseBuild (ninjaTokens (ninjaBuild 20 [c!"out dir/a", c!"b"] c!"cc"
    [c!"c:/x y.c", c!"d "] [c!"e"] [c!"f", c!"g"])) =
    some ⟨[c!"out dir/a", c!"b"], c!"cc", [c!"c:/x y.c", c!"d "], [c!"e"], [c!"f", c!"g"]⟩ :=
  C37_build_statement_wrapped 20 (by decide) _ _ _ _ _ (by decide) (by decide) (by decide)
    (by decide) (by decide) (by decide)

/-- Outside `plainPath` the claim fails: `escape_path` leaves `|` alone, so a path
with a bar is read as a separator. -/
theorem C37_bar_not_escaped :
    parseBuild (ninjaTokens (ninjaBuildText [c!"o"] c!"cc" [c!"a|b"] [] [] ++ ['\n'])) =
      some ⟨[c!"o"], c!"cc", [c!"a"], [c!"b"], []⟩ := by decide +kernel

/-- Outside `plainPath` the claim fails: only `$` directly before a blank is doubled,
so a path containing `$ ` is read with the blank as the end of the path. -/
theorem C37_dollar_blank :
    (ninjaTokens (escape_path c!"a$ b")) = [.word [.lit 'a', .lit '$', .lit ' ', .lit 'b']] ∧
    (ninjaTokens (escape_path c!"a$$ b")) ≠
      [.word [.lit 'a', .lit '$', .lit '$', .lit ' ', .lit 'b']] := by
  decide +kernel

end Gyp
