import Verif.Proofs.MakeArgs
import Verif.Spec.MakeActions
/-
The text of the commands of actions and rules: what make and the shell make of it.
-/
namespace Gyp
open Spec

/-! ### Variables that are expanded when they are used -/

theorem split1_eq {n x : Str} (h : '=' ∉ n) : split1 '=' (n ++ c!" = " ++ x) = some (n ++ [' '], ' ' :: x) := by
  have := split1_cons '=' (n ++ [' ']) (' ' :: x) (by simpa using h)
  simpa using this

theorem rstrip_blank {n : Str} (h : ∀ c ∈ n, isBlank c = false) : rstripBlanks (n ++ [' ']) = n := by
  unfold rstripBlanks
  rw [List.reverse_append, List.reverse_singleton, List.singleton_append, List.dropWhile_cons, if_pos (by decide)]
  cases e : n.reverse with
  | nil => rw [List.reverse_eq_nil_iff.mp e]; rfl
  | cons c r =>
    rw [List.dropWhile_cons, if_neg, ← e, List.reverse_reverse]
    have : c ∈ n := List.mem_reverse.mp (by rw [e]; simp)
    simp [h c this]

/-- The text of a variable. -/
theorem later_value {name x : Str} (hn : ∀ c ∈ name, makeVarChar c = true) (hnl : '\n' ∉ x) (hh : '#' ∉ x)
    (hl : ∀ c, x.getLast? = some c → c ≠ '\\') (hb : ∀ c, x.head? = some c → isBlank c = false) :
    laterAssignment (lineText (.setLater name x)) = some (name, x) := by
  have hch : ∀ c, makeVarChar c = true → c ≠ ':' ∧ c ≠ '\n' ∧ c ≠ '#' ∧ c ≠ '\\' ∧ c ≠ '=' ∧ isBlank c = false := by
    intro c hc
    refine ⟨?_, ?_, ?_, ?_, ?_, ?_⟩
    iterate 5 (rintro rfl; revert hc; decide)
    cases hb : isBlank c with
    | false => rfl
    | true =>
      simp only [isBlank, Bool.or_eq_true, decide_eq_true_eq] at hb
      rcases hb with rfl | rfl <;> (revert hc; decide)
  have hn' : VarText name := fun c hc => by
    obtain ⟨h1, h2, h3, h4, -⟩ := hch c (hn c hc)
    exact ⟨h1, h2, h3, h4⟩
  have hlog : makeLogicalLine (lineText (.setLater name x)) = name ++ c!" = " ++ x := by
    unfold makeLogicalLine lineText render
    simp only [Option.getD_some, writeLines, List.flatMap_cons, List.flatMap_nil, List.append_nil]
    rw [List.foldl_append, List.foldl_append, List.foldl_append, hn'.line]
    have h1 : (c!" = ").foldl makeStep ⟨.text, 0, [] ++ name⟩ = ⟨.text, 0, name ++ c!" = "⟩ := by
      simp [makeStep, makeText]
    rw [h1, make_line _ hnl hh hl]
    simp [makeStep, makeText]
  unfold laterAssignment
  rw [hlog, split1_eq fun h => (hch _ (hn _ h)).2.2.2.2.1 rfl, Option.map_some]
  dsimp only
  rw [rstrip_blank fun c hc => (hch c (hn c hc)).2.2.2.2.2]
  have : (' ' :: x).dropWhile isBlank = x := by
    rw [List.dropWhile_cons, if_pos (by decide)]
    cases x with
    | nil => rfl
    | cons c x => rw [List.dropWhile_cons, if_neg (by simp [hb c rfl])]
  rw [this]

/-! ### The target written out -/

/-- A text, the same with the target written out, and its value. -/
inductive Tok (target : Str) (env : Str → Str) : Str → Str → Str → Prop
  | nil : Tok target env [] [] []
  | char {c : Char} {s h x : Str} : c ≠ '$' → Tok target env s h x → Tok target env (c :: s) (c :: h) (c :: x)
  | target {s h x : Str} : Tok target env s h x →
      Tok target env (c!"$(TARGET)" ++ s) (target ++ h) (target ++ x)
  | ref {n s h x : Str} : NameText n → n ≠ c!"TARGET" → Tok target env s h x →
      Tok target env (c!"$(" ++ n ++ c!")" ++ s) (c!"$(" ++ n ++ c!")" ++ h) (env n ++ x)
  | func {f s h x : Str} : f ∈ ruleFunctions → Tok target env s h x →
      Tok target env (c!"$(" ++ f ++ c!"$<)" ++ s) (c!"$(" ++ f ++ c!"$<)" ++ h) (env (f ++ env c!"<") ++ x)

variable {target : Str} {env : Str → Str}

theorem Tok.append {s h x s' h' x' : Str} (a : Tok target env s h x) (b : Tok target env s' h' x') :
    Tok target env (s ++ s') (h ++ h') (x ++ x') := by
  induction a with
  | nil => exact b
  | char hc _ ih => exact .char hc ih
  | target _ ih => simpa using Tok.target ih
  | ref hn ht _ ih => simpa using Tok.ref hn ht ih
  | func hf _ ih => simpa using Tok.func hf ih

theorem Tok.plain {s : Str} (h : '$' ∉ s) : Tok target env s s s := by
  induction s with
  | nil => exact .nil
  | cons c s ih =>
    simp only [List.mem_cons, not_or] at h
    exact .char (Ne.symm h.1) (ih h.2)

theorem ruleFunctions_name {f : Str} (h : f ∈ ruleFunctions) : NameText f := by
  simp only [ruleFunctions, List.mem_cons, List.not_mem_nil, or_false] at h
  rcases h with rfl | rfl | rfl <;> (unfold NameText; decide)

theorem Tok.deep (ht : '$' ∉ target) {s h x : Str} (a : Tok target env s h x) :
    Spec.deep env h = some x := by
  induction a with
  | nil => rfl
  | char hc _ ih => exact deep_cons hc ih
  | target _ ih => exact deep_append (deep_plain env ht) ih
  | ref hn _ _ ih => exact deep_append (deep_ref env hn) ih
  | @func f s h x hf _ ih =>
    have := deep_append (deep_function env (pre := f) (c := '<') (ruleFunctions_name hf) (by decide)) ih
    simpa using this

theorem replaceStr_pass {old new : Str} {c : Char} {s : Str} (h : old.isPrefixOf (c :: s) = false) :
    replaceStr old new (c :: s) = c :: replaceStr old new s := by
  rw [replaceStr, if_neg (by simp [h])]

theorem replaceStr_passes {old new pre s : Str} (h : ∀ a b, pre = a ++ b → b ≠ [] → old.isPrefixOf (b ++ s) = false) :
    replaceStr old new (pre ++ s) = pre ++ replaceStr old new s := by
  induction pre with
  | nil => rfl
  | cons c pre ih =>
    rw [List.cons_append, replaceStr_pass (s := pre ++ s) (h [] (c :: pre) rfl (by simp)), ih fun a b e hb =>
      h (c :: a) b (by rw [e]; rfl) hb]
    rfl

theorem prefix_dollar {c : Char} {s : Str} (hc : c ≠ '$') : (c!"$(TARGET)").isPrefixOf (c :: s) = false := by
  simp [List.isPrefixOf, Ne.symm hc]

/-- No `$` begins a reference to the target in `$(name)`. -/
theorem target_skip {mid s new : Str} (h1 : '$' ∉ mid) (h2 : (c!"TARGET)").isPrefixOf (mid ++ s) = false) :
    replaceStr c!"$(TARGET)" new (c!"$(" ++ mid ++ s) = c!"$(" ++ mid ++ replaceStr c!"$(TARGET)" new s := by
  refine replaceStr_passes ?_
  intro a b e hb
  cases b with
  | nil => exact absurd rfl hb
  | cons c b =>
    cases a with
    | nil =>
      rw [List.nil_append] at e
      rw [← e]
      simpa [List.isPrefixOf] using h2
    | cons d a =>
      refine prefix_dollar ?_
      rintro rfl
      injection e with e1 e2
      have : '$' ∈ '(' :: mid := by
        show '$' ∈ ['('] ++ mid
        rw [show (['('] ++ mid : Str) = a ++ '$' :: b from e2]
        simp
      simp [h1] at this

theorem isPrefixOf_false {a b : Str} (h : ¬ a <+: b) : a.isPrefixOf b = false := by
  cases e : a.isPrefixOf b with
  | false => rfl
  | true => exact absurd (List.isPrefixOf_iff_prefix.mp e) h

theorem Tok.hard {s h x : Str} (a : Tok target env s h x) : replaceStr c!"$(TARGET)" target s = h := by
  induction a with
  | nil => rw [replaceStr]
  | @char c s h x hc _ ih =>
    rw [replaceStr_pass (prefix_dollar hc), ih]
  | @target s h x _ ih =>
    have e : c!"$(TARGET)" ++ s = '$' :: (c!"(TARGET)" ++ s) := rfl
    rw [e, replaceStr, if_pos ⟨by simp [List.isPrefixOf], by simp⟩, ← e]
    have : (c!"$(TARGET)" ++ s).drop (c!"$(TARGET)").length = s := List.drop_left
    rw [this, ih]
  | @ref n s h x hn ht _ ih =>
    have := target_skip (mid := n ++ c!")") (s := s) (new := target) (by simp [hn.1]) (isPrefixOf_false (by
      rintro ⟨r, e⟩
      -- the name up to the parenthesis
      apply ht
      have e' : n ++ ')' :: s = c!"TARGET" ++ ')' :: r := by simpa using e.symm
      have k1 := split1_cons ')' n s hn.2.2
      rw [e', split1_cons ')' c!"TARGET" r (by decide)] at k1
      injection k1 with k1
      injection k1 with k1 _
      exact k1.symm))
    simp only [List.append_assoc] at this ⊢
    rw [this, ih]
  | @func f s h x hf _ ih =>
    have hpre : (c!"TARGET)").isPrefixOf (f ++ (c!"$<)" ++ s)) = false := by
      simp only [ruleFunctions, List.mem_cons, List.not_mem_nil, or_false] at hf
      rcases hf with rfl | rfl | rfl <;> simp [List.isPrefixOf]
    have := target_skip (mid := f) (s := c!"$<)" ++ s) (new := target) (ruleFunctions_name hf).1 hpre
    simp only [List.append_assoc] at this ⊢
    rw [this]
    congr 2
    have e : replaceStr c!"$(TARGET)" target (c!"$<)" ++ s) = c!"$<)" ++ replaceStr c!"$(TARGET)" target s := by
      refine replaceStr_passes ?_
      intro a b e hb
      match a, e with
      | [], e => rw [List.nil_append] at e; rw [← e]; simp [List.isPrefixOf]
      | [_], e => injection e with e1 e2; change _ = b at e2; rw [← e2]; simp [List.isPrefixOf]
      | [_, _], e =>
        injection e with e1 e2; injection e2 with e2 e3; change _ = b at e3; rw [← e3]
        simp [List.isPrefixOf]
      | _ :: _ :: _ :: r, e =>
        injection e with e1 e2; injection e2 with e2 e3; injection e3 with e3 e4
        have : b = [] := (List.append_eq_nil_iff.mp e4.symm).2
        exact absurd this hb
    rw [e, ih]

/-- Nothing in it that ends a line of a makefile. -/
def LineText (s : Str) : Prop := '\n' ∉ s ∧ '#' ∉ s

theorem LineText.append {a b : Str} (ha : LineText a) (hb : LineText b) : LineText (a ++ b) :=
  ⟨by simp [ha.1, hb.1], by simp [ha.2, hb.2]⟩

theorem LineText.cons {c : Char} {b : Str} (hc : c ≠ '\n' ∧ c ≠ '#') (hb : LineText b) : LineText (c :: b) :=
  ⟨by simp [Ne.symm hc.1, hb.1], by simp [Ne.symm hc.2, hb.2]⟩

theorem argVar_name {n : Str} (h : ArgVar env n) : NameText n ∧ LineText n ∧ backslashEscape n = n := by
  obtain ⟨h1, -⟩ := h
  have no : ∀ c ∈ ['$', '(', ')', '"', '\\', '`', '#', '\n', ' '], c ∉ n := fun c hc hn => h1 c hn hc
  refine ⟨⟨no _ (by simp), no _ (by simp), no _ (by simp)⟩, ⟨no _ (by simp), no _ (by simp)⟩, ?_⟩
  clear no
  unfold backslashEscape
  induction n with
  | nil => rfl
  | cons c n ih =>
    have hc := h1 c (by simp)
    simp only [List.mem_cons, List.not_mem_nil, or_false, not_or] at hc
    rw [List.flatMap_cons, ih fun d hd => h1 d (by simp [hd]), if_neg (by simp [hc])]
    rfl

theorem escape_append (a b : Str) : backslashEscape (a ++ b) = backslashEscape a ++ backslashEscape b :=
  List.flatMap_append

/-- The text of an argument. -/
theorem arg_tok (hT : LineText target) (henv : env c!"TARGET" = target) {s x : Str} (a : ArgText env s x) :
    ∃ h, Tok target env s h x ∧ LineText h := by
  induction a with
  | nil => exact ⟨[], .nil, by simp [LineText]⟩
  | @char c s x hc _ ih =>
    simp only [List.mem_cons, List.not_mem_nil, or_false, not_or] at hc
    obtain ⟨h, h1, h2⟩ := ih
    exact ⟨c :: h, .char hc.1 h1, .cons ⟨hc.2.2, hc.2.1⟩ h2⟩
  | @ref n s x hn _ ih =>
    obtain ⟨h, h1, h2⟩ := ih
    obtain ⟨k1, k2, -⟩ := argVar_name hn
    by_cases e : n = c!"TARGET"
    · subst e
      rw [henv]
      exact ⟨target ++ h, .target h1, hT.append h2⟩
    · exact ⟨_, .ref k1 e h1, ((LineText.append (by simp [LineText]) k2).append (by simp [LineText])).append h2⟩
  | @source f s x hf _ _ ih =>
    obtain ⟨h, h1, h2⟩ := ih
    refine ⟨_, .func hf h1, (LineText.append (LineText.append (by simp [LineText]) ?_) (by simp [LineText])).append h2⟩
    simp only [ruleFunctions, List.mem_cons, List.not_mem_nil, or_false] at hf
    rcases hf with rfl | rfl | rfl <;> simp [LineText]

theorem lex_double_raw {y : Str} (h : ∀ c ∈ y, c ∉ ['$', '"', '\\', '`']) (w : Str) (done : List Str) :
    lexRun false ⟨.double, some w, done⟩ y = some ⟨.double, some (w ++ y), done⟩ := by
  induction y generalizing w with
  | nil => simp [lexRun]
  | cons c y ih =>
    have hc := h c (by simp)
    simp only [List.mem_cons, List.not_mem_nil, or_false, not_or] at hc
    have : lexStep false ⟨.double, some w, done⟩ c = some ⟨.double, some (w ++ [c]), done⟩ := by
      simp [lexStep, hc, Lex.push]
    rw [lexRun, this, Option.bind_some, ih fun d hd => h d (by simp [hd])]
    simp

theorem lex_double_char {c : Char} (h : c ≠ '$') (w : Str) (done : List Str) :
    lexRun false ⟨.double, some w, done⟩ (backslashEscape [c]) = some ⟨.double, some (w ++ [c]), done⟩ :=
  lex_double_escaped false [c] w done (Or.inr (by simpa using Ne.symm h))

/-- The text of an argument between quotation marks. -/
theorem arg_double (hT : LineText target) (henv : env c!"TARGET" = target) {s x : Str} (a : ArgText env s x) :
    ∃ h y, Tok target env (backslashEscape s) h y ∧ LineText h ∧
      ∀ w done, lexRun false ⟨.double, some w, done⟩ y = some ⟨.double, some (w ++ x), done⟩ := by
  induction a with
  | nil => exact ⟨[], [], .nil, by simp [LineText], by simp [lexRun]⟩
  | @char c s x hc _ ih =>
    simp only [List.mem_cons, List.not_mem_nil, or_false, not_or] at hc
    obtain ⟨h, y, h1, h2, h3⟩ := ih
    have hd : '$' ∉ backslashEscape [c] := by
      unfold backslashEscape
      rw [List.flatMap_cons, List.flatMap_nil, List.append_nil]
      split <;> simp [Ne.symm hc.1]
    have hl : LineText (backslashEscape [c]) := by
      unfold backslashEscape LineText
      rw [List.flatMap_cons, List.flatMap_nil, List.append_nil]
      split <;> simp [Ne.symm hc.2.1, Ne.symm hc.2.2]
    refine ⟨backslashEscape [c] ++ h, backslashEscape [c] ++ y, ?_, hl.append h2, ?_⟩
    · have := (Tok.plain (target := target) (env := env) hd).append h1
      rw [← escape_append] at this
      exact this
    · intro w done
      rw [lexRun_append, lex_double_char hc.1, Option.bind_some, h3]
      simp
  | @ref n s x hn _ ih =>
    obtain ⟨h, y, h1, h2, h3⟩ := ih
    obtain ⟨k1, k2, k3⟩ := argVar_name hn
    have hesc : backslashEscape (c!"$(" ++ n ++ c!")" ++ s) = c!"$(" ++ n ++ c!")" ++ backslashEscape s := by
      rw [escape_append, escape_append, escape_append, k3]
      rfl
    have hlex : ∀ w done, lexRun false ⟨.double, some w, done⟩ (env n ++ y) =
        some ⟨.double, some (w ++ (env n ++ x)), done⟩ := by
      intro w done
      rw [lexRun_append, lex_double_raw hn.2.2.2, Option.bind_some, h3]
      simp
    rw [hesc]
    by_cases e : n = c!"TARGET"
    · subst e
      rw [henv] at hlex ⊢
      exact ⟨target ++ h, target ++ y, .target h1, hT.append h2, hlex⟩
    · exact ⟨_, _, .ref k1 e h1,
        ((LineText.append (by simp [LineText]) k2).append (by simp [LineText])).append h2, hlex⟩
  | @source f s x hf hv _ ih =>
    obtain ⟨h, y, h1, h2, h3⟩ := ih
    have hesc : backslashEscape (c!"$(" ++ f ++ c!"$<)" ++ s) = c!"$(" ++ f ++ c!"$<)" ++ backslashEscape s := by
      rw [escape_append, escape_append, escape_append]
      simp only [ruleFunctions, List.mem_cons, List.not_mem_nil, or_false] at hf
      rcases hf with rfl | rfl | rfl <;> rfl
    rw [hesc]
    refine ⟨_, _, .func hf h1, (LineText.append (LineText.append (by simp [LineText]) ?_) (by simp [LineText])).append h2, ?_⟩
    · simp only [ruleFunctions, List.mem_cons, List.not_mem_nil, or_false] at hf
      rcases hf with rfl | rfl | rfl <;> simp [LineText]
    · intro w done
      rw [lexRun_append, lex_double_raw hv, Option.bind_some, h3]
      simp

/-- Not the end of a line that is continued. -/
def LastOk (s : Str) : Prop := ∀ c, s.getLast? = some c → c ≠ '\\'

theorem LastOk.append {a b : Str} (ha : LastOk a) (hb : LastOk b) : LastOk (a ++ b) := by
  intro c hc
  rw [List.getLast?_append] at hc
  cases e : b.getLast? with
  | some d => rw [e] at hc; exact hb c (by rw [e]; exact hc)
  | none => rw [e] at hc; exact ha c hc

theorem argText_noDollar {s x : Str} (a : ArgText env s x) (h : '$' ∉ s) : x = s := by
  induction a with
  | nil => rfl
  | char _ _ ih => rw [ih (by simp_all)]
  | ref => simp at h
  | source => simp at h

theorem argText_line {s x : Str} (a : ArgText env s x) (h : '$' ∉ s) : LineText s := by
  induction a with
  | nil => simp [LineText]
  | char hc _ ih =>
    simp only [List.mem_cons, List.not_mem_nil, or_false, not_or] at hc
    exact .cons ⟨hc.2.2, hc.2.1⟩ (ih (by simp_all))
  | ref => simp at h
  | source => simp at h

theorem escape_line {s : Str} (h : LineText s) : LineText (backslashEscape s) := by
  unfold LineText backslashEscape
  constructor <;>
  · intro hc
    obtain ⟨c, hc1, hc2⟩ := List.mem_flatMap.mp hc
    split at hc2
    · simp only [List.mem_cons, List.not_mem_nil, or_false] at hc2
      rcases hc2 with e | e
      · cases e
      · subst e
        first | exact h.1 hc1 | exact h.2 hc1
    · rw [List.mem_singleton] at hc2
      subst hc2
      first | exact h.1 hc1 | exact h.2 hc1

theorem escape_last {s : Str} (h : LastOk s) : LastOk (backslashEscape s) := by
  rcases List.eq_nil_or_concat s with rfl | ⟨s, c, rfl⟩
  · intro c hc; cases hc
  · have hc := h c (by simp)
    rw [List.concat_eq_append, escape_append]
    intro d hd
    rw [List.getLast?_append] at hd
    have e : (backslashEscape [c]).getLast? = some c := by
      unfold backslashEscape
      rw [List.flatMap_cons, List.flatMap_nil, List.append_nil]
      split <;> rfl
    rw [e] at hd
    simp at hd
    rw [← hd]; exact hc

/-- An argument as it is written. -/
theorem arg_encoded (hT : LineText target) (henv : env c!"TARGET" = target) {s x : Str} (a : ArgText env s x) :
    ∃ h y, Tok target env (EncodePOSIXShellArgument s) h y ∧ LineText h ∧ (LastOk s → LastOk h) ∧
      ∀ done, lexRun false ⟨.plain, none, done⟩ y = some ⟨.plain, some x, done⟩ := by
  unfold EncodePOSIXShellArgument
  by_cases hq : needsQuote s = true
  · obtain ⟨h, y, h1, h2, h3⟩ := arg_double hT henv a
    rw [if_pos hq]
    refine ⟨['"'] ++ h ++ ['"'], ['"'] ++ y ++ ['"'],
      ((Tok.plain (by decide)).append h1).append (.plain (by decide)),
      (LineText.append (by simp [LineText]) h2).append (by simp [LineText]), ?_, ?_⟩
    · intro _ c hc
      rw [List.getLast?_append] at hc
      simp at hc
      rw [← hc]; decide
    · intro done
      rw [lexRun_append, lexRun_append]
      have : lexRun false ⟨.plain, none, done⟩ ['"'] = some ⟨.double, some [], done⟩ := by
        simp [lexRun, lexStep, Lex.push]
      rw [this, Option.bind_some, h3, Option.bind_some]
      simp [lexRun, lexStep]
  · have hd : '$' ∉ s := by
      intro hc
      apply hq
      unfold needsQuote
      simp only [Bool.or_eq_true, List.any_eq_true, decide_eq_true_eq]
      exact Or.inl ⟨_, hc, by decide⟩
    obtain rfl := argText_noDollar a hd
    have he : '$' ∉ backslashEscape x := by
      intro hc
      unfold backslashEscape at hc
      obtain ⟨c, hc1, hc2⟩ := List.mem_flatMap.mp hc
      split at hc2
      · rename_i hsp
        simp only [List.mem_cons, List.not_mem_nil, or_false] at hc2
        rcases hc2 with e | e
        · cases e
        · subst e; revert hsp; decide
      · rw [List.mem_singleton] at hc2
        subst hc2; exact hd hc1
    have hlex := fun done => lex_encoded false x done (Or.inr hd)
    unfold EncodePOSIXShellArgument at hlex
    rw [if_neg hq] at hlex ⊢
    simp only [List.nil_append, List.append_nil] at hlex ⊢
    exact ⟨_, _, .plain he, escape_line (argText_line a hd), escape_last, hlex⟩

/-! ### Scripts -/

/-- Reading a text as words of a command. -/
def LexWord (y x : Str) : Prop := ∀ done, lexRun false ⟨.plain, none, done⟩ y = some ⟨.plain, some x, done⟩

theorem LexWord.words {y x : Str} (h : LexWord y x) : shellWords y = some [x] :=
  shellWords_iff.mpr ⟨some x, [], h [], rfl⟩

/-- A list of arguments as it is written. -/
theorem args_encoded (hT : LineText target) (henv : env c!"TARGET" = target) {l xs : List Str}
    (a : List.Forall₂ (ArgText env) l xs) :
    ∃ h y, Tok target env (EncodePOSIXShellList l) h y ∧ LineText h ∧
      ((∀ s, l.getLast? = some s → LastOk s) → LastOk h) ∧ shellWords y = some xs := by
  unfold EncodePOSIXShellList
  induction a with
  | nil => exact ⟨[], [], .nil, by simp [LineText], fun _ c hc => (by cases hc), rfl⟩
  | @cons s x l xs h1 h2 ih =>
    obtain ⟨ha, ya, t1, l1, o1, w1⟩ := arg_encoded hT henv h1
    cases h2 with
    | nil => exact ⟨ha, ya, t1, l1, fun h => o1 (h s rfl), LexWord.words w1⟩
    | @cons s' x' l xs g1 g2 =>
      obtain ⟨hb, yb, t2, l2, o2, w2⟩ := ih
      refine ⟨ha ++ ' ' :: hb, ya ++ ' ' :: yb, ?_, l1.append (.cons (by decide) l2), ?_, ?_⟩
      · have := t1.append (Tok.char (c := ' ') (by decide) t2)
        simpa [joinWith] using this
      · intro h
        have ok2 := o2 fun s hs => h s (by rw [List.getLast?_cons_cons]; exact hs)
        intro c hc
        rw [List.getLast?_append] at hc
        cases e : (' ' :: hb).getLast? with
        | none => simp at e
        | some d =>
          rw [e] at hc
          simp at hc
          subst hc
          cases hb with
          | nil => simp at e; rw [← e]; decide
          | cons f hb => rw [List.getLast?_cons_cons] at e; exact ok2 d e
      · exact words_append (LexWord.words w1) w2

theorem scriptRun_words {a : Str} {s s' : Lex} {cmds : List (List Str)} (h : lexRun false s a = some s') (b : Str) :
    scriptRun s cmds (a ++ b) = scriptRun s' cmds b := by
  induction a generalizing s with
  | nil =>
    simp only [lexRun, Option.some.injEq] at h
    rw [h]; rfl
  | cons c a ih =>
    rw [lexRun] at h
    cases e : lexStep false s c with
    | none => rw [e] at h; cases h
    | some s1 =>
      rw [e] at h
      have hc : ¬ (s.mode = .plain ∧ c = ';') := by
        rintro ⟨h1, rfl⟩
        simp [lexStep, h1, activePlain] at e
      rw [List.cons_append, scriptRun, if_neg hc, e, Option.bind_some]
      exact ih h

theorem script_more (s : Lex) (cmds : List (List Str)) (b : Str) :
    scriptRun s cmds b = (scriptRun s [] b).map fun (s', more) => (s', cmds ++ more) := by
  induction b generalizing s cmds with
  | nil => simp [scriptRun]
  | cons c b ih =>
    rw [scriptRun, scriptRun]
    split
    · rw [ih, ih _ ([] ++ _)]
      cases scriptRun ⟨.plain, none, []⟩ [] b <;> simp
    · cases lexStep false s c with
      | none => rfl
      | some s1 => rw [Option.bind_some, Option.bind_some, ih]

/-- One command and the rest. -/
theorem script_cons {a b : Str} {ws : List Str} {cmds : List (List Str)} (ha : shellWords a = some ws)
    (hb : shellCommands b = some cmds) : shellCommands (a ++ c!"; " ++ b) = some (ws :: cmds) := by
  obtain ⟨c1, d1, h1, rfl⟩ := shellWords_iff.mp ha
  unfold shellCommands at hb ⊢
  have : scriptRun ⟨.plain, none, []⟩ [] (a ++ c!"; " ++ b) =
      (scriptRun ⟨.plain, none, []⟩ [] b).map fun (s', more) => (s', [d1 ++ c1.toList] ++ more) := by
    rw [List.append_assoc, scriptRun_words h1]
    show scriptRun _ [] (';' :: ' ' :: b) = _
    rw [scriptRun, if_pos ⟨rfl, rfl⟩, scriptRun, if_neg (by simp)]
    show scriptRun ⟨.plain, none, []⟩ _ b = _
    rw [script_more]
    rfl
  rw [this]
  cases e : scriptRun ⟨.plain, none, []⟩ [] b with
  | none => rw [e] at hb; cases hb
  | some r =>
    obtain ⟨s, more⟩ := r
    rw [e] at hb
    simp only [Option.bind_some, Option.map_some] at hb ⊢
    split at hb
    · rename_i hm
      injection hb with hb
      rw [if_pos hm, ← hb]
      simp
    · cases hb

theorem script_one {a : Str} {ws : List Str} (ha : shellWords a = some ws) : shellCommands a = some [ws] := by
  obtain ⟨c1, d1, h1, rfl⟩ := shellWords_iff.mp ha
  unfold shellCommands
  have := scriptRun_words (cmds := []) h1 []
  rw [List.append_nil] at this
  rw [this]
  simp [scriptRun]

end Gyp
