import Verif.Model.CMake
import Verif.Spec.CMake
/-
Reading back what the CMake generator writes.
-/
namespace Gyp
open Gyp.Spec

/-! ### The reader -/

theorem lexAll_append (s : CState) (a b : Str) :
    lexAll s (a ++ b) = (lexAll s a).bind fun s' => lexAll s' b := by
  induction a generalizing s with
  | nil => rfl
  | cons c cs ih =>
    simp only [List.cons_append, lexAll]
    cases lexStepC s c with
    | none => rfl
    | some s' => simpa using ih s'

/-- A text that reads as whole commands. -/
def Cmds (t : Str) (cs : List CCall) : Prop :=
  ∀ s : CState, s.mode = .top →
    ∃ s', lexAll s t = some s' ∧ s'.mode = .top ∧ s'.done = s.done ++ cs

theorem Cmds.nil : Cmds [] [] := fun s hs => ⟨s, rfl, hs, by simp⟩

theorem Cmds.append {a b : Str} {x y : List CCall} (ha : Cmds a x) (hb : Cmds b y) :
    Cmds (a ++ b) (x ++ y) := by
  intro s hs
  obtain ⟨s₁, h₁, m₁, d₁⟩ := ha s hs
  obtain ⟨s₂, h₂, m₂, d₂⟩ := hb s₁ m₁
  refine ⟨s₂, ?_, m₂, ?_⟩
  · rw [lexAll_append, h₁]; exact h₂
  · rw [d₂, d₁, List.append_assoc]

theorem Cmds.read {t : Str} {cs : List CCall} (h : Cmds t cs) : readCommands t = some cs := by
  obtain ⟨s', h₁, m₁, d₁⟩ := h ⟨.top, [], [], [], []⟩ rfl
  unfold readCommands
  rw [h₁]
  simp [m₁, d₁]

/-- A text that reads as whole arguments, with a blank after the last. -/
def ArgText (t : Str) (as : List CArg) : Prop :=
  ∀ s : CState, s.mode = .gap →
    ∃ s', lexAll s t = some s' ∧ s'.mode = .gap ∧ s'.done = s.done ∧ s'.name = s.name ∧
      s'.args = s.args ++ as

/-- A text that reads as arguments when a closing parenthesis follows. -/
def EndText (t : Str) (as : List CArg) : Prop :=
  ∀ s : CState, s.mode = .gap →
    ∃ s', lexAll s (t ++ [')']) = some s' ∧ s'.mode = .top ∧
      s'.done = s.done ++ [⟨s.name, s.args ++ as⟩]

theorem ArgText.nil : ArgText [] [] := fun s hs => ⟨s, rfl, hs, rfl, rfl, by simp⟩

theorem ArgText.append {a b : Str} {x y : List CArg} (ha : ArgText a x) (hb : ArgText b y) :
    ArgText (a ++ b) (x ++ y) := by
  intro s hs
  obtain ⟨s₁, h₁, m₁, d₁, n₁, e₁⟩ := ha s hs
  obtain ⟨s₂, h₂, m₂, d₂, n₂, e₂⟩ := hb s₁ m₁
  refine ⟨s₂, ?_, m₂, d₂.trans d₁, n₂.trans n₁, ?_⟩
  · rw [lexAll_append, h₁]; exact h₂
  · rw [e₂, e₁, List.append_assoc]

theorem ArgText.blank {b : Char} (hb : isBlankC b) : ArgText [b] [] := by
  intro s hs
  refine ⟨s, ?_, hs, rfl, rfl, by simp⟩
  simp [lexAll, lexStepC, hs, hb]

theorem ArgText.blanks {t : Str} (ht : ∀ b ∈ t, isBlankC b) : ArgText t [] := by
  induction t with
  | nil => exact ArgText.nil
  | cons b t ih =>
    exact ArgText.append (a := [b]) (x := []) (y := []) (ArgText.blank (ht b (by simp)))
      (ih fun c hc => ht c (by simp [hc]))

theorem EndText.append {a b : Str} {x y : List CArg} (ha : ArgText a x) (hb : EndText b y) :
    EndText (a ++ b) (x ++ y) := by
  intro s hs
  obtain ⟨s₁, h₁, m₁, d₁, n₁, e₁⟩ := ha s hs
  obtain ⟨s₂, h₂, m₂, d₂⟩ := hb s₁ m₁
  refine ⟨s₂, ?_, m₂, ?_⟩
  · rw [List.append_assoc, lexAll_append, h₁]; exact h₂
  · rw [d₂, d₁, n₁, e₁, List.append_assoc]

theorem EndText.nil : EndText [] [] := by
  intro s hs
  refine ⟨{ s with mode := .top, done := s.done ++ [⟨s.name, s.args⟩] }, ?_, rfl, by simp⟩
  simp [lexAll, lexStepC, hs, isBlankC]

/-- A character that is read as it is in a bare argument. -/
def bareChar (c : Char) : Bool := !isBlankC c && !(c ∈ c!")(#\"\\[")

theorem bareChar_not {c : Char} (h : bareChar c = true) :
    isBlankC c = false ∧ c ≠ ')' ∧ c ≠ '\\' ∧ c ∉ c!"(#\"" ∧ c ≠ '"' ∧ c ∉ c!"(#[" := by
  simp only [bareChar, Bool.and_eq_true, Bool.not_eq_true', List.mem_cons, List.not_mem_nil,
    or_false, decide_eq_false_iff_not, not_or] at h
  obtain ⟨h₁, h₂, h₃, h₄, h₅, h₆, h₇⟩ := h
  simp [*]

theorem lex_bare {w : Str} (hw : ∀ c ∈ w, bareChar c) (s : CState) (hs : s.mode = .bare) :
    lexAll s w = some { s with cur := s.cur ++ w } := by
  induction w generalizing s with
  | nil => simp [lexAll]
  | cons c w ih =>
    obtain ⟨h₁, h₂, h₃, h₄, h₅, h₆⟩ := bareChar_not (hw c (by simp))
    have : lexStepC s c = some { s with cur := s.cur ++ [c] } := by
      simp only [lexStepC, hs, h₁, h₂, h₃, h₄, if_false, Bool.false_eq_true]
    rw [lexAll, this, Option.bind_some]
    refine (ih (fun d hd => hw d (by simp [hd])) { s with cur := s.cur ++ [c] } hs).trans ?_
    simp

/-- From a gap, the characters of a bare argument. -/
theorem lex_bare_start {w : Str} (hw : ∀ c ∈ w, bareChar c) (hne : w ≠ []) (s : CState)
    (hs : s.mode = .gap) : lexAll s w = some { s with mode := .bare, cur := w } := by
  obtain ⟨c, w, rfl⟩ := List.exists_cons_of_ne_nil hne
  obtain ⟨h₁, h₂, h₃, h₄, h₅, h₆⟩ := bareChar_not (hw c (by simp))
  have : lexStepC s c = some { s with mode := .bare, cur := [c] } := by
    simp only [lexStepC, hs, h₁, h₂, h₃, h₅, h₆, if_false, Bool.false_eq_true]
  rw [lexAll, this, Option.bind_some, lex_bare (fun d hd => hw d (by simp [hd])) _ rfl]
  simp

/-- How the characters of a bare argument are read, in general. -/
def BareLex (t : Str) : Prop :=
  t ≠ [] ∧ ∀ s : CState, s.mode = .gap → lexAll s t = some { s with mode := .bare, cur := t }

theorem BareLex.chars {w : Str} (hw : ∀ c ∈ w, bareChar c) (hne : w ≠ []) : BareLex w :=
  ⟨hne, fun s hs => lex_bare_start hw hne s hs⟩

theorem BareLex.arg {t : Str} (h : BareLex t) {b : Char} (hb : isBlankC b) :
    ArgText (t ++ [b]) [.bare t] := by
  intro s hs
  refine ⟨{ s with mode := .gap, cur := t, args := s.args ++ [.bare t] }, ?_, rfl, rfl, rfl, rfl⟩
  rw [lexAll_append, h.2 s hs]
  simp [lexAll, lexStepC, hb]

theorem BareLex.last {t : Str} (h : BareLex t) : EndText t [.bare t] := by
  intro s hs
  refine ⟨{ s with mode := .top, cur := t, done := s.done ++ [⟨s.name, s.args ++ [.bare t]⟩] },
    ?_, rfl, rfl⟩
  rw [lexAll_append, h.2 s hs]
  simp [lexAll, lexStepC, isBlankC]

/-- How the characters of a quoted argument are read, in general. -/
def QuotedLex (t : Str) : Prop :=
  ∀ s : CState, s.mode = .quoted → lexAll s t = some { s with cur := s.cur ++ t }

theorem QuotedLex.nil : QuotedLex [] := fun s _ => by simp [lexAll]

theorem QuotedLex.append {a b : Str} (ha : QuotedLex a) (hb : QuotedLex b) :
    QuotedLex (a ++ b) := by
  intro s hs
  rw [lexAll_append, ha s hs, Option.bind_some]
  refine (hb { s with cur := s.cur ++ a } hs).trans ?_
  simp

theorem QuotedLex.flatMap {f : Char → Str} {v : Str} (hf : ∀ c ∈ v, QuotedLex (f c)) :
    QuotedLex (v.flatMap f) := by
  induction v with
  | nil => exact QuotedLex.nil
  | cons c v ih =>
    rw [List.flatMap_cons]
    exact (hf c (by simp)).append (ih fun d hd => hf d (by simp [hd]))

theorem QuotedLex.esc (c : Char) : QuotedLex ['\\', c] := by
  intro s hs
  have h1 : lexStepC s '\\' = some { s with mode := .quotedEsc } := by
    simp [lexStepC, hs]
  simp [lexAll, h1]
  simp [lexStepC]
  exact hs.symm

theorem QuotedLex.char {c : Char} (h : c ≠ '"') (h' : c ≠ '\\') : QuotedLex [c] := by
  intro s hs
  simp [lexAll, lexStepC, hs, h, h']

theorem QuotedLex.arg {t : Str} (h : QuotedLex t) {b : Char} (hb : isBlankC b) :
    ArgText ('"' :: t ++ ['"', b]) [.quoted t] := by
  intro s hs
  refine ⟨{ s with mode := .gap, cur := t, args := s.args ++ [.quoted t] }, ?_, rfl, rfl, rfl,
    rfl⟩
  have h1 : lexStepC s '"' = some { s with mode := .quoted, cur := [] } := by
    simp [lexStepC, hs, isBlankC]
  rw [List.cons_append, lexAll, h1, Option.bind_some, lexAll_append, h _ rfl]
  simp [lexAll, lexStepC, hb]

theorem QuotedLex.last {t : Str} (h : QuotedLex t) :
    EndText ('"' :: t ++ ['"']) [.quoted t] := by
  intro s hs
  refine ⟨{ s with mode := .top, cur := t, args := s.args ++ [.quoted t],
                   done := s.done ++ [⟨s.name, s.args ++ [.quoted t]⟩] }, ?_, rfl, rfl⟩
  have h1 : lexStepC s '"' = some { s with mode := .quoted, cur := [] } := by
    simp [lexStepC, hs, isBlankC]
  rw [List.cons_append, List.cons_append, lexAll, h1, Option.bind_some, List.append_assoc,
    lexAll_append, h _ rfl]
  simp [lexAll, lexStepC, isBlankC]

theorem lex_ident {n : Str} (hn : ∀ c ∈ n, isIdent c) (s : CState) (hs : s.mode = .ident) :
    lexAll s n = some { s with name := s.name ++ n } := by
  induction n generalizing s with
  | nil => simp [lexAll]
  | cons c n ih =>
    have : lexStepC s c = some { s with name := s.name ++ [c] } := by
      simp [lexStepC, hs, hn c (by simp)]
    rw [lexAll, this, Option.bind_some]
    refine (ih (fun d hd => hn d (by simp [hd])) { s with name := s.name ++ [c] } hs).trans ?_
    simp

theorem isIdent_not_blank {c : Char} (h : isIdent c = true) : isBlankC c = false ∧ c ≠ '#' := by
  constructor
  · by_contra hc
    simp only [isBlankC, Bool.not_eq_false, Bool.or_eq_true, decide_eq_true_eq] at hc
    rcases hc with ((rfl | rfl) | rfl) | rfl <;> revert h <;> decide
  · rintro rfl; revert h; decide

/-- One command. -/
theorem EndText.cmd {n t : Str} {as : List CArg} (ht : EndText t as) (hne : n ≠ [])
    (hn : ∀ c ∈ n, isIdent c) : Cmds (n ++ '(' :: t ++ c!")\n") [⟨n, as⟩] := by
  intro s hs
  obtain ⟨c, n, rfl⟩ := List.exists_cons_of_ne_nil hne
  have hc := hn c (by simp)
  have h1 : lexStepC s c = some { s with mode := .ident, name := [c], args := [] } := by
    simp [lexStepC, hs, hc, isIdent_not_blank hc]
  obtain ⟨s₂, h₂, m₂, d₂⟩ := ht { s with mode := .gap, name := c :: n, args := [] } rfl
  refine ⟨s₂, ?_, m₂, by simpa using d₂⟩
  have e : (c :: n) ++ '(' :: t ++ c!")\n" = c :: (n ++ '(' :: ((t ++ [')']) ++ ['\n'])) := by simp
  rw [e, lexAll, h1, Option.bind_some, lexAll_append,
    lex_ident (fun d hd => hn d (by simp [hd])) _ rfl, Option.bind_some, lexAll]
  have h3 : lexStepC { s with mode := .ident, name := [c] ++ n, args := [] } '(' =
      some { s with mode := .gap, name := c :: n, args := [] } := by
    simp [lexStepC]
    decide
  simp only [h3, Option.bind_some]
  rw [lexAll_append, h₂, Option.bind_some]
  simp [lexAll, lexStepC, m₂, isBlankC]

/-! ### Arguments -/

theorem allValues_append {env : CEnv} {a b : List CArg} {x y : List Str}
    (ha : allValues env a = some x) (hb : allValues env b = some y) :
    allValues env (a ++ b) = some (x ++ y) := by
  induction a generalizing x with
  | nil => simp [allValues] at ha; subst ha; simpa using hb
  | cons c cs ih =>
    simp only [allValues] at ha
    cases h₁ : argValues env c with
    | none => simp [h₁] at ha
    | some v =>
      cases h₂ : allValues env cs with
      | none => simp [h₁, h₂] at ha
      | some vs =>
        simp [h₁, h₂] at ha
        subst ha
        simp [allValues, h₁, ih h₂]

/-- Whole arguments with their values. -/
def Gives (env : CEnv) (t : Str) (vs : List Str) : Prop :=
  ∃ as, ArgText t as ∧ allValues env as = some vs

/-- The last arguments with their values. -/
def EndGives (env : CEnv) (t : Str) (vs : List Str) : Prop :=
  ∃ as, EndText t as ∧ allValues env as = some vs

theorem Gives.nil {env : CEnv} : Gives env [] [] := ⟨[], ArgText.nil, rfl⟩

theorem Gives.append {env : CEnv} {a b : Str} {x y : List Str} (ha : Gives env a x)
    (hb : Gives env b y) : Gives env (a ++ b) (x ++ y) := by
  obtain ⟨as, h₁, h₂⟩ := ha
  obtain ⟨bs, h₃, h₄⟩ := hb
  exact ⟨as ++ bs, h₁.append h₃, allValues_append h₂ h₄⟩

theorem Gives.then {env : CEnv} {a b : Str} {x y : List Str} (ha : Gives env a x)
    (hb : EndGives env b y) : EndGives env (a ++ b) (x ++ y) := by
  obtain ⟨as, h₁, h₂⟩ := ha
  obtain ⟨bs, h₃, h₄⟩ := hb
  exact ⟨as ++ bs, EndText.append h₁ h₃, allValues_append h₂ h₄⟩

theorem EndGives.nil {env : CEnv} : EndGives env [] [] := ⟨[], EndText.nil, rfl⟩

theorem Gives.blanks {env : CEnv} {t : Str} (ht : ∀ b ∈ t, isBlankC b) : Gives env t [] :=
  ⟨[], ArgText.blanks ht, rfl⟩

theorem Gives.end_ {env : CEnv} {t : Str} {vs : List Str} (h : Gives env t vs) :
    EndGives env t vs := by
  have := h.then EndGives.nil
  simpa using this

/-! ### Variables and calls -/

/-- Reading a text changes the variables and records commands. -/
def ReadsC (env : CEnv) (t : Str) (env' : CEnv) (told : List Told) : Prop :=
  ∃ cs, Cmds t cs ∧ runCalls env cs = some (env', told)

theorem ReadsC.cmakeReads {env env' : CEnv} {t : Str} {told : List Told}
    (h : ReadsC env t env' told) : cmakeReads env t = some (env', told) := by
  obtain ⟨cs, h₁, h₂⟩ := h
  unfold Gyp.Spec.cmakeReads
  rw [h₁.read]
  exact h₂

theorem runCalls_append {env env' env'' : CEnv} {a b : List CCall} {x y : List Told}
    (ha : runCalls env a = some (env', x)) (hb : runCalls env' b = some (env'', y)) :
    runCalls env (a ++ b) = some (env'', x ++ y) := by
  induction a generalizing env x with
  | nil =>
    simp [runCalls] at ha
    obtain ⟨rfl, rfl⟩ := ha
    simpa using hb
  | cons c cs ih =>
    simp only [runCalls] at ha
    cases h₁ : allValues env c.args with
    | none => simp [h₁] at ha
    | some vs =>
      cases h₂ : invoke env c.name vs with
      | none => simp [h₁, h₂] at ha
      | some p =>
        obtain ⟨e₁, t₁⟩ := p
        cases h₃ : runCalls e₁ cs with
        | none => simp [h₁, h₂, h₃] at ha
        | some q =>
          obtain ⟨e₂, t₂⟩ := q
          simp [h₁, h₂, h₃] at ha
          obtain ⟨rfl, rfl⟩ := ha
          simp [runCalls, h₁, h₂, ih h₃]

theorem ReadsC.append {env env' env'' : CEnv} {a b : Str} {x y : List Told}
    (ha : ReadsC env a env' x) (hb : ReadsC env' b env'' y) : ReadsC env (a ++ b) env'' (x ++ y) := by
  obtain ⟨as, h₁, h₂⟩ := ha
  obtain ⟨bs, h₃, h₄⟩ := hb
  exact ⟨as ++ bs, h₁.append h₃, runCalls_append h₂ h₄⟩

theorem ReadsC.nil {env : CEnv} : ReadsC env [] env [] := ⟨[], Cmds.nil, rfl⟩

theorem EndGives.reads {env env' : CEnv} {n t : Str} {vs : List Str} {told : List Told}
    (h : EndGives env t vs) (hne : n ≠ []) (hn : ∀ c ∈ n, isIdent c)
    (hi : invoke env n vs = some (env', told)) :
    ReadsC env (n ++ '(' :: t ++ c!")\n") env' told := by
  obtain ⟨as, h₁, h₂⟩ := h
  refine ⟨_, h₁.cmd hne hn, ?_⟩
  simp [runCalls, h₂, hi]

theorem EndGives.told {env : CEnv} {n t : Str} {vs : List Str}
    (h : EndGives env t vs) (hne : n ≠ []) (hn : ∀ c ∈ n, isIdent c)
    (h₁ : n ≠ c!"set") (h₂ : n ≠ c!"unset") (h₃ : n ≠ c!"list") :
    ReadsC env (n ++ '(' :: t ++ c!")\n") env [⟨n, vs⟩] :=
  h.reads hne hn (by simp only [invoke, h₁, h₂, h₃, if_false])

/-! ### Texts -/

/-- A semicolon as it is kept in the value of a variable. -/
def semi (w : Str) : Str := w.flatMap fun c => if c = ';' then ['\\', ';'] else [c]

theorem semi_append (a b : Str) : semi (a ++ b) = semi a ++ semi b := by simp [semi]

theorem semi_cons (c : Char) (w : Str) :
    semi (c :: w) = (if c = ';' then ['\\', ';'] else [c]) ++ semi w := by simp [semi]

theorem semi_none {w : Str} (h : ';' ∉ w) : semi w = w := by
  induction w with
  | nil => rfl
  | cons c w ih =>
    rw [semi_cons, ih (fun hw => h (by simp [hw])), if_neg (fun hc => h (by simp [hc]))]
    rfl

def escOne (c : Char) : Str := if c = '\\' ∨ c = ';' ∨ c = '"' then ['\\', c] else [c]

theorem cmakeEscape_eq (v : Str) : cmakeEscape v = v.flatMap escOne := by
  unfold cmakeEscape replaceChar
  induction v with
  | nil => rfl
  | cons c v ih =>
    simp only [List.flatMap_cons, List.flatMap_append, ih]
    congr 1
    unfold escOne
    by_cases h₁ : c = '\\'
    · subst h₁; decide
    · by_cases h₂ : c = ';'
      · subst h₂; decide
      · by_cases h₃ : c = '"'
        · subst h₃; decide
        · simp [h₁, h₂, h₃]

theorem quotedLex_escape (v : Str) : QuotedLex (cmakeEscape v) := by
  rw [cmakeEscape_eq]
  refine QuotedLex.flatMap fun c _ => ?_
  unfold escOne
  split
  · exact QuotedLex.esc c
  · rename_i h
    push Not at h
    exact QuotedLex.char h.2.2 h.1

theorem isVarChar_not {c : Char} (h : isVarChar c = true) :
    c ∉ c!"}\\;\"`$)(#[ \t\n\r" ∧ isBlankC c = false := by
  constructor
  · intro hc
    exact absurd h ((by decide : ∀ d ∈ c!"}\\;\"`$)(#[ \t\n\r", ¬ isVarChar d = true) c hc)
  · by_contra hc
    simp only [isBlankC, Bool.not_eq_false, Bool.or_eq_true, decide_eq_true_eq] at hc
    rcases hc with ((rfl | rfl) | rfl) | rfl <;> revert h <;> decide

theorem evalFrom_ref {env : CEnv} {n r : Str} (m : Str) (hn : n.all isVarChar = true) :
    evalFrom env (.ref m) (n ++ '}' :: r) = (evalText env r).map (env (m ++ n) ++ ·) := by
  induction n generalizing m with
  | nil => simp [evalFrom, evalText]
  | cons c n ih =>
    simp only [List.all_cons, Bool.and_eq_true] at hn
    have hc := (isVarChar_not hn.1).1
    have : c ≠ '}' := fun h => hc (by simp [h])
    rw [List.cons_append, evalFrom, if_neg this, if_pos hn.1, ih _ hn.2]
    simp

theorem evalText_ref {env : CEnv} {n r : Str} (hn : n.all isVarChar = true) :
    evalText env (c!"${" ++ n ++ c!"}" ++ r) = (evalText env r).map (env n ++ ·) := by
  have : c!"${" ++ n ++ c!"}" ++ r = '$' :: '{' :: (n ++ '}' :: r) := by simp
  rw [this]
  unfold evalText
  rw [evalFrom, if_neg (by decide), if_pos rfl, evalFrom, if_pos rfl, evalFrom_ref [] hn]
  rfl

/-- Escapes by character: the backslash goes before characters that are no letters. -/
theorem evalText_escaped {env : CEnv} {P : Char → Prop} [DecidablePred P]
    (hP : ∀ c, P c → c ∈ c!"\\;\"`") (hb : P '\\') {v w : Str} (h : Amounts env v w) :
    evalText env (v.flatMap fun c => if P c then ['\\', c] else [c]) =
      some (if P ';' then semi w else w) := by
  induction h with
  | nil => simp [evalText, evalFrom, semi]
  | @char c v w hc _ ih =>
    rw [List.flatMap_cons]
    by_cases hp : P c
    · rw [if_pos hp]
      unfold evalText at ih ⊢
      rw [List.cons_append, List.cons_append, List.nil_append, evalFrom, if_pos rfl, evalFrom, ih]
      by_cases hs : c = ';'
      · subst hs
        rw [if_pos hp, if_pos rfl, if_pos hp, semi_cons]
        rfl
      · have hm := hP c hp
        have h₀ : ∀ d ∈ c!"\\;\"`", d ≠ 't' ∧ d ≠ 'r' ∧ d ≠ 'n' ∧ d ≠ '\n' ∧ ¬ isAlnum d = true := by
          decide
        obtain ⟨h₁, h₂, h₃, h₄, h₅⟩ := h₀ c hm
        rw [if_neg hs, if_neg h₁, if_neg h₂, if_neg h₃, if_neg h₄, if_neg h₅]
        simp only [Option.map_some, Option.some.injEq, semi_cons, if_neg hs]
        split <;> rfl
    · rw [if_neg hp]
      have h₁ : c ≠ '\\' := fun e => hp (e ▸ hb)
      unfold evalText at ih ⊢
      rw [List.cons_append, List.nil_append, evalFrom, if_neg h₁, if_neg hc, ih]
      simp only [Option.map_some, Option.some.injEq]
      by_cases hps : P ';'
      · have hs : c ≠ ';' := fun e => hp (e ▸ hps)
        rw [if_pos hps, if_pos hps, semi_cons, if_neg hs]
        rfl
      · rw [if_neg hps, if_neg hps]
  | @ref n v w hn hk hs _ ih =>
    have e : ∀ t : Str, (∀ c ∈ t, ¬ P c) → (t.flatMap fun c => if P c then ['\\', c] else [c]) = t := by
      intro t ht
      induction t with
      | nil => rfl
      | cons c t iht =>
        rw [List.flatMap_cons, if_neg (ht c (by simp)), iht fun d hd => ht d (by simp [hd])]
        rfl
    rw [List.flatMap_append, e (c!"${" ++ n ++ c!"}"), evalText_ref hn, ih]
    · simp only [Option.map_some, Option.some.injEq]
      split
      · rw [semi_append, semi_none hs]
      · rfl
    · intro c hc hp
      have hm := hP c hp
      simp only [List.mem_append] at hc
      rcases hc with (hc | hc) | hc
      · exact absurd hm ((by decide : ∀ d ∈ c!"${", d ∉ c!"\\;\"`") c hc)
      · have := (isVarChar_not (List.all_eq_true.1 hn c hc)).1
        exact this ((by decide : ∀ d ∈ c!"\\;\"`", d ∈ c!"}\\;\"`$)(#[ \t\n\r") c hm)
      · exact absurd hm ((by decide : ∀ d ∈ c!"}", d ∉ c!"\\;\"`") c hc)

theorem evalText_cmakeEscape {env : CEnv} {v w : Str} (h : Amounts env v w) :
    evalText env (cmakeEscape v) = some (semi w) := by
  rw [cmakeEscape_eq]
  have := evalText_escaped (P := fun c => c = '\\' ∨ c = ';' ∨ c = '"')
    (by intro c hc; rcases hc with rfl | rfl | rfl <;> decide) (by simp) h
  rw [if_pos (by simp)] at this
  exact this

theorem evalText_shell {env : CEnv} {v w : Str} (h : Amounts env v w) :
    evalText env (backslashEscape v) = some w := by
  have := evalText_escaped (P := fun c => c = '"' ∨ c = '\\' ∨ c = '`')
    (by intro c hc; rcases hc with rfl | rfl | rfl <;> decide) (by simp) h
  simpa [backslashEscape] using this

/-- A text without backslashes. -/
theorem evalText_plain {env : CEnv} {v w : Str} (h : Amounts env v w) (hb : '\\' ∉ v) :
    evalText env v = some w := by
  induction h with
  | nil => rfl
  | @char c v w hc _ ih =>
    unfold evalText at ih ⊢
    rw [evalFrom, if_neg (fun e => hb (by simp [e])), if_neg hc, ih fun h => hb (by simp [h])]
    rfl
  | @ref n v w hn hk hs _ ih =>
    rw [evalText_ref hn, ih fun h => hb (by simp [h])]
    rfl

/-! ### Lists -/

/-- How many `[` are open. -/
def openBrackets (w : Str) : Int := (w.count '[' : Int) - (w.count ']' : Int)

theorem openBrackets_cons (c : Char) (w : Str) :
    openBrackets (c :: w) =
      (if c = '[' then 1 else if c = ']' then -1 else 0) + openBrackets w := by
  unfold openBrackets
  by_cases h₁ : c = '['
  · subst h₁
    rw [List.count_cons_self, List.count_cons_of_ne (by decide), if_pos rfl]
    push_cast; omega
  · by_cases h₂ : c = ']'
    · subst h₂
      rw [List.count_cons_self, List.count_cons_of_ne (by decide), if_neg h₁, if_pos rfl]
      push_cast; omega
    · rw [List.count_cons_of_ne h₁, List.count_cons_of_ne h₂, if_neg h₁, if_neg h₂]
      omega

theorem takeApart_char {nest : Int} {cur r : Str} {c : Char} (h₁ : c ≠ ';')
    (h₂ : c = '\\' → r.head? ≠ some ';') :
    takeApart nest cur (c :: r) =
      takeApart (if c = '[' then nest + 1 else if c = ']' then nest - 1 else nest)
        (cur ++ [c]) r := by
  by_cases hc : c = '\\'
  · subst hc
    cases r with
    | nil => rfl
    | cons d r =>
      have : d ≠ ';' := fun e => h₂ rfl (by simp [e])
      rw [takeApart]
      · intro r' _ hd; injection hd; contradiction
      · intro; contradiction
  · rw [takeApart]
    · intro r' e _; contradiction
    · intro e; contradiction

theorem semi_head (w : Str) : (semi w).head? ≠ some ';' := by
  cases w with
  | nil => simp [semi]
  | cons c w =>
    rw [semi_cons]
    split
    · simp
    · rename_i h; simpa using h

theorem takeApart_semi (w r : Str) (nest : Int) (cur : Str)
    (h : w.getLast? = some '\\' → r.head? ≠ some ';') :
    takeApart nest cur (semi w ++ r) = takeApart (nest + openBrackets w) (cur ++ w) r := by
  induction w generalizing nest cur with
  | nil => simp [semi, openBrackets]
  | cons c w ih =>
    rw [semi_cons]
    have hih : w.getLast? = some '\\' → r.head? ≠ some ';' := by
      intro hw
      apply h
      rw [List.getLast?_cons, hw]
      rfl
    by_cases hc : c = ';'
    · subst hc
      rw [if_pos rfl]
      show takeApart nest cur ('\\' :: ';' :: (semi w ++ r)) = _
      rw [takeApart, ih _ _ hih, openBrackets_cons]
      simp
    · rw [if_neg hc]
      show takeApart nest cur (c :: (semi w ++ r)) = _
      rw [takeApart_char hc, ih _ _ hih, openBrackets_cons]
      · have : (if c = '[' then nest + 1 else if c = ']' then nest - 1 else nest) +
            openBrackets w =
            nest + ((if c = '[' then 1 else if c = ']' then -1 else 0) + openBrackets w) := by
          split_ifs <;> omega
        rw [this]
        simp
      · intro e
        subst e
        cases w with
        | nil => simpa [semi] using h (by simp)
        | cons d w =>
          have := semi_head (d :: w)
          have hne : semi (d :: w) ≠ [] := by rw [semi_cons]; split <;> simp
          obtain ⟨x, xs, hx⟩ := List.exists_cons_of_ne_nil hne
          rw [hx] at this ⊢
          simpa using this

theorem elements_semi (w : Str) : elements (semi w) = if w = [] then [] else [w] := by
  have := takeApart_semi w [] 0 [] (by simp)
  rw [List.append_nil] at this
  unfold elements
  rw [this, takeApart]
  simp

theorem openBrackets_even {w : Str} (h : BracketsEven w) : openBrackets w = 0 := by
  unfold openBrackets
  rw [h]; omega

theorem takeApart_element {w r : Str} (h : Element w) :
    takeApart 0 [] (semi w ++ ';' :: r) = w :: takeApart 0 [] r := by
  rw [takeApart_semi w _ 0 [] (fun e => absurd e h.2.1), openBrackets_even h.2.2]
  simp [takeApart, h.1]

theorem elements_join {ws : List Str} (h : ∀ w ∈ ws, Element w) :
    elements (joinWith [';'] (ws.map semi)) = ws := by
  unfold elements
  induction ws with
  | nil => rfl
  | cons w ws ih =>
    cases ws with
    | nil =>
      have := elements_semi w
      rw [if_neg (h w (by simp)).1] at this
      exact this
    | cons w' ws =>
      have e : joinWith [';'] ((w :: w' :: ws).map semi) =
          semi w ++ ';' :: joinWith [';'] ((w' :: ws).map semi) := by
        simp [joinWith]
      rw [e, takeApart_element (h w (by simp)), ih fun x hx => h x (by simp [hx])]

theorem elements_terminated {ws : List Str} (h : ∀ w ∈ ws, Element w) :
    elements (ws.flatMap fun w => semi w ++ [';']) = ws := by
  unfold elements
  induction ws with
  | nil => rfl
  | cons w ws ih =>
    have e : ((w :: ws).flatMap fun w => semi w ++ [';']) =
        semi w ++ ';' :: (ws.flatMap fun w => semi w ++ [';']) := by simp
    rw [e, takeApart_element (h w (by simp)), ih fun x hx => h x (by simp [hx])]

theorem elements_noSemi {w : Str} (h : ';' ∉ w) : elements w = if w = [] then [] else [w] := by
  have := elements_semi w
  rwa [semi_none h] at this

theorem semi_inj_of_elements {w p : Str} (h : semi w = p) (hp : ';' ∉ p) : w = p := by
  have h₁ := elements_semi w
  rw [h, elements_noSemi hp] at h₁
  by_cases hw : w = []
  · subst hw; simpa [semi] using h
  · by_cases hp' : p = []
    · rw [if_neg hw, if_pos hp'] at h₁; simp at h₁
    · rw [if_neg hw, if_neg hp'] at h₁; simpa using h₁.symm

/-! ### Words -/

theorem nameC_bare {n : Str} (h : NameC n) : BareLex n := by
  refine BareLex.chars (fun c hc => ?_) h.1
  have := isVarChar_not (List.all_eq_true.1 h.2 c hc)
  unfold bareChar
  rw [this.2]
  simp only [Bool.not_false, Bool.true_and, Bool.not_eq_true', decide_eq_false_iff_not]
  intro hm
  exact this.1 ((by decide : ∀ d ∈ c!")(#\"\\[", d ∈ c!"}\\;\"`$)(#[ \t\n\r") c hm)

theorem standsFor_self {env : CEnv} {v : Str} (h : '$' ∉ v) : Amounts env v v := by
  induction v with
  | nil => exact .nil
  | cons c v ih => exact .char (fun e => h (by simp [e])) (ih fun hv => h (by simp [hv]))

theorem standsFor_append {env : CEnv} {a b x y : Str} (ha : Amounts env a x)
    (hb : Amounts env b y) : Amounts env (a ++ b) (x ++ y) := by
  induction ha with
  | nil => exact hb
  | char hc _ ih => exact .char hc ih
  | ref hn hk hs _ ih =>
    have := Amounts.ref hn hk hs ih
    simpa [List.append_assoc] using this

theorem argValues_bare {env : CEnv} {t w : Str} (h : evalText env t = some w) (hs : ';' ∉ w)
    (hw : w ≠ []) : argValues env (.bare t) = some [w] := by
  simp [argValues, h, elements_noSemi hs, hw]

theorem nameC_chars {n : Str} (h : NameC n) : '$' ∉ n ∧ '\\' ∉ n ∧ ';' ∉ n := by
  have : ∀ d ∈ c!"}\\;\"`$)(#[ \t\n\r", d ∉ n := fun d hd hn =>
    (isVarChar_not (List.all_eq_true.1 h.2 d hn)).1 hd
  exact ⟨this '$' (by decide), this '\\' (by decide), this ';' (by decide)⟩

theorem nameC_value {env : CEnv} {n : Str} (h : NameC n) : argValues env (.bare n) = some [n] :=
  argValues_bare (evalText_plain (standsFor_self (nameC_chars h).1) (nameC_chars h).2.1)
    (nameC_chars h).2.2 h.1

theorem Gives.name {env : CEnv} {n : Str} (h : NameC n) {b : Char} (hb : isBlankC b) :
    Gives env (n ++ [b]) [n] :=
  ⟨_, (nameC_bare h).arg hb, by simp [allValues, nameC_value h]⟩

theorem EndGives.name {env : CEnv} {n : Str} (h : NameC n) : EndGives env n [n] :=
  ⟨_, (nameC_bare h).last, by simp [allValues, nameC_value h]⟩

/-- The reference to a variable. -/
theorem ref_bare {n : Str} (h : NameC n) : BareLex (writeVariable n) := by
  refine BareLex.chars (fun c hc => ?_) (by simp [writeVariable])
  simp only [writeVariable, List.mem_append] at hc
  rcases hc with (hc | hc) | hc
  · exact (by decide : ∀ d ∈ c!"${", bareChar d = true) c hc
  · have := isVarChar_not (List.all_eq_true.1 h.2 c hc)
    unfold bareChar
    rw [this.2]
    simp only [Bool.not_false, Bool.true_and, Bool.not_eq_true', decide_eq_false_iff_not]
    intro hm
    exact this.1 ((by decide : ∀ d ∈ c!")(#\"\\[", d ∈ c!"}\\;\"`$)(#[ \t\n\r") c hm)
  · exact (by decide : ∀ d ∈ c!"}", bareChar d = true) c hc

theorem ref_value {env : CEnv} {n : Str} (h : NameC n) :
    argValues env (.bare (writeVariable n)) = some (listOf env n) := by
  have := evalText_ref (env := env) (r := []) h.2
  rw [List.append_nil] at this
  show Option.map elements (evalText env (c!"${" ++ n ++ c!"}")) = _
  rw [this]
  simp [listOf, evalText, evalFrom]

theorem Gives.ref {env : CEnv} {n : Str} (h : NameC n) {b : Char} (hb : isBlankC b) :
    Gives env (writeVariable n ++ [b]) (listOf env n) :=
  ⟨_, (ref_bare h).arg hb, by simp [allValues, ref_value h]⟩

theorem EndGives.ref {env : CEnv} {n : Str} (h : NameC n) :
    EndGives env (writeVariable n) (listOf env n) :=
  ⟨_, (ref_bare h).last, by simp [allValues, ref_value h]⟩

theorem Gives.quoted {env : CEnv} {t w : Str} (hl : QuotedLex t) (he : evalText env t = some w)
    {b : Char} (hb : isBlankC b) : Gives env ('"' :: t ++ ['"', b]) [w] :=
  ⟨_, hl.arg hb, by simp [allValues, argValues, he]⟩

theorem EndGives.quoted {env : CEnv} {t w : Str} (hl : QuotedLex t)
    (he : evalText env t = some w) : EndGives env ('"' :: t ++ ['"']) [w] :=
  ⟨_, hl.last, by simp [allValues, argValues, he]⟩

/-! ### Setting variables -/

theorem setVariable_eq (n v : Str) :
    setVariable n v = c!"set" ++ '(' :: ((n ++ [' ']) ++ ('"' :: cmakeEscape v ++ ['"'])) ++
      c!")\n" := by
  simp [setVariable]

theorem reads_setVariable {env : CEnv} {n v w : Str} (hn : NameC n) (h : Amounts env v w)
    (hw : w ≠ c!"PARENT_SCOPE") (hw' : w ≠ c!"CACHE") :
    ReadsC env (setVariable n v) (assign env n (semi w)) [] := by
  rw [setVariable_eq]
  refine ((Gives.name hn (by decide)).then (EndGives.quoted (quotedLex_escape v)
    (evalText_cmakeEscape h))).reads (by decide) (by decide) ?_
  have h₁ : semi w ≠ c!"PARENT_SCOPE" := fun e => hw (semi_inj_of_elements e (by decide))
  have h₂ : semi w ≠ c!"CACHE" := fun e => hw' (semi_inj_of_elements e (by decide))
  show invoke env c!"set" [n, semi w] = _
  unfold invoke
  rw [if_pos rfl]
  show (if c!"PARENT_SCOPE" ∈ [semi w] ∨ c!"CACHE" ∈ [semi w] then _ else _) = _
  rw [if_neg]
  · rfl
  · rintro (h | h)
    · exact h₁ (List.mem_singleton.1 h).symm
    · exact h₂ (List.mem_singleton.1 h).symm

theorem quotedList_gives {env : CEnv} {vs ws : List Str} (h : List.Forall₂ (Amounts env) vs ws)
    (hne : vs ≠ []) :
    EndGives env (c!"\"" ++ joinWith c!"\"\n  \"" (vs.map cmakeEscape) ++ c!"\"")
      (ws.map semi) := by
  induction h with
  | nil => simp at hne
  | @cons v w vs ws hv hvs ih =>
    cases vs with
    | nil =>
      cases hvs
      have := EndGives.quoted (quotedLex_escape v) (evalText_cmakeEscape hv)
      simpa [joinWith] using this
    | cons v' vs =>
      have h₁ := Gives.quoted (quotedLex_escape v) (evalText_cmakeEscape hv)
        (b := '\n') (by decide)
      have h₂ : Gives env c!"  " [] := Gives.blanks (by decide)
      have := (h₁.append h₂).then (ih (by simp))
      simpa [joinWith] using this

theorem reads_append {env : CEnv} {n : Str} {vs ws : List Str} (hn : NameC n)
    (h : List.Forall₂ (Amounts env) vs ws) (h₂ : 2 ≤ vs.length) :
    ReadsC env (setVariableList n vs) (assign env n
      (joinWith [';'] ((if env n = [] then [] else [env n]) ++ ws.map semi))) [] := by
  match vs, h₂ with
  | v :: v' :: vs, _ =>
    have e : setVariableList n (v :: v' :: vs) = c!"list" ++ '(' :: ((c!"APPEND" ++ [' ']) ++
        (n ++ ['\n']) ++ c!"  " ++ (c!"\"" ++ joinWith c!"\"\n  \""
          ((v :: v' :: vs).map cmakeEscape) ++ c!"\"")) ++ c!")\n" := by
      simp [setVariableList]
    rw [e]
    have h₁ : Gives env (c!"APPEND" ++ [' ']) [c!"APPEND"] :=
      Gives.name (by decide) (by decide)
    have h₃ : Gives env (n ++ ['\n']) [n] := Gives.name hn (by decide)
    have h₄ : Gives env c!"  " [] := Gives.blanks (by decide)
    refine (((h₁.append h₃).append h₄).then (quotedList_gives h (by simp))).reads
      (by decide) (by decide) ?_
    have : [c!"APPEND"] ++ [n] ++ [] ++ ws.map semi = c!"APPEND" :: n :: ws.map semi := by simp
    rw [this]
    unfold invoke
    rw [if_neg (by decide), if_neg (by decide), if_pos rfl]
    simp

theorem reads_setVariableList {env : CEnv} {n : Str} {vs ws : List Str} (hn : NameC n)
    (h : List.Forall₂ (Amounts env) vs ws) (hfresh : 2 ≤ vs.length → env n = [])
    (hw : c!"PARENT_SCOPE" ∉ ws) (hw' : c!"CACHE" ∉ ws) :
    ReadsC env (setVariableList n vs) (assign env n (joinWith [';'] (ws.map semi))) [] := by
  match h with
  | .nil =>
    exact reads_setVariable hn .nil (by decide) (by decide)
  | .cons (b := w) hv .nil =>
    exact reads_setVariable hn hv (fun e => hw (by simp [e])) (fun e => hw' (by simp [e]))
  | .cons hv (.cons hv' hvs) =>
    have := reads_append hn (.cons hv (.cons hv' hvs)) (by simp)
    rw [hfresh (by simp), if_pos rfl] at this
    simpa using this

/-! ### Arguments written for the shell -/

theorem lex_bare_escaped {v : Str}
    (hv : ∀ c ∈ v, ¬ (c = '"' ∨ c = '\\' ∨ c = '`') → bareChar c) (s : CState)
    (hs : s.mode = .bare) :
    lexAll s (backslashEscape v) = some { s with cur := s.cur ++ backslashEscape v } := by
  induction v generalizing s with
  | nil => simp [lexAll, backslashEscape]
  | cons c v ih =>
    have e : backslashEscape (c :: v) =
        (if c = '"' ∨ c = '\\' ∨ c = '`' then ['\\', c] else [c]) ++ backslashEscape v := by
      simp [backslashEscape]
    rw [e, lexAll_append]
    by_cases hc : c = '"' ∨ c = '\\' ∨ c = '`'
    · rw [if_pos hc]
      have h₁ : lexAll s ['\\', c] = some { s with cur := s.cur ++ ['\\', c] } := by
        have h0 : lexStepC s '\\' = some { s with mode := .bareEsc } := by
          simp [lexStepC, hs, isBlankC]
        simp [lexAll, h0]
        simp [lexStepC]
        exact hs.symm
      rw [h₁, Option.bind_some]
      refine (ih (fun d hd => hv d (by simp [hd])) { s with cur := s.cur ++ ['\\', c] } hs).trans ?_
      simp
    · rw [if_neg hc]
      have h₁ := lex_bare (w := [c]) (fun d hd => by
        rw [List.mem_singleton.1 hd]; exact hv c (by simp) hc) s hs
      rw [h₁, Option.bind_some]
      refine (ih (fun d hd => hv d (by simp [hd])) { s with cur := s.cur ++ [c] } hs).trans ?_
      simp

theorem bareLex_escaped {v : Str} (hne : v ≠ [])
    (hv : ∀ c ∈ v, ¬ (c = '"' ∨ c = '\\' ∨ c = '`') → bareChar c) :
    BareLex (backslashEscape v) := by
  obtain ⟨c, v, rfl⟩ := List.exists_cons_of_ne_nil hne
  have e : backslashEscape (c :: v) =
      (if c = '"' ∨ c = '\\' ∨ c = '`' then ['\\', c] else [c]) ++ backslashEscape v := by
    simp [backslashEscape]
  refine ⟨by rw [e]; split <;> simp, fun s hs => ?_⟩
  rw [e, lexAll_append]
  by_cases hc : c = '"' ∨ c = '\\' ∨ c = '`'
  · rw [if_pos hc]
    have h₁ : lexAll s ['\\', c] = some { s with mode := .bare, cur := ['\\', c] } := by
      have h0 : lexStepC s '\\' = some { s with mode := .bareEsc, cur := [] } := by
        simp [lexStepC, hs, isBlankC]
      simp [lexAll, h0]
      simp [lexStepC]
    rw [h₁, Option.bind_some]
    exact (lex_bare_escaped (fun d hd => hv d (by simp [hd])) _ rfl)
  · rw [if_neg hc]
    have h₁ := lex_bare_start (w := [c]) (fun d hd => by
      rw [List.mem_singleton.1 hd]; exact hv c (by simp) hc) (by simp) s hs
    rw [h₁, Option.bind_some]
    exact (lex_bare_escaped (fun d hd => hv d (by simp [hd])) _ rfl)

/-- One argument of the command of an action. -/
theorem gives_shellArgument {env : CEnv} {v w : Str} (h : Amounts env v w) (hr : '\r' ∉ v)
    {b : Char} (hb : isBlankC b) : Gives env (EncodePOSIXShellArgument v ++ [b]) [w] := by
  unfold EncodePOSIXShellArgument
  by_cases hq : needsQuote v = true
  · have hl : QuotedLex (backslashEscape v) := by
      refine QuotedLex.flatMap fun c _ => ?_
      split
      · exact QuotedLex.esc c
      · rename_i hc
        push Not at hc
        exact QuotedLex.char hc.1 hc.2.1
    have := Gives.quoted hl (evalText_shell h) hb
    simpa [hq] using this
  · have hq' : (∀ c ∈ v, c ∉ quoteClass) ∧ v ≠ [] := by
      simpa [needsQuote] using hq
    have hd : '$' ∉ v := fun hm => hq'.1 _ hm (by decide)
    have hs : ';' ∉ v := fun hm => hq'.1 _ hm (by decide)
    have hvw : v = w := by
      clear hq hq' hr hs
      induction h with
      | nil => rfl
      | @char c v w hc _ ih => rw [ih fun hm => hd (by simp [hm])]
      | ref _ _ _ _ _ => exact absurd (by simp) hd
    have hl : BareLex (backslashEscape v) := by
      refine bareLex_escaped hq'.2 fun c hc hn => ?_
      push Not at hn
      have h₁ := hq'.1 c hc
      have h₂ : c ≠ '\r' := fun e => hr (e ▸ hc)
      simp only [quoteClass, List.mem_cons, List.not_mem_nil, or_false, not_or] at h₁
      simp [bareChar, isBlankC, h₁, h₂, hn]
    refine ⟨[.bare (backslashEscape v)], ?_, ?_⟩
    · have := hl.arg hb
      simpa [hq] using this
    · have := argValues_bare (evalText_shell h) (hvw ▸ hs) (hvw ▸ hq'.2)
      simp [allValues, this]

theorem gives_shellList {env : CEnv} {vs ws : List Str} (h : List.Forall₂ (Amounts env) vs ws)
    (hr : ∀ v ∈ vs, '\r' ∉ v) {b : Char} (hb : isBlankC b) :
    Gives env (EncodePOSIXShellList vs ++ [b]) ws := by
  unfold EncodePOSIXShellList
  induction h with
  | nil => exact Gives.blanks (by simpa [joinWith] using hb)
  | @cons v w vs ws hv hvs ih =>
    cases vs with
    | nil =>
      cases hvs
      have := gives_shellArgument hv (hr v (by simp)) hb
      simpa [joinWith] using this
    | cons v' vs =>
      have h₁ := gives_shellArgument hv (hr v (by simp)) (b := ' ') (by decide)
      have := h₁.append (ih fun x hx => hr x (by simp [hx]))
      simpa [joinWith] using this

/-! ### Bare words -/

theorem isPlainChar_bare {c : Char} (h : isPlainChar c = true) :
    bareChar c = true ∧ c ∉ c!"\\;$" := by
  have hm : c ∉ c!")(#\"\\[;$ \t\n\r" := fun hc =>
    absurd h ((by decide : ∀ d ∈ c!")(#\"\\[;$ \t\n\r", ¬ isPlainChar d = true) c hc)
  simp only [List.mem_cons, List.not_mem_nil, or_false, not_or] at hm
  simp [bareChar, isBlankC, hm]

theorem bareWord_bare {env : CEnv} {t w : Str} (h : BareWord env t w) :
    BareLex t ∧ argValues env (.bare t) = some [w] := by
  have hb : '\\' ∉ t := by
    intro hm
    rcases h.1 _ hm with h₁ | h₁
    · revert h₁; decide
    · revert h₁; decide
  have hs : ';' ∉ w := by
    have hs' : ';' ∉ t := by
      intro hm
      rcases h.1 _ hm with h₁ | h₁
      · revert h₁; decide
      · revert h₁; decide
    have h₂ := h.2.1
    clear h hb
    induction h₂ with
    | nil => simp
    | @char c v w hc _ ih =>
      simp only [List.mem_cons, not_or] at hs' ⊢
      exact ⟨hs'.1, ih hs'.2⟩
    | @ref n v w hn hk he _ ih =>
      simp only [List.mem_append, not_or] at hs' ⊢
      exact ⟨he, ih hs'.2⟩
  have hne : t ≠ [] := by
    rintro rfl
    have := h.2.1
    generalize hx : ([] : Str) = x at this
    cases this with
    | nil => exact h.2.2 rfl
    | char => simp at hx
    | ref => simp at hx
  refine ⟨BareLex.chars (fun c hc => ?_) hne, argValues_bare (evalText_plain h.2.1 hb) hs h.2.2⟩
  rcases h.1 c hc with h₁ | h₁
  · exact (isPlainChar_bare h₁).1
  · exact (by decide : ∀ d ∈ c!"${}", bareChar d = true) c h₁

theorem Gives.word {env : CEnv} {t w : Str} (h : BareWord env t w) {b : Char} (hb : isBlankC b) :
    Gives env (t ++ [b]) [w] :=
  ⟨_, (bareWord_bare h).1.arg hb, by simp [allValues, (bareWord_bare h).2]⟩

theorem EndGives.word {env : CEnv} {t w : Str} (h : BareWord env t w) : EndGives env t [w] :=
  ⟨_, (bareWord_bare h).1.last, by simp [allValues, (bareWord_bare h).2]⟩

theorem plainWordC_bareWord {env : CEnv} {t : Str} (h : PlainWordC t) : BareWord env t t := by
  refine ⟨fun c hc => .inl (List.all_eq_true.1 h.2 c hc), standsFor_self ?_, h.1⟩
  intro hm
  exact (isPlainChar_bare (List.all_eq_true.1 h.2 _ hm)).2 (by decide)

end Gyp
