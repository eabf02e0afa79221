import Verif.Model.CMakeRules
import Verif.Spec.CMakeRules
import Verif.Props.CMakeActions
import Verif.Proofs.MakeScripts
/-
C116: the rules of a target in CMake files.
-/
namespace Gyp
open Gyp.Spec

/-- A text that mentions none of the variables of a source. -/
def ApartC (t : Str) : Prop := ∀ v ∈ ruleVars, ¬ (c!"${" ++ v ++ c!"}") <:+: t

instance (t : Str) : Decidable (ApartC t) := by unfold ApartC; infer_instance

/-- A source of a rule whose texts CMake can read, with what they stand for: outputs, directories, words and
message may mention the variables of the source; the source itself does not. -/
structure SourceFits (env : CEnv) (target path : Str) (r : CRule) (k : Nat) (dirs : List Str) (source : Str)
    (x : SourceRead) : Prop where
  apart : ∀ t ∈ [source, dirname source, basename source, (splitext (basename source)).1,
    (splitext (basename source)).2, normjoinPath path source], ApartC t
  full : Amounts env source x.path
  dir : Amounts env (dirname source) x.dir
  name : Amounts env (basename source) x.name
  root : Amounts env (splitext (basename source)).1 x.root
  ext : Amounts env (splitext (basename source)).2 x.ext
  parts : ∀ w ∈ [x.path, x.dir, x.name, x.root, x.ext], ';' ∉ w ∧ w ≠ c!"PARENT_SCOPE" ∧ w ≠ c!"CACHE"
  dep : BareWord env (normjoinPath path source) x.dep
  outs : List.Forall₂ (Amounts (ruleEnv env x)) (r.outputs.map fun o => normjoinRule path o source) x.outs
  elems : ∀ w ∈ x.outs, w ≠ [] ∧ w ≠ c!"PARENT_SCOPE" ∧ w ≠ c!"CACHE"
  isDirs : IsOutputDirs r.outputs dirs
  dirs : List.Forall₂ (BareWord (ruleEnv env x)) dirs x.dirs
  args : List.Forall₂ (Amounts (ruleEnv env x)) r.action x.args
  comment : match r.message with
    | none => x.comment = [cmRuleAction target r k]
    | some m => ∃ ts, ts ≠ [] ∧ m = joinWith [' '] ts ∧ List.Forall₂ (BareWord (ruleEnv env x)) ts x.comment
  noOption : ∀ w ∈ x.dep :: (x.outs ++ x.dirs ++ x.args ++ x.comment), w ∉ commandOptions

/-- The sources of a rule, counted, with what they stand for. -/
inductive SourcesFit (env : CEnv) (target path : Str) (r : CRule) :
    Nat → List (List Str × Str) → List SourceRead → Prop
  | nil (k) : SourcesFit env target path r k [] []
  | cons {k s x ss xs} : SourceFits env target path r k s.1 s.2 x →
      SourcesFit env target path r (k + 1) ss xs → SourcesFit env target path r k (s :: ss) (x :: xs)

/-- A rule whose texts CMake can read, with what they stand for. -/
structure RuleFits (env : CEnv) (target path : Str) (r : CRule) (x : RuleRead) : Prop where
  name : ∀ c ∈ r.name, isVarChar c ∨ c ∈ c!" /():.\""
  ins : List.Forall₂ (Amounts env) (r.inputs.map (normjoinSource path)) x.ins
  insApart : ∀ i ∈ r.inputs, ApartC (normjoinSource path i)
  elems : ∀ w ∈ x.ins, Element w ∧ w ≠ c!"PARENT_SCOPE" ∧ w ≠ c!"CACHE" ∧ w ∉ commandOptions
  noReturn : ∀ v ∈ r.action, '\r' ∉ v
  sources : SourcesFit env target path r 0 r.sources x.sources

/-! ### Names -/

theorem isVarChar_digit {c : Char} (h : '0' ≤ c ∧ c ≤ '9') : isVarChar c = true := by
  simp [isVarChar, isAlnum, h]

theorem natStr_varChar (n : Nat) : (natStr n).all isVarChar = true := by
  rw [List.all_eq_true]
  exact fun c hc => isVarChar_digit (natStr_mem hc)

theorem cmRuleName_nameC {target : Str} {r : CRule} (ht : NameC target)
    (hr : ∀ c ∈ r.name, isVarChar c ∨ c ∈ c!" /():.\"") : NameC (cmRuleName target r) := by
  refine ⟨by simp [cmRuleName, cmakeTargetName], ?_⟩
  rw [List.all_eq_true]
  intro c hc
  simp only [cmRuleName, cmakeTargetName, List.mem_map] at hc
  obtain ⟨d, hd, rfl⟩ := hc
  split
  · decide
  · rename_i hn
    simp only [List.mem_append] at hd
    rcases hd with (hd | hd) | hd
    · exact List.all_eq_true.1 ht.2 d hd
    · exact (by decide : ∀ d ∈ c!"__", isVarChar d = true) d hd
    · exact (hr d hd).resolve_right hn

theorem cmRuleName_noOption (target : Str) (r : CRule) : cmRuleName target r ∉ commandOptions := by
  intro h
  have : c!"__" <:+: cmRuleName target r :=
    ⟨cmakeTargetName target, cmakeTargetName r.name, by simp [cmRuleName, cmakeTargetName]⟩
  exact absurd this ((by decide : ∀ o ∈ commandOptions, ¬ c!"__" <:+: o) _ h)

theorem cmRuleOutVar_nameC {target : Str} {r : CRule} (h : NameC (cmRuleName target r)) (k i : Nat) :
    NameC (cmRuleOutVar target r k i) := by
  unfold cmRuleOutVar cmRuleAction
  exact nameC_append (nameC_append (nameC_append (nameC_append h (by decide)) (natStr_varChar k)) (by decide))
    (natStr_varChar i)

theorem cmRuleInputs_kept (target : Str) (r : CRule) : KeptName (cmRuleInputs target r) := by
  left
  unfold endsWith
  rw [List.isSuffixOf_iff_suffix]
  exact ⟨cmRuleName target r, rfl⟩

theorem dropWhile_digits {a b : Str} (h : ∀ c ∈ a, c.isDigit = true) :
    (a ++ '_' :: b).dropWhile Char.isDigit = '_' :: b := by
  induction a with
  | nil => simp
  | cons c a ih =>
    rw [List.cons_append, List.dropWhile_cons, if_pos (h c (by simp))]
    exact ih fun d hd => h d (by simp [hd])

theorem natStr_isDigit (n : Nat) : ∀ c ∈ (natStr n).reverse, c.isDigit = true := by
  intro c hc
  have := natStr_mem (List.mem_reverse.1 hc)
  simpa [Char.isDigit, Char.le_def] using this

theorem head_digits (n : Nat) (b : Str) : ((natStr n).reverse ++ b).head?.any Char.isDigit = true := by
  have hne : (natStr n).reverse ≠ [] := by simpa using natStr_ne n
  have hd := natStr_isDigit n
  cases h : (natStr n).reverse with
  | nil => exact absurd h hne
  | cons c r =>
    rw [h] at hd
    simpa using hd c (by simp)

theorem endsInNumbers_of (a : Str) (k i : Nat) :
    endsInNumbers (a ++ c!"_" ++ natStr k ++ c!"_" ++ natStr i) = true := by
  have e : (a ++ c!"_" ++ natStr k ++ c!"_" ++ natStr i).reverse =
      (natStr i).reverse ++ '_' :: ((natStr k).reverse ++ '_' :: a.reverse) := by simp
  unfold endsInNumbers
  rw [e]
  simp only [dropWhile_digits (natStr_isDigit _), head_digits, List.head?_cons, List.tail_cons]
  rfl

theorem cmRuleOutVar_kept (target : Str) (r : CRule) (k i : Nat) : KeptName (cmRuleOutVar target r k i) := by
  right; right; right; right; right; right
  exact endsInNumbers_of _ _ _

theorem cmRuleOutVar_inj {target : Str} {r r' : CRule} {k k' i i' : Nat}
    (h : cmRuleOutVar target r k i = cmRuleOutVar target r' k' i') :
    cmRuleName target r = cmRuleName target r' ∧ k = k' ∧ i = i' := by
  obtain ⟨h₁, h₂⟩ := command_split h
  obtain ⟨h₃, h₄⟩ := command_split h₁
  exact ⟨h₃, h₄, h₂⟩

theorem cmRuleOutVar_ne_inputs (target : Str) (r r' : CRule) (k i : Nat) :
    cmRuleOutVar target r k i ≠ cmRuleInputs target r' := by
  intro h
  have := congrArg List.getLast? h
  rw [show cmRuleInputs target r' = (cmRuleName target r' ++ c!"__inpu") ++ c!"t" by simp [cmRuleInputs],
    List.getLast?_append, cmRuleOutVar, List.getLast?_append,
    List.getLast?_eq_some_getLast (natStr_ne i), Option.some_or] at this
  have hd := natStr_mem (List.getLast_mem (natStr_ne i))
  simp at this
  rw [this] at hd
  revert hd; decide

theorem ruleVars_notKept : ∀ v ∈ ruleVars, ¬ KeptName v := by decide

theorem cmRuleOutVars_mem {target : Str} {r : CRule} {k : Nat} {n : Str} :
    n ∈ cmRuleOutVars target r k ↔ ∃ i, i < r.outputs.length ∧ cmRuleOutVar target r k i = n := by
  simp [cmRuleOutVars]

/-! ### Texts in other surroundings -/

/-- Two sets of variables that differ at most in those kept and those of a source. -/
def AgreeR (env env' : CEnv) : Prop := ∀ n, ¬ KeptName n → n ∉ ruleVars → env' n = env n

theorem Amounts.apart {env env' : CEnv} (h : AgreeR env env') {t w : Str} (ha : ApartC t)
    (hv : Amounts env t w) : Amounts env' t w := by
  induction hv with
  | nil => exact .nil
  | @char c v w hc _ ih =>
    exact .char hc (ih fun x hx hi => ha x hx (hi.trans (List.suffix_cons c v).isInfix))
  | @ref n v w hn hk hs _ ih =>
    have hr : n ∉ ruleVars := fun hm => ha n hm (List.prefix_append _ _).isInfix
    rw [← h _ hk hr] at hs ⊢
    exact .ref hn hk hs (ih fun x hx hi => ha x hx (hi.trans (List.suffix_append _ _).isInfix))

theorem BareWord.apart {env env' : CEnv} (h : AgreeR env env') {t w : Str} (ha : ApartC t)
    (hv : BareWord env t w) : BareWord env' t w := ⟨hv.1, Amounts.apart h ha hv.2.1, hv.2.2⟩

theorem AgreeR.of_agree {a b c : CEnv} (h₁ : AgreeR a b) (h₂ : AgreeC b c) : AgreeR a c :=
  fun n hn hr => (h₂ n hn).trans (h₁ n hn hr)

theorem AgreeR.assign {env env' : CEnv} (h : AgreeR env env') {n v : Str} (hn : n ∈ ruleVars) :
    AgreeR env (assign env' n v) := by
  intro m hm hr
  have : m ≠ n := fun e => hr (e ▸ hn)
  simp [Gyp.Spec.assign, this, h m hm hr]

/-! ### The variables -/

theorem reads_unsetVariable {env : CEnv} {n : Str} (hn : NameC n) :
    ReadsC env (unsetVariable n) (assign env n []) [] := by
  have e : unsetVariable n = c!"unset" ++ '(' :: n ++ c!")\n" := by simp [unsetVariable]
  rw [e]
  exact (EndGives.name hn).reads (by decide) (by decide) (by simp [invoke])

/-- The variables of a source are set. -/
theorem reads_setRuleVars {env env₀ : CEnv} {target path : Str} {r : CRule} {k : Nat} {dirs : List Str}
    {source : Str} {x : SourceRead} (hf : SourceFits env target path r k dirs source x)
    (h₀ : AgreeR env env₀) :
    ∃ env₁, ReadsC env₀ (setRuleVars source) env₁ [] ∧ AgreeC (ruleEnv env x) env₁ ∧
      ∀ n, n ∉ ruleVars → env₁ n = env₀ n := by
  have hsem : ∀ w ∈ [x.path, x.dir, x.name, x.root, x.ext], semi w = w := fun w hw => semi_none (hf.parts w hw).1
  have s₁ := reads_setVariable (n := c!"RULE_INPUT_PATH") (by decide)
    (Amounts.apart h₀ (hf.apart _ (by simp)) hf.full) (hf.parts _ (by simp)).2.1 (hf.parts _ (by simp)).2.2
  rw [hsem _ (by simp)] at s₁
  have a₁ := h₀.assign (n := c!"RULE_INPUT_PATH") (v := x.path) (by decide)
  have s₂ := reads_setVariable (n := c!"RULE_INPUT_DIRNAME") (by decide)
    (Amounts.apart a₁ (hf.apart _ (by simp)) hf.dir) (hf.parts _ (by simp)).2.1 (hf.parts _ (by simp)).2.2
  rw [hsem _ (by simp)] at s₂
  have a₂ := a₁.assign (n := c!"RULE_INPUT_DIRNAME") (v := x.dir) (by decide)
  have s₃ := reads_setVariable (n := c!"RULE_INPUT_NAME") (by decide)
    (Amounts.apart a₂ (hf.apart _ (by simp)) hf.name) (hf.parts _ (by simp)).2.1 (hf.parts _ (by simp)).2.2
  rw [hsem _ (by simp)] at s₃
  have a₃ := a₂.assign (n := c!"RULE_INPUT_NAME") (v := x.name) (by decide)
  have s₄ := reads_setVariable (n := c!"RULE_INPUT_ROOT") (by decide)
    (Amounts.apart a₃ (hf.apart _ (by simp)) hf.root) (hf.parts _ (by simp)).2.1 (hf.parts _ (by simp)).2.2
  rw [hsem _ (by simp)] at s₄
  have a₄ := a₃.assign (n := c!"RULE_INPUT_ROOT") (v := x.root) (by decide)
  have s₅ := reads_setVariable (n := c!"RULE_INPUT_EXT") (by decide)
    (Amounts.apart a₄ (hf.apart _ (by simp)) hf.ext) (hf.parts _ (by simp)).2.1 (hf.parts _ (by simp)).2.2
  rw [hsem _ (by simp)] at s₅
  refine ⟨_, ((((s₁.append s₂).append s₃).append s₄).append s₅), ?_, ?_⟩
  · intro n hn
    unfold ruleEnv
    by_cases h1 : n = c!"RULE_INPUT_PATH"
    · subst h1; simp [assign]
    by_cases h2 : n = c!"RULE_INPUT_DIRNAME"
    · subst h2; simp [assign]
    by_cases h3 : n = c!"RULE_INPUT_NAME"
    · subst h3; simp [assign]
    by_cases h4 : n = c!"RULE_INPUT_ROOT"
    · subst h4; simp [assign]
    by_cases h5 : n = c!"RULE_INPUT_EXT"
    · subst h5; simp [assign]
    simp only [assign, h1, h2, h3, h4, h5, if_false]
    exact h₀ n hn (by simp only [ruleVars, List.mem_cons, h1, h2, h3, h4, h5, List.not_mem_nil, or_self, not_false_eq_true])
  · intro n hn
    simp only [ruleVars, List.mem_cons, List.not_mem_nil, or_false, not_or] at hn
    simp only [assign, hn.1, hn.2.1, hn.2.2.1, hn.2.2.2.1, hn.2.2.2.2, if_false]

/-- The variables of a source are taken back. -/
theorem reads_unsetRuleVars (env : CEnv) :
    ∃ env', ReadsC env unsetRuleVars env' [] ∧ (∀ n ∈ ruleVars, env' n = []) ∧ ∀ n, n ∉ ruleVars → env' n = env n := by
  have u : ∀ (e : CEnv) (n : Str), n ∈ ruleVars → ReadsC e (unsetVariable n) (assign e n []) [] :=
    fun e n hn => reads_unsetVariable ((by decide : ∀ n ∈ ruleVars, NameC n) n hn)
  refine ⟨_, (((((u env c!"RULE_INPUT_PATH" (by decide)).append (u _ c!"RULE_INPUT_DIRNAME" (by decide))).append
    (u _ c!"RULE_INPUT_NAME" (by decide))).append (u _ c!"RULE_INPUT_ROOT" (by decide))).append
    (u _ c!"RULE_INPUT_EXT" (by decide))), ?_, ?_⟩
  · intro n hn
    simp only [ruleVars, List.mem_cons, List.not_mem_nil, or_false] at hn
    rcases hn with rfl | rfl | rfl | rfl | rfl <;> simp [assign]
  · intro n hn
    simp only [ruleVars, List.mem_cons, List.not_mem_nil, or_false, not_or] at hn
    simp only [assign, hn.1, hn.2.1, hn.2.2.1, hn.2.2.2.1, hn.2.2.2.2, if_false]

/-- The outputs are put in variables. -/
theorem reads_setRuleOutputs {env : CEnv} {names vals ws : List Str} (hl : names.length = vals.length)
    (h : List.Forall₂ (Amounts env) vals ws) (hw : ∀ w ∈ ws, w ≠ [] ∧ w ≠ c!"PARENT_SCOPE" ∧ w ≠ c!"CACHE")
    (hn : ∀ n ∈ names, NameC n) (hk : ∀ n ∈ names, KeptName n) (hd : names.Nodup) :
    ∃ env', ReadsC env (setRuleOutputs names vals) env' [] ∧ AgreeC env env' ∧
      (∀ n, n ∉ names → env' n = env n) ∧ List.Forall₂ (fun n w => listOf env' n = [w]) names ws := by
  induction names generalizing env vals ws with
  | nil =>
    cases vals with
    | nil => cases h; exact ⟨env, ReadsC.nil, AgreeC.refl env, fun _ _ => rfl, .nil⟩
    | cons v vals => simp at hl
  | cons n names ih =>
    cases h with
    | nil => simp at hl
    | @cons v w vals ws hv hvs =>
      have s := reads_setVariable (hn n (by simp)) hv (hw w (by simp)).2.1 (hw w (by simp)).2.2
      have a := (AgreeC.refl env).assign (v := semi w) (hk n (by simp))
      simp only [List.nodup_cons] at hd
      obtain ⟨env', h₁, h₂, h₃, h₄⟩ := ih (env := assign env n (semi w)) (by simpa using hl)
        (hvs.imp fun _ _ => Amounts.agree a) (fun x hx => hw x (by simp [hx])) (fun x hx => hn x (by simp [hx]))
        (fun x hx => hk x (by simp [hx])) hd.2
      refine ⟨env', ?_, a.trans h₂, ?_, .cons ?_ h₄⟩
      · have := s.append h₁
        simpa [setRuleOutputs] using this
      · intro m hm
        simp only [List.mem_cons, not_or] at hm
        rw [h₃ m hm.2]
        simp [assign, hm.1]
      · unfold listOf
        rw [h₃ n hd.1]
        simp only [assign, if_true]
        rw [elements_semi, if_neg (hw w (by simp)).1]

theorem gives_refLines {env : CEnv} {names ws : List Str} (hn : ∀ n ∈ names, NameC n)
    (h : List.Forall₂ (fun n w => listOf env n = [w]) names ws) : Gives env (refLines names) ws := by
  induction h with
  | nil => exact Gives.nil
  | @cons n w names ws h₁ _ ih =>
    have h₀ : Gives env c!"  " [] := Gives.blanks (by decide)
    have h₂ := Gives.ref (env := env) (hn n (by simp)) (b := '\n') (by decide)
    rw [h₁] at h₂
    have := (h₀.append h₂).append (ih fun m hm => hn m (by simp [hm]))
    simpa [refLines] using this

theorem gives_bareWords {env : CEnv} {ts ws : List Str} (h : List.Forall₂ (BareWord env) ts ws) (hne : ts ≠ [])
    {b : Char} (hb : isBlankC b) : Gives env (joinWith [' '] ts ++ [b]) ws := by
  induction h with
  | nil => simp at hne
  | @cons t w ts ws hw hws ih =>
    cases hws with
    | nil => simpa [joinWith] using Gives.word hw hb
    | cons hw' hws' =>
      have h₁ := Gives.word hw (b := ' ') (by decide)
      have := h₁.append (ih (by simp))
      simpa [joinWith] using this

theorem forall₂_held {env env' : CEnv} {names ws : List Str}
    (h : List.Forall₂ (fun n w => listOf env n = [w]) names ws)
    (he : ∀ n ∈ names, listOf env' n = listOf env n) :
    List.Forall₂ (fun n w => listOf env' n = [w]) names ws := by
  induction h with
  | nil => exact .nil
  | cons h₁ _ ih => exact .cons ((he _ (by simp)).trans h₁) (ih fun n hn => he n (by simp [hn]))

/-! ### One source -/

theorem cmRuleCommand_text (target path : Str) (r : CRule) (k : Nat) (dirs : List Str) (source : Str) :
    cmRuleCommand target path r k dirs source = c!"add_custom_command" ++ '(' ::
      ((((((c!"OUTPUT" ++ ['\n']) ++ refLines (cmRuleOutVars target r k)) ++ makeDirs dirs) ++
        (c!"  " ++ ((c!"COMMAND" ++ [' ']) ++ (EncodePOSIXShellList r.action ++ ['\n'])))) ++
        (c!"  " ++ ((c!"DEPENDS" ++ [' ']) ++ ((writeVariable (cmRuleInputs target r) ++ [' ']) ++
          (normjoinPath path source ++ ['\n']))))) ++
        ((c!"  " ++ ((c!"WORKING_DIRECTORY" ++ [' ']) ++ ((listDirVar ++ c!"/" ++ path) ++ ['\n']))) ++
        ((c!"  " ++ ((c!"COMMENT" ++ [' ']) ++ (ruleComment target r k ++ ['\n']))) ++
        (c!"  " ++ (c!"VERBATIM" ++ ['\n']))))) ++ c!")\n" := by
  unfold cmRuleCommand
  generalize writeVariable (cmRuleInputs target r) = A
  generalize refLines (cmRuleOutVars target r k) = B
  generalize EncodePOSIXShellList r.action = C
  generalize ruleComment target r k = D
  generalize listDirVar = E
  generalize makeDirs dirs = F
  generalize normjoinPath path source = G
  simp

theorem gives_workDir {env : CEnv} {path dir : Str} (hp : path.all isPlainChar = true)
    (hdir : env (c!"CMAKE_CURRENT_" ++ c!"LIST_DIR") = dir) (hsemi : ';' ∉ dir) :
    Gives env ((listDirVar ++ c!"/" ++ path) ++ ['\n']) [dir ++ c!"/" ++ path] := by
  refine Gives.word ⟨?_, ?_, by simp⟩ (by decide)
  · intro c hc
    simp only [List.mem_append] at hc
    rcases hc with (hc | hc) | hc
    · exact (by decide : ∀ d ∈ listDirVar, isPlainChar d = true ∨ d ∈ c!"${}") c hc
    · exact (by decide : ∀ d ∈ c!"/", isPlainChar d = true ∨ d ∈ c!"${}") c hc
    · exact .inl (List.all_eq_true.1 hp c hc)
  · have h1 : '$' ∉ c!"/" ++ path := by
      intro hm
      rcases List.mem_append.1 hm with hm | hm
      · revert hm; decide
      · exact (isPlainChar_bare (List.all_eq_true.1 hp _ hm)).2 (by decide)
    have := Amounts.ref (env := env) (n := c!"CMAKE_CURRENT_" ++ c!"LIST_DIR") (by decide)
      (by decide) (by rw [hdir]; exact hsemi) (standsFor_self h1)
    rw [hdir] at this
    simpa [listDirVar] using this

theorem kw_gives {env : CEnv} (k : Str) (b : Char) (hk : k ∈ commandOptions) (hb : isBlankC b = true) :
    Gives env (k ++ [b]) [k] :=
  Gives.name ((by decide : ∀ k ∈ commandOptions, NameC k) k hk) hb

/-- The command for one source is read back. -/
theorem reads_ruleSource {env env₀ : CEnv} {target path cm dir : Str} {r : CRule} {k : Nat} {dirs ins : List Str}
    {source : Str} {x : SourceRead} (hn : NameC (cmRuleName target r)) (hp : path.all isPlainChar = true)
    (hcm : listOf env c!"CMAKE_COMMAND" = [cm]) (hcm' : cm ∉ commandOptions)
    (hdir : env (c!"CMAKE_CURRENT_" ++ c!"LIST_DIR") = dir) (hsemi : ';' ∉ dir)
    (hf : SourceFits env target path r k dirs source x) (hret : ∀ v ∈ r.action, '\r' ∉ v)
    (h₀ : AgreeR env env₀) (hins : listOf env₀ (cmRuleInputs target r) = ins)
    (hins' : ∀ w ∈ ins, w ∉ commandOptions) :
    ∃ env' t, ReadsC env₀ (cmRuleSource target path r k dirs source) env' [t] ∧ AgreeR env env' ∧
      RecordsSource cm (dir ++ c!"/" ++ path) ins x t ∧
      (∀ n, n ∉ ruleVars → n ∉ cmRuleOutVars target r k → env' n = env₀ n) ∧
      (∀ n ∈ ruleVars, env' n = []) ∧
      List.Forall₂ (fun n w => listOf env' n = [w]) (cmRuleOutVars target r k) x.outs := by
  have vName : ∀ n ∈ cmRuleOutVars target r k, NameC n := by
    intro n hm
    obtain ⟨i, _, rfl⟩ := cmRuleOutVars_mem.1 hm
    exact cmRuleOutVar_nameC hn k i
  have vKept : ∀ n ∈ cmRuleOutVars target r k, KeptName n := by
    intro n hm
    obtain ⟨i, _, rfl⟩ := cmRuleOutVars_mem.1 hm
    exact cmRuleOutVar_kept target r k i
  have vNodup : (cmRuleOutVars target r k).Nodup := by
    unfold cmRuleOutVars
    exact List.Nodup.map_on (fun i _ j _ e => (cmRuleOutVar_inj e).2.2) List.nodup_range
  have vRule : ∀ n ∈ ruleVars, n ∉ cmRuleOutVars target r k := fun n hr hm => ruleVars_notKept n hr (vKept n hm)
  have nIn : NameC (cmRuleInputs target r) := nameC_append hn (by decide)
  have inRule : cmRuleInputs target r ∉ ruleVars := fun h => ruleVars_notKept _ h (cmRuleInputs_kept target r)
  have inOut : cmRuleInputs target r ∉ cmRuleOutVars target r k := by
    intro h
    obtain ⟨i, _, e⟩ := cmRuleOutVars_mem.1 h
    exact cmRuleOutVar_ne_inputs target r r k i e
  obtain ⟨env₁, r₁, a₁, o₁⟩ := reads_setRuleVars hf h₀
  obtain ⟨env₂, r₂, a₂, o₂, l₂⟩ := reads_setRuleOutputs (env := env₁) (names := cmRuleOutVars target r k)
    (vals := r.outputs.map fun o => normjoinRule path o source) (ws := x.outs) (by simp [cmRuleOutVars])
    (hf.outs.imp fun _ _ => Amounts.agree a₁) hf.elems vName vKept vNodup
  have a : AgreeC (ruleEnv env x) env₂ := a₁.trans a₂
  have hAR : AgreeR env env₂ := by
    intro n hk hr
    rw [a n hk]
    unfold ruleEnv
    simp only [ruleVars, List.mem_cons, List.not_mem_nil, or_false, not_or] at hr
    simp only [hr.1, hr.2.1, hr.2.2.1, hr.2.2.2.1, hr.2.2.2.2, if_false]
  have hcm₂ : listOf env₂ c!"CMAKE_COMMAND" = [cm] := by
    unfold listOf
    rw [hAR _ (by decide) (by decide)]
    exact hcm
  have hdir₂ : env₂ (c!"CMAKE_CURRENT_" ++ c!"LIST_DIR") = dir := by
    rw [hAR _ (by decide) (by decide)]
    exact hdir
  have li : listOf env₂ (cmRuleInputs target r) = ins := by
    unfold listOf
    rw [o₂ _ inOut, o₁ _ inRule]
    exact hins
  have no : ∀ w, w = x.dep ∨ w ∈ x.outs ∨ w ∈ x.dirs ∨ w ∈ x.args ∨ w ∈ x.comment → w ∉ commandOptions := by
    intro w hw
    apply hf.noOption w
    simp only [List.mem_cons, List.mem_append]
    tauto
  have sp : Gives env₂ c!"  " [] := Gives.blanks (by decide)
  have gOut := gives_refLines vName l₂
  have gIn : Gives env₂ (writeVariable (cmRuleInputs target r) ++ [' ']) ins := by
    have := Gives.ref (env := env₂) nIn (b := ' ') (by decide)
    rwa [li] at this
  have gDep : Gives env₂ (normjoinPath path source ++ ['\n']) [x.dep] :=
    Gives.word (BareWord.apart hAR (hf.apart _ (by simp)) hf.dep) (by decide)
  have gDirs := gives_makeDirs hcm₂ (hf.dirs.imp fun _ _ => BareWord.agree a)
  have gArgs := gives_shellList (hf.args.imp fun _ _ => Amounts.agree a) hret (b := '\n') (by decide)
  have gWd := gives_workDir hp hdir₂ hsemi
  have gCom : Gives env₂ (ruleComment target r k ++ ['\n']) x.comment := by
    have := hf.comment
    unfold ruleComment
    cases hm : r.message with
    | none =>
      rw [hm] at this
      rw [this]
      exact Gives.name (nameC_append (nameC_append hn (by decide)) (natStr_varChar k)) (by decide)
    | some m =>
      rw [hm] at this
      obtain ⟨ts, h1, h2, h3⟩ := this
      subst h2
      exact gives_bareWords (h3.imp fun _ _ => BareWord.agree a) h1 (by decide)
  have gAll := (((((kw_gives (env := env₂) c!"OUTPUT" '\n' (by decide) (by decide)).append gOut).append
    gDirs).append (sp.append ((kw_gives c!"COMMAND" ' ' (by decide) (by decide)).append gArgs))).append
    (sp.append ((kw_gives c!"DEPENDS" ' ' (by decide) (by decide)).append (gIn.append gDep)))).append
    ((sp.append ((kw_gives c!"WORKING_DIRECTORY" ' ' (by decide) (by decide)).append gWd)).append
    ((sp.append ((kw_gives c!"COMMENT" ' ' (by decide) (by decide)).append gCom)).append
    (sp.append (kw_gives c!"VERBATIM" '\n' (by decide) (by decide)))))
  have r₃ := gAll.end_.told (n := c!"add_custom_command") (by decide) (by decide) (by decide)
    (by decide) (by decide)
  rw [← cmRuleCommand_text] at r₃
  obtain ⟨env₃, r₄, u₁, u₂⟩ := reads_unsetRuleVars env₂
  refine ⟨env₃, _, ((r₁.append r₂).append r₃).append r₄, ?_, ⟨rfl, ?_⟩, ?_, u₁, ?_⟩
  · intro n hk hr
    rw [u₂ n hr]
    exact hAR n hk hr
  · have b₁ := byOption_section (k := c!"VERBATIM") (vs := []) (rest := []) (R := []) (by decide)
      (by simp) rfl
    have b₂ := byOption_section (k := c!"COMMENT") (vs := x.comment) (by decide)
      (fun v hv => no v (by tauto)) b₁
    have hwd : dir ++ c!"/" ++ path ∉ commandOptions := by
      intro h
      exact absurd (show '/' ∈ dir ++ c!"/" ++ path by simp)
        ((by decide : ∀ o ∈ commandOptions, '/' ∉ o) _ h)
    have b₃ := byOption_section (k := c!"WORKING_DIRECTORY") (vs := [dir ++ c!"/" ++ path])
      (by decide) (fun v hv => List.mem_singleton.1 hv ▸ hwd) b₂
    have b₄ := byOption_section (k := c!"DEPENDS") (vs := ins ++ [x.dep]) (by decide)
      (fun v hv => by
        rcases List.mem_append.1 hv with h | h
        · exact hins' v h
        · exact no v (.inl (List.mem_singleton.1 h))) b₃
    have b₅ := byOption_section (k := c!"COMMAND") (vs := x.args) (by decide)
      (fun v hv => no v (by tauto)) b₄
    have b₆ := byOption_makeDirs (ds := x.dirs) hcm' (fun d hd => no d (by tauto)) b₅
    have b₇ := byOption_section (k := c!"OUTPUT") (vs := x.outs) (by decide)
      (fun v hv => no v (by tauto)) b₆
    simpa using b₇
  · intro n hr ho
    rw [u₂ n hr, o₂ n ho, o₁ n hr]
  · refine forall₂_held l₂ fun n hm => ?_
    unfold listOf
    rw [u₂ n fun hr => vRule n hr hm]

/-! ### One rule -/

theorem mem_range'_ge {a k n : Nat} (h : a ∈ List.range' k n) : k ≤ a := by
  rw [List.mem_range'_1] at h
  exact h.1

/-- The commands of a rule are read back. -/
theorem reads_ruleSources {env : CEnv} {target path cm dir : Str} {r : CRule} {ins : List Str}
    (hn : NameC (cmRuleName target r)) (hp : path.all isPlainChar = true)
    (hcm : listOf env c!"CMAKE_COMMAND" = [cm]) (hcm' : cm ∉ commandOptions)
    (hdir : env (c!"CMAKE_CURRENT_" ++ c!"LIST_DIR") = dir) (hsemi : ';' ∉ dir)
    (hret : ∀ v ∈ r.action, '\r' ∉ v) (hins' : ∀ w ∈ ins, w ∉ commandOptions)
    {k : Nat} {ss : List (List Str × Str)} {xs : List SourceRead} (hf : SourcesFit env target path r k ss xs)
    {env₀ : CEnv} (h₀ : AgreeR env env₀) (hins : listOf env₀ (cmRuleInputs target r) = ins) :
    ∃ env' cmds, ReadsC env₀ (cmRuleSources target path r k ss) env' cmds ∧ AgreeR env env' ∧
      List.Forall₂ (RecordsSource cm (dir ++ c!"/" ++ path) ins) xs cmds ∧
      (∀ n, n ∉ ruleVars → (∀ j, k ≤ j → n ∉ cmRuleOutVars target r j) → env' n = env₀ n) ∧
      (∀ n ∈ ruleVars, env₀ n = [] → env' n = []) ∧
      List.Forall₂ (fun n w => listOf env' n = [w])
        ((List.range' k ss.length).flatMap (cmRuleOutVars target r)) (xs.flatMap (·.outs)) := by
  induction hf generalizing env₀ with
  | nil k => exact ⟨env₀, [], ReadsC.nil, h₀, .nil, fun _ _ _ => rfl, fun _ _ h => h, .nil⟩
  | @cons k s x ss xs hs _ ih =>
    obtain ⟨env₁, t, h₁, h₂, h₃, h₄, h₅, h₆⟩ := reads_ruleSource (env := env) (env₀ := env₀) (ins := ins)
      hn hp hcm hcm' hdir hsemi hs hret h₀ hins hins'
    have inRule : cmRuleInputs target r ∉ ruleVars := fun h => ruleVars_notKept _ h (cmRuleInputs_kept target r)
    have inOut : ∀ j, cmRuleInputs target r ∉ cmRuleOutVars target r j := by
      intro j h
      obtain ⟨i, _, e⟩ := cmRuleOutVars_mem.1 h
      exact cmRuleOutVar_ne_inputs target r r j i e
    obtain ⟨env₂, cmds, g₁, g₂, g₃, g₄, g₅, g₆⟩ := ih h₂ (by
      unfold listOf
      rw [h₄ _ inRule (inOut k)]
      exact hins)
    refine ⟨env₂, t :: cmds, ?_, g₂, .cons h₃ g₃, ?_, ?_, ?_⟩
    · have := h₁.append g₁
      simpa [cmRuleSources] using this
    · intro n hr ho
      rw [g₄ n hr (fun j hj => ho j (by omega)), h₄ n hr (ho k (Nat.le_refl k))]
    · intro n hr _
      exact g₅ n hr (h₅ n hr)
    · rw [List.length_cons, List.range'_succ, List.flatMap_cons, List.flatMap_cons]
      refine List.rel_append (forall₂_held h₆ fun n hm => ?_) g₆
      unfold listOf
      rw [g₄ n]
      · intro hr
        obtain ⟨i, _, rfl⟩ := cmRuleOutVars_mem.1 hm
        exact ruleVars_notKept _ hr (cmRuleOutVar_kept target r k i)
      · intro j hj hm'
        obtain ⟨i, _, rfl⟩ := cmRuleOutVars_mem.1 hm
        obtain ⟨i', _, e⟩ := cmRuleOutVars_mem.1 hm'
        have := (cmRuleOutVar_inj e).2.1
        omega

theorem cmRuleTarget_text (target path : Str) (r : CRule) :
    cmRuleTarget target path r = c!"add_custom_target" ++ '(' ::
      ((((cmRuleName target r ++ [' ']) ++ (c!"DEPENDS" ++ ['\n'])) ++ refLines (cmRuleAllVars target r)) ++
        (((c!"SOURCES" ++ [' ']) ++ (writeVariable (cmRuleInputs target r) ++ ['\n'])) ++
        (r.sources.flatMap fun s => c!"  " ++ normjoinPath path s.2 ++ c!"\n"))) ++ c!")\n" := by
  unfold cmRuleTarget
  generalize writeVariable (cmRuleInputs target r) = A
  generalize refLines (cmRuleAllVars target r) = B
  generalize (r.sources.flatMap fun s => c!"  " ++ normjoinPath path s.2 ++ c!"\n") = C
  simp

theorem gives_ruleDeps {env env' : CEnv} {target path : Str} {r : CRule} {k : Nat} {ss : List (List Str × Str)}
    {xs : List SourceRead} (h : SourcesFit env target path r k ss xs) (ha : AgreeR env env') :
    Gives env' (ss.flatMap fun s => c!"  " ++ normjoinPath path s.2 ++ c!"\n") (xs.map (·.dep)) := by
  induction h with
  | nil k => exact Gives.nil
  | @cons k s x ss xs hs _ ih =>
    have h₀ : Gives env' c!"  " [] := Gives.blanks (by decide)
    have h₁ : Gives env' (normjoinPath path s.2 ++ ['\n']) [x.dep] :=
      Gives.word (BareWord.apart ha (hs.apart _ (by simp)) hs.dep) (by decide)
    have := (h₀.append h₁).append ih
    simpa using this

theorem sourcesFit_options {env : CEnv} {target path : Str} {r : CRule} {k : Nat} {ss : List (List Str × Str)}
    {xs : List SourceRead} (h : SourcesFit env target path r k ss xs) :
    ∀ x ∈ xs, x.dep ∉ commandOptions ∧ ∀ w ∈ x.outs, w ∉ commandOptions := by
  induction h with
  | nil k => simp
  | @cons k s x ss xs hs _ ih =>
    intro y hy
    rcases List.mem_cons.1 hy with rfl | hy
    · exact ⟨hs.noOption _ (by simp), fun w hw => hs.noOption w (by simp [hw])⟩
    · exact ih y hy

theorem forall₂_amounts_apart {env env' : CEnv} (h : AgreeR env env') {ts ws : List Str}
    (ha : ∀ t ∈ ts, ApartC t) (hf : List.Forall₂ (Amounts env) ts ws) : List.Forall₂ (Amounts env') ts ws := by
  induction hf with
  | nil => exact .nil
  | cons h₁ _ ih => exact .cons (Amounts.apart h (ha _ (by simp)) h₁) (ih fun t ht => ha t (by simp [ht]))

/-- The variables a rule sets for good. -/
def ruleNames (target : Str) (r : CRule) (n : Str) : Prop :=
  n = cmRuleInputs target r ∨ ∃ k, n ∈ cmRuleOutVars target r k

/-- One rule is read back. -/
theorem reads_rule {env env₀ : CEnv} {target path cm dir : Str} {r : CRule} {x : RuleRead}
    (ht : NameC target) (hp : path.all isPlainChar = true)
    (hcm : listOf env c!"CMAKE_COMMAND" = [cm]) (hcm' : cm ∉ commandOptions)
    (hdir : env (c!"CMAKE_CURRENT_" ++ c!"LIST_DIR") = dir) (hsemi : ';' ∉ dir)
    (hf : RuleFits env target path r x) (h₀ : AgreeR env env₀) (hfresh : env₀ (cmRuleInputs target r) = []) :
    ∃ env' told, ReadsC env₀ (cmRule target path r) env' told ∧ AgreeR env env' ∧
      RecordsRule cm (dir ++ c!"/" ++ path) (cmRuleName target r) x told ∧
      (∀ n, n ∉ ruleVars → ¬ ruleNames target r n → env' n = env₀ n) ∧
      (∀ n ∈ ruleVars, env₀ n = [] → env' n = []) ∧
      List.Forall₂ (fun n w => listOf env' n = [w]) (cmRuleAllVars target r) (x.sources.flatMap (·.outs)) := by
  have hn := cmRuleName_nameC ht hf.name
  have nIn : NameC (cmRuleInputs target r) := nameC_append hn (by decide)
  have r₁ := reads_setVariableList nIn (forall₂_amounts_apart h₀ (by
      intro t hm
      obtain ⟨i, hi, rfl⟩ := List.mem_map.1 hm
      exact hf.insApart i hi) hf.ins) (fun _ => hfresh)
    (fun h => (hf.elems _ h).2.1 rfl) (fun h => (hf.elems _ h).2.2.1 rfl)
  generalize he₁ : assign env₀ (cmRuleInputs target r) (joinWith [';'] (x.ins.map semi)) = env₁ at r₁
  have a₁ : AgreeR env env₁ := h₀.of_agree (he₁ ▸ (AgreeC.refl env₀).assign (cmRuleInputs_kept target r))
  have li₁ : listOf env₁ (cmRuleInputs target r) = x.ins := by
    rw [← he₁]
    simp only [listOf, assign, if_true]
    exact elements_join fun w hw => (hf.elems w hw).1
  obtain ⟨env₂, cmds, r₂, a₂, rec, o₂, u₂, l₂⟩ := reads_ruleSources hn hp hcm hcm' hdir hsemi hf.noReturn
    (fun w hw => (hf.elems w hw).2.2.2) hf.sources a₁ li₁
  have hall : (List.range' 0 r.sources.length).flatMap (cmRuleOutVars target r) = cmRuleAllVars target r := by
    unfold cmRuleAllVars
    rw [List.range_eq_range']
  rw [hall] at l₂
  have inRule : cmRuleInputs target r ∉ ruleVars := fun h => ruleVars_notKept _ h (cmRuleInputs_kept target r)
  have li₂ : listOf env₂ (cmRuleInputs target r) = x.ins := by
    unfold listOf
    rw [o₂ _ inRule fun j _ h => by
      obtain ⟨i, _, e⟩ := cmRuleOutVars_mem.1 h
      exact cmRuleOutVar_ne_inputs target r r j i e]
    exact li₁
  have vName : ∀ n ∈ cmRuleAllVars target r, NameC n := by
    intro n hm
    obtain ⟨k, _, hm⟩ := List.mem_flatMap.1 hm
    obtain ⟨i, _, rfl⟩ := cmRuleOutVars_mem.1 hm
    exact cmRuleOutVar_nameC hn k i
  have gIn : Gives env₂ (writeVariable (cmRuleInputs target r) ++ ['\n']) x.ins := by
    have := Gives.ref (env := env₂) nIn (b := '\n') (by decide)
    rwa [li₂] at this
  have gAll := ((((Gives.name (env := env₂) hn (b := ' ') (by decide)).append
    (kw_gives c!"DEPENDS" '\n' (by decide) (by decide))).append (gives_refLines vName l₂)).append
    (((kw_gives c!"SOURCES" ' ' (by decide) (by decide)).append gIn).append (gives_ruleDeps hf.sources a₂)))
  have r₃ := gAll.end_.told (n := c!"add_custom_target") (by decide) (by decide) (by decide)
    (by decide) (by decide)
  rw [← cmRuleTarget_text] at r₃
  refine ⟨env₂, _, (r₁.append r₂).append r₃, a₂, ⟨cmds, _, rfl, rec, rfl, ?_⟩, ?_, ?_, l₂⟩
  · have hopt := sourcesFit_options hf.sources
    have b₁ := byOption_section (k := c!"SOURCES") (vs := x.ins ++ x.sources.map (·.dep)) (rest := []) (R := [])
      (by decide) (fun v hv => by
        rcases List.mem_append.1 hv with h | h
        · exact (hf.elems v h).2.2.2
        · obtain ⟨y, hy, rfl⟩ := List.mem_map.1 h
          exact (hopt y hy).1) rfl
    have b₂ := byOption_section (k := c!"DEPENDS") (vs := x.sources.flatMap (·.outs)) (by decide)
      (fun v hv => by
        obtain ⟨y, hy, hv⟩ := List.mem_flatMap.1 hv
        exact (hopt y hy).2 v hv) b₁
    have b₃ := byOption_first (cmRuleName_noOption target r) b₂
    simpa using b₃
  · intro n hr hno
    unfold ruleNames at hno
    rw [not_or, not_exists] at hno
    rw [o₂ n hr fun j _ => hno.2 j, ← he₁]
    simp [assign, hno.1]
  · intro n hr h
    refine u₂ n hr ?_
    rw [← he₁]
    have : n ≠ cmRuleInputs target r := fun e => inRule (e ▸ hr)
    simp [assign, this, h]

/-! ### All rules -/

/-- **C116** (partial: a source in the directory of the gyp file itself is missing when an output is put beside
it, see `C116_no_directory`).  The rules of a target are read back: CMake is told once of each source of
each rule, in order, with its outputs, the inputs of the rule and the source as what it is made from, the words of the command
exactly, with the parts of the name of the source put in, and the directory it runs in; and of a target for the
rule that needs the outputs for all sources.  Each output has a variable of its own that still holds it when
everything is read, and the variables of the sources are gone. -/
theorem C116_rules_partial {env : CEnv} {target path cm dir : Str} {rules : List CRule} {xs : List RuleRead}
    (ht : NameC target) (hp : path.all isPlainChar = true)
    (hcm : listOf env c!"CMAKE_COMMAND" = [cm]) (hcm' : cm ∉ commandOptions)
    (hdir : env (c!"CMAKE_CURRENT_" ++ c!"LIST_DIR") = dir) (hsemi : ';' ∉ dir)
    (hf : List.Forall₂ (RuleFits env target path) rules xs)
    (hdistinct : (rules.map (cmRuleName target)).Nodup)
    (hfresh : ∀ n, KeptName n ∨ n ∈ ruleVars → env n = []) :
    ∃ env' tolds, cmakeReads env (cmRules target path rules) = some (env', List.flatten tolds) ∧
      List.Forall₂ (fun (p : CRule × RuleRead) told =>
        RecordsRule cm (dir ++ c!"/" ++ path) (cmRuleName target p.1) p.2 told) (rules.zip xs) tolds ∧
      (∀ p ∈ rules.zip xs, List.Forall₂ (fun n w => listOf env' n = [w]) (cmRuleAllVars target p.1)
        (p.2.sources.flatMap (·.outs))) ∧
      (∀ n, ¬ KeptName n → env' n = env n) := by
  suffices H : ∀ env₀ : CEnv, AgreeR env env₀ → (∀ n ∈ ruleVars, env₀ n = []) →
      (∀ r ∈ rules, env₀ (cmRuleInputs target r) = []) →
      ∃ env' tolds, ReadsC env₀ (cmRules target path rules) env' (List.flatten tolds) ∧
      List.Forall₂ (fun (p : CRule × RuleRead) told =>
        RecordsRule cm (dir ++ c!"/" ++ path) (cmRuleName target p.1) p.2 told) (rules.zip xs) tolds ∧
      (∀ p ∈ rules.zip xs, List.Forall₂ (fun n w => listOf env' n = [w]) (cmRuleAllVars target p.1)
        (p.2.sources.flatMap (·.outs))) ∧ AgreeR env env' ∧ (∀ n ∈ ruleVars, env' n = []) ∧
      (∀ n, n ∉ ruleVars → (∀ r ∈ rules, ¬ ruleNames target r n) → env' n = env₀ n) by
    obtain ⟨env', tolds, h₁, h₂, h₃, h₄, h₅, _⟩ := H env (fun _ _ _ => rfl) (fun n h => hfresh n (.inr h))
      fun r _ => hfresh _ (.inl (cmRuleInputs_kept target r))
    refine ⟨env', tolds, h₁.cmakeReads, h₂, h₃, fun n hk => ?_⟩
    by_cases hr : n ∈ ruleVars
    · rw [h₅ n hr, hfresh n (.inr hr)]
    · exact h₄ n hk hr
  clear hfresh
  induction hf with
  | nil => intro env₀ h₀ hv _; exact ⟨env₀, [], ReadsC.nil, .nil, by simp, h₀, hv, fun _ _ _ => rfl⟩
  | @cons r x rules xs hrx _ ih =>
    intro env₀ hag hv h₀
    simp only [List.map_cons, List.nodup_cons] at hdistinct
    have hother : ∀ q ∈ rules, cmRuleName target q ≠ cmRuleName target r :=
      fun q hq e => hdistinct.1 (List.mem_map.2 ⟨q, hq, e⟩)
    obtain ⟨env₁, told, h₁, h₂, h₃, h₄, h₅, h₆⟩ := reads_rule (env := env) (env₀ := env₀) ht hp hcm hcm' hdir hsemi
      hrx hag (h₀ r (by simp))
    obtain ⟨env₂, tolds, g₁, g₂, g₃, g₄, g₅, g₆⟩ := ih hdistinct.2 env₁ h₂ (fun n hn => h₅ n hn (hv n hn)) (by
      intro q hq
      rw [h₄ _ (fun h => ruleVars_notKept _ h (cmRuleInputs_kept target q))]
      · exact h₀ q (by simp [hq])
      · rintro (e | ⟨k, hm⟩)
        · exact hother q hq (List.append_cancel_right e)
        · obtain ⟨i, _, e⟩ := cmRuleOutVars_mem.1 hm
          exact cmRuleOutVar_ne_inputs target r q k i e)
    refine ⟨env₂, told :: tolds, ?_, .cons h₃ g₂, ?_, g₄, g₅, ?_⟩
    · have := h₁.append g₁
      simpa [cmRules] using this
    · intro p hp'
      rw [List.zip_cons_cons, List.mem_cons] at hp'
      rcases hp' with rfl | hp'
      · refine forall₂_held h₆ fun n hm => ?_
        obtain ⟨k, _, hm⟩ := List.mem_flatMap.1 hm
        obtain ⟨i, _, rfl⟩ := cmRuleOutVars_mem.1 hm
        unfold listOf
        rw [g₆ _ (fun h => ruleVars_notKept _ h (cmRuleOutVar_kept target r k i))]
        rintro q hq (e | ⟨k', hm'⟩)
        · exact cmRuleOutVar_ne_inputs target r q k i e
        · obtain ⟨i', _, e⟩ := cmRuleOutVars_mem.1 hm'
          exact hother q hq (cmRuleOutVar_inj e).1
      · exact g₃ p hp'
    · intro n hr hno
      rw [g₆ n hr fun q hq => hno q (by simp [hq]), h₄ n hr (hno r (by simp))]

/-- **C116.**  Where an output is said to be.  One that has a full path, or that is beside a source that has one,
is taken as it stands; any other leads, with the variables taken as names, from the directory of the CMake
file through that of the gyp file to the output. -/
theorem C116_places (path o source : Str) :
    (isAbs o = true → normjoinRule path o source = o) ∧
    ((∃ v ∈ fullPathVars, v <+: o) → normjoinRule path o source = o) ∧
    ((c!"${RULE_INPUT_PATH}" <+: o ∨ c!"${RULE_INPUT_DIRNAME}" <+: o) → (∃ v ∈ fullPathVars, v <+: source) →
      normjoinRule path o source = o) ∧
    (isAbs o = false → (¬ ∃ v ∈ fullPathVars, v <+: o) →
      (¬ (c!"${RULE_INPUT_PATH}" <+: o ∨ c!"${RULE_INPUT_DIRNAME}" <+: o) ∨ ¬ ∃ v ∈ fullPathVars, v <+: source) →
      ∀ l, walk l (normjoinRule path o source) = walk (walk (walk l listDirVar) path) o) := by
  have hs : ∀ t p : Str, startsWith t p = true ↔ p <+: t := fun t p => by
    unfold startsWith; exact List.isPrefixOf_iff_prefix
  have hv : ∀ t : Str, fullPathVars.any (startsWith t) = true ↔ ∃ v ∈ fullPathVars, v <+: t := by
    intro t
    rw [List.any_eq_true]
    simp only [hs]
  unfold normjoinRule normjoinSource
  simp only [Bool.and_eq_true, Bool.or_eq_true, hs, hv]
  refine ⟨fun h => ?_, fun h => ?_, fun h h' => ?_, fun h₁ h₂ h₃ l => ?_⟩
  · split
    · rfl
    · first | rfl | rw [if_pos h]
  · split
    · rfl
    · split
      · rfl
      · first | rfl | rw [if_pos h]
  · rw [if_pos ⟨h, h'⟩]
  · rw [if_neg (fun h => h₃.elim (· h.1) (· h.2)), if_neg (by rw [h₁]; decide), if_neg h₂, walk_join, walk_normpath, walk_join]

example : normjoinRule c!"../.." c!"${builddir}/gen/x.c" c!"x.idl" = c!"${builddir}/gen/x.c" ∧
    normjoinRule c!"../.." c!"${RULE_INPUT_DIRNAME}/x.c" c!"${obj}/x.idl" = c!"${RULE_INPUT_DIRNAME}/x.c" ∧
    normjoinRule c!"../.." c!"gen/${RULE_INPUT_ROOT}.c" c!"x.idl" =
      listDirVar ++ c!"/../../gen/${RULE_INPUT_ROOT}.c" := by decide +kernel

/-- **C116.**  A rule that says so adds its outputs to the sources, for each source and in order, by the
variables that hold them; any other adds nothing. -/
theorem C116_sources (target : Str) (r : CRule) :
    (r.asSources = true →
      (cmRuleExtra target r).map Prod.fst = (cmRuleAllVars target r).map (fun n => c!"${" ++ n ++ c!"}") ∧
      (cmRuleExtra target r).map Prod.snd = r.sources.flatMap fun _ => r.outputs) ∧
    (r.asSources = false → cmRuleExtra target r = []) := by
  unfold cmRuleExtra
  constructor
  · intro h
    rw [if_pos h]
    have hl : ∀ k, ((cmRuleOutVars target r k).map writeVariable).length = r.outputs.length := by
      intro k; simp [cmRuleOutVars]
    constructor
    · unfold cmRuleAllVars
      rw [List.map_flatMap, List.map_flatMap]
      congr 1
      funext k
      rw [List.map_fst_zip (by rw [hl])]
      rfl
    · rw [List.map_flatMap]
      have : (fun k => (((cmRuleOutVars target r k).map writeVariable).zip r.outputs).map Prod.snd) =
          fun _ => r.outputs := by
        funext k
        rw [List.map_snd_zip (by rw [hl])]
      rw [this]
      have hr : ∀ (n : Nat), (List.range n).flatMap (fun _ => r.outputs) = (List.replicate n r.outputs).flatten := by
        intro n
        rw [List.flatMap_def, List.map_const', List.length_range]
      rw [hr, List.flatMap_def, List.map_const']
  · intro h
    rw [if_neg (by rw [h]; decide)]

/-- What the case below stands for. -/
def ruleCaseEnv : CEnv := fun n =>
  if n = c!"CMAKE_COMMAND" then c!"/bin/cmake" else if n = c!"CMAKE_CURRENT_" ++ c!"LIST_DIR" then c!"/b"
  else if n = c!"builddir" then c!"/b/out" else []

def ruleCase : CRule :=
  { name := c!"idl", inputs := [c!"gen.py"], outputs := [c!"${builddir}/${RULE_INPUT_ROOT}.c"],
    action := [c!"python", c!"gen.py", c!"${RULE_INPUT_PATH}"], sources := [([c!"${builddir}"], c!"a/x.idl")],
    message := some c!"Making ${RULE_INPUT_ROOT}", asSources := true }

def ruleCaseSource : SourceRead :=
  { path := c!"a/x.idl", dir := c!"a", name := c!"x.idl", root := c!"x", ext := c!".idl", dep := c!"../a/x.idl",
    outs := [c!"/b/out/x.c"], dirs := [c!"/b/out"], args := [c!"python", c!"gen.py", c!"a/x.idl"],
    comment := [c!"Making", c!"x"] }

/-- A source in a directory, with an output in the build directory. -/
example : RuleFits ruleCaseEnv c!"t" c!".." ruleCase { ins := [c!"/b/../gen.py"], sources := [ruleCaseSource] } where
  name := by decide
  ins := .cons (.ref (env := ruleCaseEnv) (n := c!"CMAKE_CURRENT_" ++ c!"LIST_DIR") (v := c!"/../gen.py")
    (w := c!"/../gen.py") (by decide) (by decide) (by decide) (standsFor_self (by decide))) .nil
  insApart := by decide
  elems := by decide
  noReturn := by decide
  sources := .cons
    { apart := by decide +kernel
      full := standsFor_self (by decide)
      dir := standsFor_self (by decide)
      name := standsFor_self (by decide)
      root := standsFor_self (by decide)
      ext := standsFor_self (by decide)
      parts := by decide
      dep := plainWordC_bareWord (by decide)
      outs := .cons (.ref (env := ruleEnv ruleCaseEnv ruleCaseSource) (n := c!"builddir") (by decide) (by decide)
        (by decide) (.char (by decide) (.ref (env := ruleEnv ruleCaseEnv ruleCaseSource) (n := c!"RULE_INPUT_ROOT")
          (v := c!".c") (w := c!".c") (by decide) (by decide) (by decide) (standsFor_self (by decide))))) .nil
      elems := by decide
      isDirs := by
        refine ⟨by decide, fun d => ?_⟩
        have h : dirname c!"${builddir}/${RULE_INPUT_ROOT}.c" = c!"${builddir}" := by decide +kernel
        simp only [ruleCase, List.mem_singleton, exists_eq_left, h]
        constructor
        · rintro rfl; decide
        · rintro ⟨_, h⟩; exact h.symm
      dirs := .cons ⟨by decide, .ref (env := ruleEnv ruleCaseEnv ruleCaseSource) (n := c!"builddir") (v := [])
        (w := []) (by decide) (by decide) (by decide) .nil, by decide⟩ .nil
      args := .cons (standsFor_self (by decide)) (.cons (standsFor_self (by decide))
        (.cons (.ref (env := ruleEnv ruleCaseEnv ruleCaseSource) (n := c!"RULE_INPUT_PATH") (v := []) (w := [])
          (by decide) (by decide) (by decide) .nil) .nil))
      comment := ⟨[c!"Making", c!"${RULE_INPUT_ROOT}"], by decide, by decide,
        .cons (plainWordC_bareWord (by decide)) (.cons ⟨by decide,
          .ref (env := ruleEnv ruleCaseEnv ruleCaseSource) (n := c!"RULE_INPUT_ROOT") (v := []) (w := [])
            (by decide) (by decide) (by decide) .nil, by decide⟩ .nil)⟩
      noOption := by decide } (.nil 1)

/-- The same, read by CMake. -/
example : (cmakeReads ruleCaseEnv (cmRules c!"t" c!".." [ruleCase])).map (fun r => r.2.map fun t => byOption t.args) =
    some [([], [(c!"OUTPUT", [c!"/b/out/x.c"]),
        (c!"COMMAND", [c!"/bin/cmake", c!"-E", c!"make_directory", c!"/b/out"]),
        (c!"COMMAND", [c!"python", c!"gen.py", c!"a/x.idl"]), (c!"DEPENDS", [c!"/b/../gen.py", c!"../a/x.idl"]),
        (c!"WORKING_DIRECTORY", [c!"/b/.."]), (c!"COMMENT", [c!"Making", c!"x"]), (c!"VERBATIM", [])]),
      ([c!"t__idl"], [(c!"DEPENDS", [c!"/b/out/x.c"]), (c!"SOURCES", [c!"/b/../gen.py", c!"../a/x.idl"])])] := by
  decide +kernel

/-- An output beside a source. -/
def besideCase : CRule :=
  { name := c!"r", inputs := [], outputs := [c!"${RULE_INPUT_DIRNAME}/x.c"], action := [c!"gen"],
    sources := [([c!"${RULE_INPUT_DIRNAME}"], c!"x.idl")] }

/-- **C116.**  A source with no directory and an output beside it: the directory of the source is written
bare and stands for nothing, so that `make_directory` is told no directory at all. -/
theorem C116_no_directory :
    (cmakeReads ruleCaseEnv (cmRules c!"t" c!"." [besideCase])).map
      (fun r => r.2.map fun t => (byOption t.args).2.filter fun o => o.1 = c!"COMMAND") =
      some [[(c!"COMMAND", [c!"/bin/cmake", c!"-E", c!"make_directory"]), (c!"COMMAND", [c!"gen"])], []] := by
  decide +kernel

/-- **C116.**  Paths are cleaned up while the variables of the source are still names: an output above the
directory of the source is said to be elsewhere, here `x.c` in place of `a/x.c`. -/
theorem C116_above :
    normjoinRule c!"." c!"${RULE_INPUT_DIRNAME}/../x.c" c!"a/b/x.idl" = listDirVar ++ c!"/x.c" ∧
    dirname c!"a/b/x.idl" = c!"a/b" := by
  decide +kernel

end Gyp
