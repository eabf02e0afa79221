import Verif.Proofs.MakeActionVars
/-
The commands of actions and rules as a whole.
-/
namespace Gyp
open Spec

variable {m : MkSelf} {t : MkOutputs} {v0 v1 : MakeVars}

/-! ### Which statement sets the command -/

theorem later_all {lines : List MkLine} {n x : Str} (h : .setLater n x ∈ lines)
    (hall : ∀ x', .setLater n x' ∈ lines → x' = x)
    (hv : laterAssignment (lineText (.setLater n x)) = some (n, x)) : laterText lines n = some x := by
  unfold laterText
  have key : ∀ e ∈ lines.filterMap (laterOf n), e = x := by
    intro e he
    obtain ⟨l, hl, hle⟩ := List.mem_filterMap.mp he
    cases l with
    | setLater n' x' =>
      simp only [laterOf] at hle
      split at hle
      · rename_i hn
        subst hn
        obtain rfl := hall x' hl
        rw [hv] at hle
        exact (Option.some.inj hle).symm
      · cases hle
    | _ => cases hle
  have hm : x ∈ lines.filterMap (laterOf n) := by
    refine List.mem_filterMap.mpr ⟨_, h, ?_⟩
    simp [laterOf, hv]
  rw [List.getLast?_eq_some_getLast (List.ne_nil_of_mem hm), key _ (List.getLast_mem _)]

/-- A command for a source of a rule. -/
def RuleCmd (m : MkSelf) (r : MkRule) (k : Nat) (x : Str) : Prop :=
  ∃ s outs action, r.sources[k]? = some s ∧ ruleOutputs r s = some outs ∧ expandAll s r.action = some action ∧
    x = ruleCommand m outs action

theorem actions_later {as : List MkAction} {ls : List MkLine} (h : WriteActions m as = some ls) {z x : Str}
    (hx : .setLater (c!"cmd_" ++ z) x ∈ ls) : ∃ a ∈ as, z = commandName m a.name ∧ x = actionCommand m a := by
  obtain ⟨parts, h1, rfl⟩ := WriteActions_some h
  rcases List.mem_append.mp hx with hx | hx
  · obtain ⟨p, hp, hx⟩ := List.mem_flatten.mp hx
    have : some p ∈ as.map (writeAction m) := by rw [h1]; exact List.mem_map.mpr ⟨p, hp, rfl⟩
    obtain ⟨a, ham, ha⟩ := List.mem_map.mp this
    obtain ⟨first, -, rfl⟩ := writeAction_some ha
    refine ⟨a, ham, ?_⟩
    simpa using hx
  · simp at hx

theorem ruleSources_later {r : MkRule} {count : Nat} {ss : List Str} {ls : List MkLine} {o : List Str}
    (h : writeRuleSources m r count ss = some (ls, o)) {z x : Str} (hx : .setLater (c!"cmd_" ++ z) x ∈ ls) :
    ∃ k s outs action, ss[k]? = some s ∧ z = commandName m r.name ++ c!"_" ++ natStr (count + k) ∧
      ruleOutputs r s = some outs ∧ expandAll s r.action = some action ∧ x = ruleCommand m outs action := by
  induction ss generalizing count ls o with
  | nil =>
    simp only [writeRuleSources, Option.some.injEq, Prod.mk.injEq] at h
    rw [← h.1] at hx
    cases hx
  | cons s ss ih =>
    rw [writeRuleSources] at h
    split at h
    · rename_i a oa b ob h1 h2
      simp only [Option.some.injEq, Prod.mk.injEq] at h
      rw [← h.1] at hx
      rcases List.mem_append.mp hx with hx | hx
      · obtain ⟨outs, action, first, e1, e2, -, -, rfl⟩ := writeRuleSource_some h1
        refine ⟨0, s, outs, action, rfl, ?_, e1, e2, ?_⟩
        · simp at hx
          simpa using hx.1
        · simp at hx
          exact hx.2
      · obtain ⟨k, s', outs, action, e1, e2, e3⟩ := ih h2 hx
        refine ⟨k + 1, s', outs, action, by simpa using e1, ?_, e3⟩
        rw [show count + (k + 1) = count + 1 + k by omega]
        exact e2
    · cases h

theorem rules_later {rs : List MkRule} {ls : List MkLine} (h : WriteRules m rs = some ls) {z x : Str}
    (hx : .setLater (c!"cmd_" ++ z) x ∈ ls) :
    ∃ r ∈ rs, ∃ k, z = commandName m r.name ++ c!"_" ++ natStr k ∧ RuleCmd m r k x := by
  obtain ⟨parts, h1, rfl⟩ := WriteRules_some h
  rcases List.mem_append.mp hx with hx | hx
  · obtain ⟨p, hp, hx⟩ := List.mem_flatten.mp hx
    have : some p ∈ rs.map (writeRule m) := by rw [h1]; exact List.mem_map.mpr ⟨p, hp, rfl⟩
    obtain ⟨r, hrm, hr⟩ := List.mem_map.mp this
    obtain ⟨l, outputs, e, rfl⟩ := writeRule_some hr
    obtain ⟨k, s, outs, action, e1, e2, e3⟩ := ruleSources_later e (z := z) (x := x) (by simpa using hx)
    rw [Nat.zero_add] at e2
    exact ⟨r, hrm, k, e2, s, outs, action, e1, e3⟩
  · simp at hx

/-- The commands that are set. -/
theorem lines_later (p : MkParts m t) {z x : Str} (hx : .setLater (c!"cmd_" ++ z) x ∈ p.lines)
    (hz : c!"cmd_" ++ z ≠ copiesVar m) :
    (∃ a ∈ m.spec.actions, z = commandName m a.name ∧ x = actionCommand m a) ∨
    ∃ r ∈ m.spec.rules, ∃ k, z = commandName m r.name ++ c!"_" ++ natStr k ∧ RuleCmd m r k x := by
  have hc : ∃ x ∈ ['c'], (c!"cmd_" ++ z).head? = some x := ⟨'c', by simp, rfl⟩
  rw [lines_front] at hx
  unfold MkParts.front MkParts.start at hx
  rcases List.mem_append.mp hx with hx | hx
  · rcases List.mem_append.mp hx with hx | hx
    · rcases List.mem_append.mp hx with hx | hx
      · rcases List.mem_append.mp hx with hx | hx
        · rcases List.mem_append.mp hx with hx | hx
          · rcases List.mem_append.mp hx with hx | hx
            · simp [headLines] at hx
            · rcases p.hactions with ⟨-, h⟩ | h
              · rw [h] at hx; cases hx
              · exact Or.inl (actions_later h hx)
          · rcases p.hrules with ⟨-, h⟩ | h
            · rw [h] at hx; cases hx
            · exact Or.inr (rules_later h hx)
        · rcases p.hcopies with ⟨-, h⟩ | h
          · rw [h] at hx; cases hx
          · exact absurd (WriteCopies_sets h ⟨_, hx, rfl⟩) hz
      · rcases p.hsources with ⟨-, h⟩ | h
        · rw [h] at hx; cases hx
        · exact (head_in (WriteSources_head h ⟨_, hx, rfl⟩) hc (by decide)).elim
    · exact absurd ⟨_, hx, rfl⟩ (targetSuffixRules_sets (m := m) (n := c!"cmd_" ++ z))
  · exact (head_in (WriteTarget_head p.htarget ⟨_, hx, rfl⟩) hc (by decide)).elim

/-- The name of the command of an action is not that of the copies. -/
theorem action_copies (n : Str) : c!"cmd_" ++ commandName m n ≠ copiesVar m := by
  intro h
  have e1 : commandName m n = StringToMakefileVariable m.qualified ++ c!"_" ++ StringToMakefileVariable n := by
    unfold commandName StringToMakefileVariable
    rw [List.map_append, List.map_append]
    rfl
  have e2 : copiesVar m = StringToMakefileVariable m.qualified ++ c!"_copies" := by
    unfold copiesVar StringToMakefileVariable
    rw [List.map_append]
    rfl
  rw [e1, e2] at h
  generalize StringToMakefileVariable m.qualified = q at h
  generalize StringToMakefileVariable n = w at h
  have hl := congrArg List.length h
  simp only [List.length_append, List.length_cons, List.length_nil] at hl
  match w, hl with
  | [x, y], _ =>
    have h' : (c!"cmd_" ++ q) ++ ['_', x, y] = (q ++ c!"_cop") ++ c!"ies" := by simpa using h
    have := List.append_inj_right' h' rfl
    injection this with this
    revert this; decide
  | [], hl => simp at hl; omega
  | [_], hl => simp at hl; omega
  | _ :: _ :: _ :: _, hl => simp at hl; omega

theorem natStr_ne (n : Nat) : natStr n ≠ [] := (natStr_digits n).1

theorem rule_copies (n : Str) (k : Nat) : c!"cmd_" ++ (commandName m n ++ c!"_" ++ natStr k) ≠ copiesVar m := by
  intro h
  have := copiesVar_last m
  rw [← h, ← List.append_assoc, List.getLast?_append, List.getLast?_eq_some_getLast (natStr_ne k), Option.some_or] at this
  have hd := natStr_mem (List.getLast_mem (natStr_ne k))
  rw [Option.some.inj this] at hd
  revert hd; decide

theorem natStr_underscore (k : Nat) : '_' ∉ natStr k := by
  intro h
  have := natStr_mem h
  revert this; decide

theorem command_split {a b : Str} {i j : Nat} (h : a ++ c!"_" ++ natStr i = b ++ c!"_" ++ natStr j) :
    a = b ∧ i = j := by
  have e1 : rsplit1 '_' (a ++ c!"_" ++ natStr i) = some (a, natStr i) := by
    simpa using rsplit1_append (a := a) (natStr_underscore i)
  have e2 : rsplit1 '_' (b ++ c!"_" ++ natStr j) = some (b, natStr j) := by
    simpa using rsplit1_append (a := b) (natStr_underscore j)
  rw [h, e2] at e1
  injection e1 with e1
  injection e1 with e1 e3
  exact ⟨e1.symm, natStr_inj e3.symm⟩

/-! ### The values -/

/-- The values of variables in a command whose target is written out. -/
def hardEnv (target : Str) (E : Str → Str) (n : Str) : Str := if n = c!"TARGET" then target else E n

theorem function_none {n : Str} (v : MakeVars) (h : ' ' ∉ n) : functionValue v n = none := by
  have key : ∀ pre : Str, ' ' ∈ pre → startsWith n pre = false := by
    intro pre hp
    cases e : startsWith n pre with
    | false => rfl
    | true =>
      unfold startsWith at e
      obtain ⟨r, rfl⟩ := List.isPrefixOf_iff_prefix.mp e
      exact absurd (List.mem_append_left _ hp) h
  unfold functionValue
  rw [key _ (by decide), key _ (by decide), key _ (by decide), key _ (by decide)]
  rfl

theorem env_auto (p : MkParts m t) (y : Str) (prereqs : List Str) :
    recipeEnv v1 (localValues v0 p.lines) y prereqs c!"<" = commandEnv m v0 v1 prereqs c!"<" := rfl

theorem env_function (p : MkParts m t) (y : Str) (prereqs : List Str) {f : Str} (hf : f ∈ ruleFunctions) (w : Str) :
    hardEnv m.spec.targetName (recipeEnv v1 (localValues v0 p.lines) y prereqs) (f ++ w) =
      commandEnv m v0 v1 prereqs (f ++ w) := by
  simp only [ruleFunctions, List.mem_cons, List.not_mem_nil, or_false] at hf
  have hd : ∀ (f w : Str), ' ' ∈ f → f ++ w ≠ c!"TARGET" ∧ f ++ w ≠ c!"TOOLSET" ∧ f ++ w ≠ c!"obj" ∧ f ++ w ≠ c!"builddir" := by
    intro f w h
    have : ' ' ∈ f ++ w := List.mem_append_left _ h
    refine ⟨?_, ?_, ?_, ?_⟩ <;> (intro e; rw [e] at this; revert this; decide)
  have hb : ' ' ∈ f := by rcases hf with rfl | rfl | rfl <;> decide
  obtain ⟨h1, h2, h3, h4⟩ := hd f w hb
  unfold hardEnv commandEnv
  rw [if_neg h1, if_neg h1, if_neg h2, if_neg h3, if_neg h4]
  have hauto : f ++ w ≠ c!"@" ∧ f ++ w ≠ c!"@F" ∧ f ++ w ≠ c!"<" ∧ f ++ w ≠ c!"^" := by
    have : ' ' ∈ f ++ w := List.mem_append_left _ hb
    refine ⟨?_, ?_, ?_, ?_⟩ <;> (intro e; rw [e] at this; revert this; decide)
  unfold recipeEnv
  rw [if_neg hauto.1, if_neg hauto.2.1, if_neg hauto.2.2.1, if_neg hauto.2.2.2, if_neg hauto.1, if_neg hauto.2.1,
    if_neg hauto.2.2.1, if_neg hauto.2.2.2]
  have : ∃ x, functionValue v1 (f ++ w) = some x := by
    rcases hf with rfl | rfl | rfl <;> simp [functionValue, startsWith]
  obtain ⟨x, hx⟩ := this
  rw [hx]
  rfl

/-- What the target has of its own. -/
structure OwnValues (m : MkSelf) (v0 : MakeVars) (ls : List (Str × Str × Str)) (y : Str) : Prop where
  obj : localValue ls y c!"obj" = some (valueOf v0 c!"abs_obj")
  builddir : localValue ls y c!"builddir" = some (valueOf v0 c!"abs_builddir")
  toolset : localValue ls y c!"TOOLSET" = some m.spec.toolset

theorem env_var (p : MkParts m t) {y : Str} (hy : OwnValues m v0 (localValues v0 p.lines) y) (prereqs : List Str) {n : Str}
    (h1 : ' ' ∉ n) (h2 : n ∉ flagVars) (h3 : n ∉ [c!"@", c!"@F", c!"<", c!"^"]) :
    hardEnv m.spec.targetName (recipeEnv v1 (localValues v0 p.lines) y prereqs) n = commandEnv m v0 v1 prereqs n := by
  unfold hardEnv commandEnv
  by_cases e1 : n = c!"TARGET"
  · rw [if_pos e1, if_pos e1]
  rw [if_neg e1, if_neg e1]
  by_cases e2 : n = c!"TOOLSET"
  · rw [if_pos e2, e2]; exact local_value (by decide) hy.toolset
  rw [if_neg e2]
  by_cases e3 : n = c!"obj"
  · rw [if_pos e3, e3]; exact local_value (by decide) hy.obj
  rw [if_neg e3]
  by_cases e4 : n = c!"builddir"
  · rw [if_pos e4, e4]; exact local_value (by decide) hy.builddir
  rw [if_neg e4]
  have hn : n ∉ localNames := by
    simp only [flagVars, localNames, List.mem_cons, List.not_mem_nil, or_false, not_or] at h2 ⊢
    tauto
  rw [global_value p hn h3 (function_none v1 h1)]
  simp only [List.mem_cons, List.not_mem_nil, or_false, not_or] at h3
  unfold recipeEnv
  rw [if_neg h3.1, if_neg h3.2.1, if_neg h3.2.2.1, if_neg h3.2.2.2, function_none v1 h1]
  rfl

/-- An argument has the same value with the values of the makefile. -/
theorem arg_hard (p : MkParts m t) {y : Str} (hy : OwnValues m v0 (localValues v0 p.lines) y) (prereqs : List Str) {s x : Str}
    (a : ArgText (commandEnv m v0 v1 prereqs) s x) :
    ArgText (hardEnv m.spec.targetName (recipeEnv v1 (localValues v0 p.lines) y prereqs)) s x := by
  induction a with
  | nil => exact .nil
  | char hc _ ih => exact .char hc ih
  | @ref n s x hn _ ih =>
    have hb : ' ' ∉ n := fun h => hn.1 _ h (by simp)
    have e := env_var (v1 := v1) p hy prereqs hb hn.2.1 hn.2.2.1
    rw [← e]
    refine .ref ⟨hn.1, hn.2.1, hn.2.2.1, ?_⟩ ih
    rw [e]; exact hn.2.2.2
  | @source f s x hf hv _ ih =>
    have e0 : hardEnv m.spec.targetName (recipeEnv v1 (localValues v0 p.lines) y prereqs) c!"<" =
      commandEnv m v0 v1 prereqs c!"<" := rfl
    have e := env_function (v0 := v0) (v1 := v1) p y prereqs hf (commandEnv m v0 v1 prereqs c!"<")
    rw [← e, ← e0]
    refine .source hf ?_ ih
    rw [e0, e]; exact hv

theorem Tok.deep_hard {target : Str} {E : Str → Str} (ht : '$' ∉ target) {s h x : Str}
    (a : Tok target (hardEnv target E) s h x) : Spec.deep E h = some x := by
  induction a with
  | nil => rfl
  | char hc _ ih => exact deep_cons hc ih
  | target _ ih => exact deep_append (deep_plain _ ht) ih
  | @ref n s h x hn hne _ ih =>
    have e : hardEnv target E n = E n := by unfold hardEnv; rw [if_neg hne]
    rw [e]
    exact deep_append (deep_ref E hn) ih
  | @func f s h x hf _ ih =>
    have e0 : hardEnv target E c!"<" = E c!"<" := rfl
    have e1 : hardEnv target E (f ++ E c!"<") = E (f ++ E c!"<") := by
      unfold hardEnv
      rw [if_neg]
      intro e
      have : ' ' ∈ f ++ E c!"<" := by
        refine List.mem_append_left _ ?_
        simp only [ruleFunctions, List.mem_cons, List.not_mem_nil, or_false] at hf
        rcases hf with rfl | rfl | rfl <;> decide
      rw [e] at this
      revert this; decide
    rw [e0, e1]
    have := deep_append (deep_function E (pre := f) (c := '<') (ruleFunctions_name hf) (by decide)) ih
    simpa using this

/-! ### The pieces of a command -/

theorem dirs_tok {target : Str} {env : Str → Str} (hT : LineText target) (henv : env c!"TARGET" = target) {l xs : List Str}
    (h : List.Forall₂ (ArgText env) l xs) :
    ∃ h, Tok target env (joinWith [' '] l) h (joinWith [' '] xs) ∧ LineText h := by
  induction h with
  | nil => exact ⟨[], .nil, by simp [LineText]⟩
  | @cons s x l xs h1 h2 ih =>
    obtain ⟨ha, t1, l1⟩ := arg_tok hT henv h1
    cases h2 with
    | nil => exact ⟨ha, t1, l1⟩
    | @cons s' x' l xs g1 g2 =>
      obtain ⟨hb, t2, l2⟩ := ih
      refine ⟨ha ++ ' ' :: hb, ?_, l1.append (.cons (by decide) l2)⟩
      have := t1.append (Tok.char (c := ' ') (by decide) t2)
      simpa [joinWith] using this

theorem argText_fun {target : Str} {env : Str → Str} (hT : LineText target) (hd : '$' ∉ target)
    (henv : env c!"TARGET" = target) {s x y : Str} (a : ArgText env s x) (b : ArgText env s y) : x = y := by
  obtain ⟨h1, t1, -⟩ := arg_tok hT henv a
  obtain ⟨h2, t2, -⟩ := arg_tok hT henv b
  have e := t1.hard.symm.trans t2.hard
  have d1 := t1.deep hd
  rw [e, t2.deep hd] at d1
  exact (Option.some.inj d1).symm

theorem plain_words {xs : List Str} (h : ∀ x ∈ xs, PlainWord x) : shellWords (joinWith [' '] xs) = some xs := by
  have := words_join (f := id) (l := xs) (g := fun x => [x]) fun s hs => words_plain (h s hs)
  simpa using this

theorem choose_forall₂ {α β : Type} {R : α → β → Prop} {l : List α} (h : ∀ a ∈ l, ∃ b, R a b) :
    ∃ bs, List.Forall₂ R l bs := by
  induction l with
  | nil => exact ⟨[], .nil⟩
  | cons a l ih =>
    obtain ⟨b, hb⟩ := h a (by simp)
    obtain ⟨bs, hbs⟩ := ih fun a ha => h a (by simp [ha])
    exact ⟨b :: bs, .cons hb hbs⟩

theorem mem_outputDirs {outputs : List Str} {d : Str} :
    d ∈ outputDirs outputs ↔ ∃ o ∈ outputs, dirname o ≠ [] ∧ d = dirname o := by
  unfold outputDirs
  have hm : ∀ l : List Str, d ∈ Unify l ↔ d ∈ l := by
    intro l
    rw [Unify_eq]
    constructor
    · exact fun h => (firsts_sublist id l).subset h
    · intro h
      obtain ⟨y, hy, rfl⟩ := mem_firsts id l d h
      exact hy
  rw [hm]
  simp only [List.mem_filter, List.mem_map, decide_eq_true_eq]
  constructor
  · rintro ⟨⟨o, ho, rfl⟩, h⟩; exact ⟨o, ho, h, rfl⟩
  · rintro ⟨o, ho, h, rfl⟩; exact ⟨⟨o, ho, rfl⟩, h⟩

theorem tok_cd {E : Str → Str} (ok : TargetOk m t) (he : E c!"srcdir" = valueOf v1 c!"srcdir")
    (hp : PlainWord (commandDir m v1)) :
    ∃ h y, Tok m.spec.targetName (hardEnv m.spec.targetName E)
      (c!"cd " ++ Sourceify m (if m.path = [] then c!"." else m.path) ++ c!"; ") (h ++ c!"; ") (y ++ c!"; ") ∧ LineText h ∧
      shellWords y = some [c!"cd", commandDir m v1] := by
  have hdir : (if m.path = [] then c!"." else m.path) = (if m.path = [] then c!"." else m.path) := rfl
  generalize hg : (if m.path = [] then c!"." else m.path) = dir at hdir
  have h1 : MkClean dir ∧ '$' ∉ dir ∧ isAbs dir = false := by
    rw [← hg]
    split
    · exact ⟨by unfold MkClean; decide, by decide, by decide⟩
    · exact ⟨ok.path.1, ok.path.2, ok.path_rel⟩
  have hs : Sourceify m dir = m.srcdirPrefix ++ dir := by
    unfold Sourceify
    rw [if_neg, if_neg (by simp [h1.2.2])]
    intro h
    obtain ⟨a, b, e⟩ := (hasSub_iff _ _).mp h
    exact h1.2.1 (by rw [e]; simp)
  have hl : LineText dir := ⟨fun h => h1.1 _ h (by decide), fun h => h1.1 _ h (by decide)⟩
  have hw : shellWords (c!"cd" ++ ' ' :: commandDir m v1) = some ([c!"cd"] ++ [commandDir m v1]) :=
    words_append (words_plain (by unfold PlainWord; decide)) (words_plain hp)
  rw [hs]
  rcases ok.srcdir with e | e
  · refine ⟨c!"cd " ++ dir, c!"cd " ++ dir, ?_, LineText.append (by simp [LineText]) hl, ?_⟩
    · rw [e]
      refine Tok.append ?_ (.plain (by decide))
      refine Tok.append (.plain (by decide)) (.plain (by simpa using h1.2.1))
    · have : commandDir m v1 = dir := by
        unfold commandDir
        rw [hg, if_pos e]
      rw [this] at hw ⊢
      exact hw
  · refine ⟨c!"cd " ++ (c!"$(srcdir)/" ++ dir), c!"cd " ++ (valueOf v1 c!"srcdir" ++ c!"/" ++ dir), ?_, ?_, ?_⟩
    · rw [e]
      refine Tok.append ?_ (.plain (by decide))
      refine Tok.append (.plain (by decide)) ?_
      have := Tok.ref (target := m.spec.targetName) (env := hardEnv m.spec.targetName E) (n := c!"srcdir")
        (by unfold NameText; decide) (by decide) (Tok.plain (s := c!"/" ++ dir) (by simpa using h1.2.1))
      have e2 : hardEnv m.spec.targetName E c!"srcdir" = valueOf v1 c!"srcdir" := by
        unfold hardEnv
        rw [if_neg (by decide), he]
      rw [e2] at this
      simpa using this
    · exact LineText.append (by simp [LineText]) (LineText.append (by simp [LineText]) hl)
    · have : commandDir m v1 = valueOf v1 c!"srcdir" ++ c!"/" ++ dir := by
        unfold commandDir
        rw [hg, if_neg (by rw [e]; decide)]
      rw [this] at hw ⊢
      exact hw

/-- The first part of a command. -/
def libraryText (var : Str) : Str :=
  var ++ c!"=$(builddir)/lib.host:$(builddir)/lib.target:$$" ++ var ++ c!"; export " ++ var ++ c!"; "

theorem library_deep {var : Str} (hv : '$' ∉ var) {E : Str → Str} {b : Str} (hb : E c!"builddir" = b) :
    deep E (libraryText var) = some (librarySetup var b) := by
  have hr : deep E c!"$(builddir)" = some b := by
    have := deep_ref E (n := c!"builddir") (by unfold NameText; decide)
    rw [hb] at this
    exact this
  have := deep_append (deep_plain E hv) (deep_append (deep_plain E (s := c!"=") (by decide)) (deep_append hr
    (deep_append (deep_plain E (s := c!"/lib.host:") (by decide)) (deep_append hr (deep_append
      (deep_plain E (s := c!"/lib.target:") (by decide)) (deep_append (deep_dollars E) (deep_append (deep_plain E hv)
        (deep_append (deep_plain E (s := c!"; export ") (by decide)) (deep_append (deep_plain E hv)
          (deep_plain E (s := c!"; ") (by decide)))))))))))
  simpa [libraryText, librarySetup] using this

theorem lastOk_append {a b : Str} (hb : b ≠ []) (h : LastOk b) : LastOk (a ++ b) := by
  intro c hc
  rw [List.getLast?_append, List.getLast?_eq_some_getLast hb, Option.some_or] at hc
  exact h c (by rw [List.getLast?_eq_some_getLast hb]; exact hc)

theorem lastOk_end {a b : Str} (hb : b = [] ∨ LastOk b) (h : LastOk a) : LastOk (a ++ b) := by
  rcases hb with rfl | hb
  · simpa using h
  · exact h.append hb

theorem forall₂_second {α β : Type} {R : α → β → Prop} {Q : β → Prop} {l : List α} {xs : List β}
    (h : List.Forall₂ (fun a b => R a b ∧ Q b) l xs) : ∀ x ∈ xs, Q x := by
  induction h with
  | nil => intro x hx; cases hx
  | cons h1 _ ih =>
    intro x hx
    rcases List.mem_cons.mp hx with rfl | hx
    · exact h1.2
    · exact ih x hx

theorem forall₂_nil {α β : Type} {R : α → β → Prop} {l : List α} {xs : List β} (h : List.Forall₂ R l xs) :
    l = [] ↔ xs = [] := by
  cases h <;> simp

/-- A command as a whole. -/
theorem command_whole (p : MkParts m t) (ok : TargetOk m t) {y : Str} (hy : OwnValues m v0 (localValues v0 p.lines) y)
    {prereqs : List Str} {outputs action args : List Str}
    (h : CommandOk m v1 (commandEnv m v0 v1 prereqs) outputs action args) {var : Str}
    (hvar : '$' ∉ var ∧ LineText var) :
    let text := libraryText var ++ cdAction m ++ hardTarget m (mkdirs (outputDirs outputs)) ++
      hardTarget m (EncodePOSIXShellList action)
    LineText text ∧ LastOk text ∧
      hardTarget m (mkdirs (outputDirs outputs) ++ EncodePOSIXShellList action) =
        hardTarget m (mkdirs (outputDirs outputs)) ++ hardTarget m (EncodePOSIXShellList action) ∧
      ∃ line, commandLine v1 (localValues v0 p.lines) y prereqs text = some line ∧
        ScriptFor line var (valueOf v0 c!"abs_builddir") (commandDir m v1) (commandEnv m v0 v1 prereqs) outputs args := by
  intro text
  have hT : LineText m.spec.targetName :=
    ⟨fun h => ok.name.2.1 _ h (by decide), fun h => ok.name.2.1 _ h (by decide)⟩
  have hd := ok.name.2.2
  have henv : hardEnv m.spec.targetName (recipeEnv v1 (localValues v0 p.lines) y prereqs) c!"TARGET" = m.spec.targetName :=
    if_pos rfl
  have hsrc : recipeEnv v1 (localValues v0 p.lines) y prereqs c!"srcdir" = valueOf v1 c!"srcdir" :=
    global_value p (by decide) (by decide) (function_none v1 (by decide))
  have hbd : recipeEnv v1 (localValues v0 p.lines) y prereqs c!"builddir" = valueOf v0 c!"abs_builddir" :=
    local_value (by decide) hy.builddir
  have hargs : List.Forall₂ (ArgText (hardEnv m.spec.targetName (recipeEnv v1 (localValues v0 p.lines) y prereqs))) action args :=
    h.args.imp fun _ _ a => arg_hard p hy prereqs a
  have hdirs : ∀ d ∈ outputDirs outputs, ∃ x, ArgText (commandEnv m v0 v1 prereqs) d x ∧ PlainWord x := by
    intro d hd
    obtain ⟨o, ho, hne, rfl⟩ := mem_outputDirs.mp hd
    exact h.dirs o ho hne
  obtain ⟨xs, hxs⟩ := choose_forall₂ hdirs
  have hmade : MadeDirs (commandEnv m v0 v1 prereqs) outputs xs := by
    intro d
    constructor
    · intro hdm
      have : ∀ {l xs : List Str}, List.Forall₂ (fun s x => ArgText (commandEnv m v0 v1 prereqs) s x ∧ PlainWord x) l xs →
          d ∈ xs → ∃ s ∈ l, ArgText (commandEnv m v0 v1 prereqs) s d := by
        intro l xs hf
        induction hf with
        | nil => intro h; cases h
        | cons h1 _ ih =>
          intro h
          rcases List.mem_cons.mp h with rfl | h
          · exact ⟨_, by simp, h1.1⟩
          · obtain ⟨s, hs, h'⟩ := ih h
            exact ⟨s, by simp [hs], h'⟩
      obtain ⟨s, hs, ha⟩ := this hxs hdm
      obtain ⟨o, ho, hne, rfl⟩ := mem_outputDirs.mp hs
      exact ⟨o, ho, hne, ha⟩
    · rintro ⟨o, ho, hne, ha⟩
      have hm : dirname o ∈ outputDirs outputs := mem_outputDirs.mpr ⟨o, ho, hne, rfl⟩
      have : ∀ {l xs : List Str}, List.Forall₂ (fun s x => ArgText (commandEnv m v0 v1 prereqs) s x ∧ PlainWord x) l xs →
          dirname o ∈ l → ∃ x ∈ xs, ArgText (commandEnv m v0 v1 prereqs) (dirname o) x := by
        intro l xs hf
        induction hf with
        | nil => intro h; cases h
        | cons h1 _ ih =>
          intro h
          rcases List.mem_cons.mp h with e | h
          · exact ⟨_, by simp, e ▸ h1.1⟩
          · obtain ⟨s, hs, h'⟩ := ih h
            exact ⟨s, by simp [hs], h'⟩
      obtain ⟨x, hx, ha'⟩ := this hxs hm
      rw [argText_fun hT hd henv (arg_hard p hy prereqs ha) (arg_hard p hy prereqs ha')]
      exact hx
  have hplain : ∀ x ∈ xs, PlainWord x := forall₂_second hxs
  obtain ⟨hj, tj, lj⟩ := dirs_tok hT henv (hxs.imp fun _ _ a => arg_hard p hy prereqs a.1)
  obtain ⟨hc, yc, tc, lc, wc⟩ := tok_cd (v1 := v1) ok hsrc h.dir
  obtain ⟨ha, ya, ta, la, oa, wa⟩ := args_encoded hT henv hargs
  have hlast : LastOk ha := oa fun s hs c hc => by
    intro e
    exact h.last s hs (e ▸ hc)
  -- the piece that makes directories
  obtain ⟨hm, ym, tm, lm, om, wm⟩ : ∃ hm ym, Tok m.spec.targetName
      (hardEnv m.spec.targetName (recipeEnv v1 (localValues v0 p.lines) y prereqs)) (mkdirs (outputDirs outputs)) hm ym ∧
      LineText hm ∧ LastOk hm ∧ shellCommands (ym ++ ya) =
        some ((if xs = [] then [] else [c!"mkdir" :: c!"-p" :: xs]) ++ [args]) := by
    unfold mkdirs
    have hiff := forall₂_nil hxs
    by_cases e : outputDirs outputs = []
    · rw [if_pos e, if_pos (hiff.mp e)]
      exact ⟨[], [], .nil, by simp [LineText], fun c hc => (by cases hc), script_one wa⟩
    · rw [if_neg e, if_neg fun h => e (hiff.mpr h)]
      refine ⟨c!"mkdir -p " ++ hj ++ c!"; ", c!"mkdir -p " ++ joinWith [' '] xs ++ c!"; ",
        ((Tok.plain (by decide)).append tj).append (.plain (by decide)),
        (LineText.append (by simp [LineText]) lj).append (by simp [LineText]),
        lastOk_append (by simp) (by intro c hc; simp at hc; rw [← hc]; decide), ?_⟩
      refine script_cons (a := c!"mkdir -p " ++ joinWith [' '] xs) ?_ (script_one wa)
      have := words_append (words_append (words_plain (w := c!"mkdir") (by unfold PlainWord; decide))
        (words_plain (w := c!"-p") (by unfold PlainWord; decide))) (plain_words hplain)
      simpa using this
  have e1 : cdAction m = hc ++ c!"; " := tc.hard
  have e2 : hardTarget m (mkdirs (outputDirs outputs)) = hm := tm.hard
  have e3 : hardTarget m (EncodePOSIXShellList action) = ha := ta.hard
  have e4 : hardTarget m (mkdirs (outputDirs outputs) ++ EncodePOSIXShellList action) = hm ++ ha := (tm.append ta).hard
  have hlib : LineText (libraryText var) := by
    unfold libraryText
    exact (((hvar.2.append (by simp [LineText])).append hvar.2).append (by simp [LineText])).append hvar.2 |>.append
      (by simp [LineText])
  have htext : text = libraryText var ++ (hc ++ c!"; ") ++ hm ++ ha := by
    show libraryText var ++ cdAction m ++ hardTarget m (mkdirs (outputDirs outputs)) ++
      hardTarget m (EncodePOSIXShellList action) = _
    rw [e1, e2, e3]
  refine ⟨?_, ?_, by rw [e2, e3, e4], ?_⟩
  · rw [htext]
    exact ((hlib.append (lc.append (by simp [LineText]))).append lm).append la
  · rw [htext]
    refine LastOk.append (LastOk.append ?_ om) hlast
    rw [← List.append_assoc]
    exact lastOk_append (by simp) (by intro c hc; simp at hc; rw [← hc]; decide)
  · refine ⟨librarySetup var (valueOf v0 c!"abs_builddir") ++ (yc ++ c!"; ") ++ ym ++ ya, ?_, ?_⟩
    · rw [htext]
      exact deep_append (deep_append (deep_append (library_deep hvar.1 hbd) (tc.deep_hard hd)) (tm.deep_hard hd))
        (ta.deep_hard hd)
    · refine ⟨(yc ++ c!"; ") ++ (ym ++ ya), xs, by simp, hmade, ?_⟩
      rw [script_cons wc wm]
      simp

end Gyp
