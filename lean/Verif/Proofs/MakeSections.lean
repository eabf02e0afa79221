import Verif.Proofs.MakePaths
/-
The sections of the makefile of a target and the variables they set.
-/
namespace Gyp
open Spec

/-! ### More about texts -/

theorem _root_.Gyp.Spec.RefText.cut {R : List Str} {x : Char} (hx : x ≠ '$' ∧ x ≠ '(' ∧ x ≠ ')')
    (hR : ∀ n ∈ R, x ∉ n) {s : Str} (h : RefText R s) :
    ∀ a b, s = a ++ x :: b → RefText R a ∧ RefText R b := by
  induction h with
  | nil => intro a b h; simp at h
  | @char c s hc hs ih =>
    intro a b h
    cases a with
    | nil =>
      injection h with h1 h2
      subst h2
      exact ⟨.nil, hs⟩
    | cons y a =>
      rw [List.cons_append] at h
      injection h with h1 h2
      subst h1
      exact ⟨.char hc (ih a b h2).1, (ih a b h2).2⟩
  | @ref n s hn hp hs ih =>
    intro a b h
    rcases List.append_eq_append_iff.mp h with ⟨a', h1, h2⟩ | ⟨b', h1, h2⟩
    · subst h1
      obtain ⟨i1, i2⟩ := ih a' b h2
      exact ⟨.ref hn hp i1, i2⟩
    · cases b' with
      | nil =>
        rw [List.append_nil] at h1
        subst h1
        rw [List.nil_append] at h2
        obtain ⟨i1, i2⟩ := ih [] b h2.symm
        refine ⟨?_, i2⟩
        have := RefText.ref (s := []) hn hp .nil
        rwa [List.append_nil] at this
      | cons y b' =>
        rw [List.cons_append] at h2
        injection h2 with h2 h3
        subst h2
        have hm : x ∈ c!"$(" ++ n ++ c!")" := by rw [h1]; simp
        simp only [List.mem_append, List.mem_cons, List.not_mem_nil, or_false] at hm
        rcases hm with ((hm | hm) | hm) | hm
        · exact absurd hm hx.1
        · exact absurd hm hx.2.1
        · exact absurd hm (hR n hn)
        · exact absurd hm hx.2.2

theorem _root_.Gyp.Spec.RefText.replaceDir {R : List Str} {v : Str} (hR : ∀ n ∈ R, '$' ∉ n) (hv : RefText R v) :
    ∀ (k : Nat) {s : Str}, s.length ≤ k → RefText R s → RefText R (replaceStr c!"$(obj)/" v s) := by
  intro k
  induction k with
  | zero =>
    intro s hl hs
    have : s = [] := List.eq_nil_of_length_eq_zero (by omega)
    subst this
    rw [replaceStr]; exact .nil
  | succ k ih =>
    intro s hl hs
    cases hs with
    | nil => rw [replaceStr]; exact .nil
    | @char c s hc hs =>
      have := replaceStr_skip (P := c!"$(obj)/") (v := v) (w := [c]) rfl
        (by simpa using Ne.symm hc) s
      rw [List.singleton_append] at this
      rw [this]
      exact .char hc (ih (by simp at hl; omega) hs)
    | @ref n s hn hp hs =>
      by_cases hcase : ∃ s', c!"$(" ++ n ++ c!")" ++ s = c!"$(obj)/" ++ s'
      · obtain ⟨s', he⟩ := hcase
        rw [he, replaceStr_here (by simp)]
        refine hv.append (ih ?_ ?_)
        · have := congrArg List.length he
          simp at this hl
          omega
        · have h2 : RefText R (c!"$(obj)/" ++ s') := he ▸ RefText.ref hn hp hs
          -- the name is `obj` and what follows is `/`
          have hn' : n = c!"obj" := by
            have h3 : n ++ ')' :: s = c!"obj" ++ ')' :: ('/' :: s') := by
              simpa using he
            rcases List.append_eq_append_iff.mp h3 with ⟨a', h4, h5⟩ | ⟨a', h4, h5⟩
            · cases a' with
              | nil => simpa using h4.symm
              | cons y a' =>
                rw [List.cons_append] at h5
                injection h5 with h5 _
                exfalso
                have : y ∈ c!"obj" := by rw [h4]; simp
                rw [← h5] at this
                revert this; decide
            · cases a' with
              | nil => simpa using h4
              | cons y a' =>
                rw [List.cons_append] at h5
                injection h5 with h5 _
                exfalso
                exact hp (by rw [h4, h5]; simp)
          subst hn'
          have h5 : s = '/' :: s' := by simpa using he
          subst h5
          cases hs with
          | char _ hs => exact hs
      · have hw : replaceStr c!"$(obj)/" v (c!"$(" ++ n ++ c!")" ++ s) =
            c!"$(" ++ n ++ c!")" ++ replaceStr c!"$(obj)/" v s := by
          show replaceStr c!"$(obj)/" v ('$' :: ('(' :: n ++ c!")" ++ s)) = _
          rw [replaceStr, if_neg]
          · rw [replaceStr_skip (w := '(' :: n ++ c!")") rfl (by simpa using hR n hn)]
            rfl
          · rintro ⟨h1, -⟩
            rw [List.isPrefixOf_iff_prefix] at h1
            obtain ⟨s', hs'⟩ := h1
            exact hcase ⟨s', hs'.symm⟩
        rw [hw]
        exact .ref hn hp (ih (by simp at hl; omega) hs)

/-! ### The sections -/

/-- The parts of the makefile of a target. -/
structure MkParts (m : MkSelf) (t : MkOutputs) where
  deps : List Str
  linkDeps : List Str
  actions : List MkLine
  rules : List MkLine
  copies : List MkLine
  sources : List MkLine
  target : List MkLine
  hdeps : ComputeDeps t m.spec = some (deps, linkDeps)
  hactions : m.spec.actions = [] ∧ actions = [] ∨ WriteActions m m.spec.actions = some actions
  hrules : m.spec.rules = [] ∧ rules = [] ∨ WriteRules m m.spec.rules = some rules
  hcopies : m.spec.copies = [] ∧ copies = [] ∨ WriteCopies m m.spec.copies = some copies
  hsources : m.spec.sources ++ extraSources m.spec = [] ∧ sources = [] ∨
    WriteSources m deps (m.spec.sources ++ extraSources m.spec) (extraOutputs m) = some sources
  htarget : WriteTarget m deps (extraLinkDeps m (m.spec.sources ++ extraSources m.spec) ++ linkDeps)
    (extraOutputs m) = some target

/-- The statements of the parts. -/
def MkParts.lines {m : MkSelf} {t : MkOutputs} (p : MkParts m t) : List MkLine :=
  [.set c!"TOOLSET" m.spec.toolset, .set c!"TARGET" m.spec.targetName] ++ p.actions ++ p.rules ++
    p.copies ++ p.sources ++ targetSuffixRules m (m.spec.sources ++ extraSources m.spec) ++ p.target

theorem ifNil {α : Type} {c : Prop} [Decidable c] {f : Option (List α)} {l : List α}
    (h : (if c then some [] else f) = some l) : c ∧ l = [] ∨ f = some l := by
  by_cases hc : c
  · rw [if_pos hc] at h; injection h with h; exact Or.inl ⟨hc, h.symm⟩
  · rw [if_neg hc] at h; exact Or.inr h

theorem writeMakefile_parts {m0 : MkSelf} {t t' : MkOutputs} {lines : List MkLine}
    (h : writeMakefile m0 t = some (lines, t')) :
    ∃ p : MkParts (withOutput m0) t, lines = p.lines ∧
      t' = { outputs := aset t.outputs m0.qualified
              (if installed m0.spec then InstallPath (withOutput m0) else (withOutput m0).output)
             linkDeps := if m0.spec.type = c!"static_library" ∨ m0.spec.type = c!"shared_library" then
                aset t.linkDeps m0.qualified (withOutput m0).output
              else t.linkDeps } := by
  unfold writeMakefile at h
  dsimp only at h
  cases e : ComputeDeps t (withOutput m0).spec with
  | none => rw [e] at h; cases h
  | some d =>
    obtain ⟨deps, linkDeps⟩ := d
    rw [e] at h
    dsimp only at h
    split at h
    · cases h
    · rename_i lines' hg
      injection h with h
      injection h with h1 h2
      subst h1
      obtain ⟨p0, r0, e0, g0, h4⟩ := groups_cons hg
      obtain ⟨pa, ra, ea, ga, rfl⟩ := groups_cons g0
      obtain ⟨pr, rr, er, gr, rfl⟩ := groups_cons ga
      obtain ⟨pc, rc, ec, gc, rfl⟩ := groups_cons gr
      obtain ⟨ps, rs, es, gs, rfl⟩ := groups_cons gc
      obtain ⟨pt, rt, et, gt, rfl⟩ := groups_cons gs
      have := groups_nil gt
      subst this
      injection e0 with e0
      have hl : (if (withOutput m0).spec.sources ++ extraSources (withOutput m0).spec = [] then []
          else extraLinkDeps (withOutput m0)
            ((withOutput m0).spec.sources ++ extraSources (withOutput m0).spec)) =
          extraLinkDeps (withOutput m0)
            ((withOutput m0).spec.sources ++ extraSources (withOutput m0).spec) := by
        split
        · rename_i hn; rw [hn]; rfl
        · rfl
      rw [hl] at et
      rcases ifNil es with ⟨hn, rfl⟩ | hs
      · refine ⟨⟨deps, linkDeps, pa, pr, pc, [], pt, e, ifNil ea, ifNil er, ifNil ec,
          Or.inl ⟨hn, rfl⟩, et⟩, ?_, ?_⟩
        · rw [h4, ← e0]
          unfold MkParts.lines
          dsimp only
          rw [hn]
          simp [targetSuffixRules]
        · rw [← h2]; rfl
      · obtain ⟨q1, r1, f1, f2, rfl⟩ := groups_cons hs
        obtain ⟨q2, r2, f3, f4, rfl⟩ := groups_cons f2
        have := groups_nil f4
        subst this
        injection f3 with f3
        refine ⟨⟨deps, linkDeps, pa, pr, pc, q1, pt, e, ifNil ea, ifNil er, ifNil ec,
          Or.inr f1, et⟩, ?_, ?_⟩
        · rw [h4, ← e0, ← f3]
          simp [MkParts.lines]
        · rw [← h2]; rfl

/-! ### What the parts consist of -/

/-- The rule of `WriteDoCmd`. -/
def doCmdRule (m : MkSelf) (outputs inputs : List Str) (command : Str) (comment : Option Str) :
    RuleArgs :=
  { outputs, inputs, comment, force := true, digest := m.sha1 command
    actions := some [c!"$(call do_cmd," ++ command ++ c!")"] }

theorem WriteDoCmd_some {m : MkSelf} {outputs inputs : List Str} {command : Str}
    {comment : Option Str} {ls : List MkLine}
    (h : WriteDoCmd m outputs inputs command comment = some ls) :
    ls = [.rule (doCmdRule m outputs inputs command comment),
      .add c!"all_deps" (outputs.map (QuoteSpaces · c!"?"))] := by
  unfold WriteDoCmd at h
  split at h
  · cases h
  · rename_i l hl
    injection h with h
    rw [← h, makeRule_some hl]
    rfl

theorem writeAction_some {m : MkSelf} {a : MkAction} {ls : List MkLine}
    (h : writeAction m a = some ls) :
    ∃ first, (a.outputs.map (Absolutify m)).head? = some first ∧
      ls = [.text (c!"### Rules for action \"" ++ a.name ++ c!"\":"),
        .setLater (c!"quiet_cmd_" ++ commandName m a.name)
          (c!"ACTION " ++ a.message.getD (commandName m a.name) ++ c!" $@"),
        .setLater (c!"cmd_" ++ commandName m a.name) (actionCommand m a), .text [],
        .setFor (QuoteSpaces first) c!"obj" c!"$(abs_obj)",
        .setFor (QuoteSpaces first) c!"builddir" c!"$(abs_builddir)",
        .rule (doCmdRule m (a.outputs.map (Absolutify m))
          (a.inputs.map fun i => Sourceify m (Absolutify m i)) (commandName m a.name) none),
        .add c!"all_deps" ((a.outputs.map (Absolutify m)).map (QuoteSpaces · c!"?")),
        .set (actionOutputs m a) (joinWith [' '] (a.outputs.map (Absolutify m))), .text []] := by
  unfold writeAction at h
  dsimp only at h
  split at h
  · cases h
  · rename_i first hf
    split at h
    · cases h
    · split at h
      · cases h
      · rename_i l hl
        injection h with h
        refine ⟨first, hf, ?_⟩
        rw [← h, WriteDoCmd_some hl]
        rfl

theorem WriteActions_some {m : MkSelf} {as : List MkAction} {ls : List MkLine}
    (h : WriteActions m as = some ls) :
    ∃ parts : List (List MkLine), as.map (writeAction m) = parts.map some ∧
      ls = parts.flatten ++ [.text []] := by
  unfold WriteActions at h
  split at h
  · cases h
  · rename_i l hl
    injection h with h
    obtain ⟨parts, h1, rfl⟩ := eachDo_some hl
    exact ⟨parts, h1, h.symm⟩

/-- The rule of a rule for one source. -/
def sourceRule (m : MkSelf) (r : MkRule) (count : Nat) (source : Str) (outputs : List Str) :
    RuleArgs :=
  { outputs, inputs := (source :: r.inputs).map fun i => Sourceify m (Absolutify m i)
    digest := m.sha1 (commandName m r.name ++ c!"_" ++ natStr count)
    actions := some ([c!"$(call do_cmd," ++ (commandName m r.name ++ c!"_" ++ natStr count) ++ c!")"] ++
      if commandName m r.name = c!"resources_grit" then [c!"@touch --no-create $@"] else []) }

theorem writeRuleSource_some {m : MkSelf} {r : MkRule} {count : Nat} {source : Str}
    {ls : List MkLine} {o : List Str} (h : writeRuleSource m r count source = some (ls, o)) :
    ∃ outs action first, ruleOutputs r source = some outs ∧ expandAll source r.action = some action ∧
      o = outs.map (Absolutify m) ∧ o.head? = some first ∧
      ls = [.setFor first c!"obj" c!"$(abs_obj)", .setFor first c!"builddir" c!"$(abs_builddir)",
        .rule (sourceRule m r count source o), .add c!"all_deps" o,
        .setLater (c!"cmd_" ++ (commandName m r.name ++ c!"_" ++ natStr count))
          (ruleCommand m outs action),
        .setLater (c!"quiet_cmd_" ++ (commandName m r.name ++ c!"_" ++ natStr count))
          (c!"RULE " ++ (commandName m r.name ++ c!"_" ++ natStr count) ++ c!" $@"), .text []] := by
  unfold writeRuleSource at h
  dsimp only at h
  split at h
  · rename_i outs action e1 e2
    split at h
    · cases h
    · rename_i first hf
      split at h
      · cases h
      · split at h
        · cases h
        · rename_i rule hr
          injection h with h
          injection h with h1 h2
          refine ⟨outs, action, first, e1, e2, h2.symm, h2 ▸ hf, ?_⟩
          rw [← h1, makeRule_some hr, ← h2]
          rfl
  · cases h

/-- The names of variables that a part does not set. -/
def Sets (ls : List MkLine) (n : Str) : Prop := ∃ l ∈ ls, setsVar l = some n

theorem Sets.append {a b : List MkLine} {n : Str} : Sets (a ++ b) n ↔ Sets a n ∨ Sets b n := by
  unfold Sets
  constructor
  · rintro ⟨l, hl, h⟩
    rcases List.mem_append.mp hl with hl | hl
    · exact Or.inl ⟨l, hl, h⟩
    · exact Or.inr ⟨l, hl, h⟩
  · rintro (⟨l, hl, h⟩ | ⟨l, hl, h⟩)
    · exact ⟨l, List.mem_append_left _ hl, h⟩
    · exact ⟨l, List.mem_append_right _ hl, h⟩

theorem not_sets_aget {vars : MakeVars} {ls : List MkLine} {n : Str} (h : ¬ Sets ls n) :
    aget (varsAfter vars ls) n = aget vars n :=
  aget_varsAfter fun l hl e => h ⟨l, hl, e⟩

theorem writeAction_sets {m : MkSelf} {a : MkAction} {ls : List MkLine}
    (h : writeAction m a = some ls) {n : Str} (hn : Sets ls n) :
    n = c!"quiet_cmd_" ++ commandName m a.name ∨ n = c!"cmd_" ++ commandName m a.name ∨
      n = actionOutputs m a := by
  obtain ⟨first, -, rfl⟩ := writeAction_some h
  obtain ⟨l, hl, he⟩ := hn
  simp only [List.mem_cons, List.not_mem_nil, or_false] at hl
  rcases hl with rfl | rfl | rfl | rfl | rfl | rfl | rfl | rfl | rfl | rfl <;>
    simp only [setsVar, Option.some.injEq, reduceCtorEq] at he <;> subst he <;> simp

theorem WriteActions_sets {m : MkSelf} {as : List MkAction} {ls : List MkLine}
    (h : WriteActions m as = some ls) {n : Str} (hn : Sets ls n) :
    ∃ a ∈ as, n = c!"quiet_cmd_" ++ commandName m a.name ∨ n = c!"cmd_" ++ commandName m a.name ∨
      n = actionOutputs m a := by
  obtain ⟨parts, h1, rfl⟩ := WriteActions_some h
  rcases Sets.append.mp hn with hn | ⟨l, hl, he⟩
  · obtain ⟨l, hl, he⟩ := hn
    obtain ⟨part, hp, hl⟩ := List.mem_flatten.mp hl
    have : some part ∈ as.map (writeAction m) := by rw [h1]; exact List.mem_map_of_mem hp
    obtain ⟨a, ha, hw⟩ := List.mem_map.mp this
    exact ⟨a, ha, writeAction_sets hw ⟨l, hl, he⟩⟩
  · simp only [List.mem_cons, List.not_mem_nil, or_false] at hl
    subst hl
    cases he

theorem writeRuleSources_sets {m : MkSelf} {r : MkRule} {count : Nat} {ss : List Str}
    {ls : List MkLine} {o : List Str} (h : writeRuleSources m r count ss = some (ls, o)) {n : Str}
    (hn : Sets ls n) : ∃ x, n = c!"cmd_" ++ x ∨ n = c!"quiet_cmd_" ++ x := by
  induction ss generalizing count ls o with
  | nil =>
    injection h with h; injection h with h1 h2; subst h1
    obtain ⟨l, hl, -⟩ := hn; cases hl
  | cons s ss ih =>
    unfold writeRuleSources at h
    split at h
    · rename_i a o1 b p e1 e2
      injection h with h
      injection h with h1 h2
      subst h1
      rcases Sets.append.mp hn with ⟨l, hl, he⟩ | hn
      · obtain ⟨outs, action, first, -, -, -, -, rfl⟩ := writeRuleSource_some e1
        simp only [List.mem_cons, List.not_mem_nil, or_false] at hl
        rcases hl with rfl | rfl | rfl | rfl | rfl | rfl | rfl <;>
          simp only [setsVar, Option.some.injEq, reduceCtorEq] at he <;> subst he
        · exact ⟨_, Or.inl rfl⟩
        · exact ⟨_, Or.inr rfl⟩
      · exact ih e2 hn
    · cases h

theorem writeRule_some {m : MkSelf} {r : MkRule} {ls : List MkLine} (h : writeRule m r = some ls) :
    ∃ l outputs, writeRuleSources m r 0 r.sources = some (l, outputs) ∧
      ls = [.text (c!"### Generated for rule " ++ commandName m r.name ++ c!":")] ++ l ++
      [.list (ruleOutputsVar m r) (outputs.map QuoteIfNecessary),
       .text (c!"### Finished generating for rule: " ++ commandName m r.name), .text []] := by
  unfold writeRule at h
  split at h
  · cases h
  · rename_i l outputs e
    injection h with h
    exact ⟨l, outputs, e, h.symm⟩

theorem writeRule_sets {m : MkSelf} {r : MkRule} {ls : List MkLine} (h : writeRule m r = some ls)
    {n : Str} (hn : Sets ls n) :
    (∃ x, n = c!"cmd_" ++ x ∨ n = c!"quiet_cmd_" ++ x) ∨ n = ruleOutputsVar m r := by
  obtain ⟨l, outputs, e, rfl⟩ := writeRule_some h
  rcases Sets.append.mp hn with hn | ⟨l, hl, he⟩
  · rcases Sets.append.mp hn with ⟨l, hl, he⟩ | hn
    · simp only [List.mem_cons, List.not_mem_nil, or_false] at hl
      subst hl; cases he
    · exact Or.inl (writeRuleSources_sets e hn)
  · simp only [List.mem_cons, List.not_mem_nil, or_false] at hl
    rcases hl with rfl | rfl | rfl <;>
      simp only [setsVar, Option.some.injEq, reduceCtorEq] at he
    exact Or.inr he.symm

theorem WriteRules_some {m : MkSelf} {rs : List MkRule} {ls : List MkLine}
    (h : WriteRules m rs = some ls) :
    ∃ parts : List (List MkLine), rs.map (writeRule m) = parts.map some ∧
      ls = parts.flatten ++ [.text c!"### Finished generating for all rules", .text []] := by
  unfold WriteRules at h
  split at h
  · cases h
  · rename_i l hl
    injection h with h
    obtain ⟨parts, h1, rfl⟩ := eachDo_some hl
    exact ⟨parts, h1, h.symm⟩

theorem WriteRules_sets {m : MkSelf} {rs : List MkRule} {ls : List MkLine}
    (h : WriteRules m rs = some ls) {n : Str} (hn : Sets ls n) :
    (∃ x, n = c!"cmd_" ++ x ∨ n = c!"quiet_cmd_" ++ x) ∨ ∃ r ∈ rs, n = ruleOutputsVar m r := by
  obtain ⟨parts, h1, rfl⟩ := WriteRules_some h
  rcases Sets.append.mp hn with ⟨l, hl, he⟩ | ⟨l, hl, he⟩
  · obtain ⟨part, hp, hl⟩ := List.mem_flatten.mp hl
    have : some part ∈ rs.map (writeRule m) := by rw [h1]; exact List.mem_map_of_mem hp
    obtain ⟨r, hr, hw⟩ := List.mem_map.mp this
    rcases writeRule_sets hw ⟨l, hl, he⟩ with h | h
    · exact Or.inl h
    · exact Or.inr ⟨r, hr, h⟩
  · simp only [List.mem_cons, List.not_mem_nil, or_false] at hl
    rcases hl with rfl | rfl <;> cases he

theorem WriteCopies_some {m : MkSelf} {cs : List MkCopy} {ls : List MkLine}
    (h : WriteCopies m cs = some ls) :
    ls = [.text c!"### Generated for copy rule."] ++
      ((allCopies m cs).flatMap fun e => [.rule (doCmdRule m [e.2] [e.1] c!"copy" none),
        .add c!"all_deps" ([e.2].map (QuoteSpaces · c!"?"))]) ++
      [.setLater (copiesVar m)
        (joinWith [' '] ((allCopies m cs).map fun e => QuoteSpaces e.2)), .text []] := by
  unfold WriteCopies at h
  split at h
  · cases h
  · rename_i l hl
    injection h with h
    rw [← h]
    congr 2
    clear h
    generalize allCopies m cs = xs at hl
    induction xs generalizing l with
    | nil => injection hl with hl; exact hl.symm
    | cons x xs ih =>
      unfold eachDo at hl
      split at hl
      · rename_i a b e1 e2
        injection hl with hl
        rw [← hl, List.flatMap_cons, ih b e2, WriteDoCmd_some e1]
      · cases hl

theorem WriteCopies_sets {m : MkSelf} {cs : List MkCopy} {ls : List MkLine}
    (h : WriteCopies m cs = some ls) {n : Str} (hn : Sets ls n) : n = copiesVar m := by
  rw [WriteCopies_some h] at hn
  rcases Sets.append.mp hn with hn | ⟨l, hl, he⟩
  · rcases Sets.append.mp hn with ⟨l, hl, he⟩ | ⟨l, hl, he⟩
    · simp only [List.mem_cons, List.not_mem_nil, or_false] at hl
      subst hl; cases he
    · obtain ⟨e, -, hl⟩ := List.mem_flatMap.mp hl
      simp only [List.mem_cons, List.not_mem_nil, or_false] at hl
      rcases hl with rfl | rfl <;> cases he
  · simp only [List.mem_cons, List.not_mem_nil, or_false] at hl
    rcases hl with rfl | rfl
    · simpa [setsVar] using he.symm
    · cases he

/-- The variables of configurations. -/
def configNames (c : MkConfig) : List Str :=
  [c!"DEFS_" ++ c.name, c!"CFLAGS_" ++ c.name, c!"CFLAGS_C_" ++ c.name, c!"CFLAGS_CC_" ++ c.name,
   c!"INCS_" ++ c.name, c!"LDFLAGS_" ++ c.name]

theorem configVars_sets {m : MkSelf} {cs : List MkConfig} {n : Str}
    (hn : Sets (cs.flatMap (configVars m)) n) : ∃ c ∈ cs, n ∈ configNames c := by
  obtain ⟨l, hl, he⟩ := hn
  obtain ⟨c, hc, hl⟩ := List.mem_flatMap.mp hl
  refine ⟨c, hc, ?_⟩
  simp only [configVars, List.mem_cons, List.not_mem_nil, or_false] at hl
  rcases hl with rfl | rfl | rfl | rfl | rfl | rfl | rfl | rfl <;>
    simp only [setsVar, Option.some.injEq, reduceCtorEq] at he <;> subst he <;> simp [configNames]

theorem orderRule_some {outs ins : List Str} {comment : Str} {ls : List MkLine}
    (h : orderRule outs ins comment = some ls) :
    ins = [] ∧ ls = [] ∨
      ls = [.rule { outputs := outs, inputs := ins, comment := some comment, orderOnly := true }] := by
  unfold orderRule at h
  rcases ifNil h with h | h
  · exact Or.inl h
  · exact Or.inr (makeRule_some h)

theorem WriteSources_some {m : MkSelf} {deps srcs extra : List Str} {ls : List MkLine}
    (h : WriteSources m deps srcs extra = some ls) :
    ∃ r1 r2, orderRule [c!"$(OBJS)"] deps
          c!"Make sure our dependencies are built before any of us." = some r1 ∧
      orderRule [c!"$(OBJS)"] extra c!"Make sure our actions/rules run before any of us." = some r2 ∧
      (∀ o ∈ objectsOf m srcs, ' ' ∉ o) ∧
      ls = m.spec.configs.flatMap (configVars m) ++
        [.list c!"OBJS" ((objectsOf m srcs).map QuoteIfNecessary),
         .text c!"# Add to the list of files we specially track dependencies for.",
         .add c!"all_deps" [c!"$(OBJS)"], .text []] ++ r1 ++ r2 ++
        (if objectsOf m srcs = [] then [] else objectVars) ++ [.text []] := by
  unfold WriteSources at h
  dsimp only at h
  split at h
  · cases h
  · rename_i hb
    split at h
    · rename_i r1 r2 e1 e2
      injection h with h
      refine ⟨r1, r2, e1, e2, ?_, h.symm⟩
      intro o ho hm
      exact hb (List.any_eq_true.mpr ⟨o, ho, by simpa using hm⟩)
    · cases h

theorem sets_rule {a : RuleArgs} {n : Str} : ¬ Sets [.rule a] n := by
  rintro ⟨l, hl, he⟩
  simp only [List.mem_cons, List.not_mem_nil, or_false] at hl
  subst hl; cases he

theorem WriteSources_sets {m : MkSelf} {deps srcs extra : List Str} {ls : List MkLine}
    (h : WriteSources m deps srcs extra = some ls) {n : Str} (hn : Sets ls n) :
    n = c!"OBJS" ∨ ∃ c ∈ m.spec.configs, n ∈ configNames c := by
  obtain ⟨r1, r2, e1, e2, -, rfl⟩ := WriteSources_some h
  rcases Sets.append.mp hn with hn | ⟨l, hl, he⟩
  · rcases Sets.append.mp hn with hn | ⟨l, hl, he⟩
    · rcases Sets.append.mp hn with hn | hn
      · rcases Sets.append.mp hn with hn | hn
        · rcases Sets.append.mp hn with hn | ⟨l, hl, he⟩
          · exact Or.inr (configVars_sets hn)
          · simp only [List.mem_cons, List.not_mem_nil, or_false] at hl
            rcases hl with rfl | rfl | rfl | rfl <;>
              simp only [setsVar, Option.some.injEq, reduceCtorEq] at he
            exact Or.inl he.symm
        · rcases orderRule_some e1 with ⟨-, rfl⟩ | rfl
          · obtain ⟨l, hl, -⟩ := hn; cases hl
          · exact absurd hn sets_rule
      · rcases orderRule_some e2 with ⟨-, rfl⟩ | rfl
        · obtain ⟨l, hl, -⟩ := hn; cases hl
        · exact absurd hn sets_rule
    · split at hl
      · cases hl
      · simp only [objectVars, List.mem_cons, List.not_mem_nil, or_false] at hl
        rcases hl with rfl | rfl | rfl | rfl <;> cases he
  · simp only [List.mem_cons, List.not_mem_nil, or_false] at hl
    subst hl; cases he

theorem suffixRules_sets {m : MkSelf} {dir : Str} {exts : List Str} {n : Str} :
    ¬ Sets (suffixRules m dir exts) n := by
  rintro ⟨l, hl, he⟩
  obtain ⟨e, -, hl⟩ := List.mem_flatMap.mp hl
  split at hl
  · simp only [List.mem_cons, List.not_mem_nil, or_false] at hl
    rcases hl with rfl | rfl <;> cases he
  · cases hl

theorem targetSuffixRules_sets {m : MkSelf} {srcs : List Str} {n : Str} :
    ¬ Sets (targetSuffixRules m srcs) n := by
  unfold targetSuffixRules
  dsimp only
  split
  · rintro ⟨l, hl, -⟩; cases hl
  · have one : ∀ s, ¬ Sets [.text s] n := by
      rintro s ⟨l, hl, he⟩
      simp only [List.mem_cons, List.not_mem_nil, or_false] at hl
      subst hl; cases he
    simp only [Sets.append, suffixRules_sets, one, or_self, not_false_eq_true]

end Gyp
