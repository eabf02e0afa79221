import Verif.Proofs.MakeObjects
/-
When the makefile of a target can be written, and a target for which it can.
-/
namespace Gyp
open Spec

variable {m : MkSelf} {t : MkOutputs}

theorem makeRule_isSome {a : RuleArgs}
    (h : (∃ o, a.outputs = [o]) ∨ (a.actions ≠ none ∧ a.outputs ≠ []) ∨
      (a.orderOnly = true ∧ a.actions = none)) : (makeRule a).isSome := by
  unfold makeRule WriteMakeRule
  dsimp only
  have hcore : (hasActions a.actions && (a.outputs.map fun o => QuoteSpaces o).isEmpty) = false ∧
      (ruleCore a (a.outputs.map fun o => QuoteSpaces o)
        (a.inputs.map fun o => QuoteSpaces o)).isSome := by
    rcases h with ⟨o, ho⟩ | ⟨h1, h2⟩ | ⟨h1, h2⟩
    · rw [ho]
      refine ⟨by simp, ?_⟩
      unfold ruleCore
      dsimp only
      split <;> rfl
    · refine ⟨by simp [h2], ?_⟩
      unfold ruleCore
      dsimp only
      split
      · rfl
      · split
        · rfl
        · cases e : a.actions with
          | none => exact absurd e h1
          | some x => rfl
    · rw [h2]
      refine ⟨rfl, ?_⟩
      unfold ruleCore
      dsimp only
      rw [if_pos h1]
      rfl
  rw [hcore.1]
  cases e : ruleCore a (a.outputs.map fun o => QuoteSpaces o) (a.inputs.map fun o => QuoteSpaces o) with
  | none => rw [e] at hcore; cases hcore.2
  | some x => rfl

theorem doCmd_isSome {outs ins : List Str} {cmd : Str} {c : Option Str} (h : outs ≠ []) :
    (WriteDoCmd m outs ins cmd c).isSome := by
  unfold WriteDoCmd
  obtain ⟨l, hl⟩ := Option.isSome_iff_exists.mp (makeRule_isSome (a := doCmdRule m outs ins cmd c)
    (Or.inr (Or.inl ⟨by simp [doCmdRule], h⟩)))
  unfold doCmdRule at hl
  rw [hl]
  rfl

theorem eachDo_isSome {α : Type} {f : α → Option (List MkLine)} {l : List α}
    (h : ∀ x ∈ l, (f x).isSome) : (eachDo f l).isSome := by
  induction l with
  | nil => rfl
  | cons x l ih =>
    have h1 := h x (by simp)
    have h2 := ih fun y hy => h y (by simp [hy])
    obtain ⟨a, ha⟩ := Option.isSome_iff_exists.mp h1
    obtain ⟨b, hb⟩ := Option.isSome_iff_exists.mp h2
    unfold eachDo
    rw [ha, hb]
    rfl

theorem groups_isSome {l : List (Option (List MkLine))} (h : ∀ x ∈ l, x.isSome) :
    (groups l).isSome := by
  induction l with
  | nil => rfl
  | cons x l ih =>
    have h1 := h x (by simp)
    have h2 := ih fun y hy => h y (by simp [hy])
    obtain ⟨a, rfl⟩ := Option.isSome_iff_exists.mp h1
    obtain ⟨b, hb⟩ := Option.isSome_iff_exists.mp h2
    unfold groups
    rw [hb]
    rfl

theorem ite_isSome {α : Type} {c : Prop} [Decidable c] {a b : Option α} (ha : c → a.isSome)
    (hb : ¬ c → b.isSome) : (if c then a else b).isSome := by
  by_cases h : c
  · rw [if_pos h]; exact ha h
  · rw [if_neg h]; exact hb h

theorem ruleBlank_clean {n : Nat} {s : Str} (h : ' ' ∉ s) : ruleBlank n s = false := by
  induction n generalizing s with
  | zero => cases s <;> rfl
  | succ n ih =>
    cases s with
    | nil => rfl
    | cons c s =>
      unfold ruleBlank
      split
      · rename_i r hr
        unfold afterRuleVar at hr
        split at hr
        · rename_i rest e
          split at hr
          · rename_i r' hd
            refine absurd ?_ h
            rw [e]
            have : ' ' ∈ rest.dropWhile (· ≠ ' ') := by rw [hd]; simp
            simp [List.dropWhile_sublist (fun c => decide (c ≠ ' ')) |>.subset this]
          · cases hr
        · cases hr
      · simp only [Bool.or_eq_false_iff, decide_eq_false_iff_not]
        exact ⟨fun e => h (by simp [e]), ih fun e => h (by simp [e])⟩

theorem depOutputs_isSome {ds : List Str} (h : ∀ d ∈ ds, aget t.outputs d ≠ none) :
    (depOutputs t ds).isSome := by
  induction ds with
  | nil => rfl
  | cons d ds ih =>
    have h1 := h d (by simp)
    obtain ⟨b, hb⟩ := Option.isSome_iff_exists.mp (ih fun y hy => h y (by simp [hy]))
    unfold depOutputs
    rw [hb]
    cases e : aget t.outputs d with
    | none => exact absurd e h1
    | some o => rfl

theorem writeAction_isSome (ok : TargetOk m t) {a : MkAction} (ha : a ∈ m.spec.actions)
    (hne : a.outputs ≠ []) : (writeAction m a).isSome := by
  have hf := ok.actions a ha
  unfold writeAction
  dsimp only
  cases e : a.outputs with
  | nil => exact absurd e hne
  | cons o os =>
    rw [← e]
    have hh : (a.outputs.map (Absolutify m)).head? = some (Absolutify m o) := by rw [e]; rfl
    rw [hh]
    dsimp only
    rw [if_neg]
    · obtain ⟨l, hl⟩ := Option.isSome_iff_exists.mp (doCmd_isSome (m := m)
        (outs := a.outputs.map (Absolutify m))
        (ins := a.inputs.map fun i => Sourceify m (Absolutify m i)) (cmd := commandName m a.name)
        (c := none) (by simpa using hne))
      rw [hl]
      rfl
    · rintro (h | h)
      · rw [List.any_eq_true] at h
        obtain ⟨i, hi, h⟩ := h
        exact (hf i (by simp [hi])).2.1.blank (by simpa using h)
      · rw [List.any_eq_true] at h
        obtain ⟨i, hi, h⟩ := h
        obtain ⟨x, hx, rfl⟩ := List.mem_map.mp hi
        exact (MkClean.absolutify ok.path.1 (hf x (by simp [hx])).2.1).blank (by simpa using h)

theorem writeRuleSource_isSome (ok : TargetOk m t) {r : MkRule} (hr : r ∈ m.spec.rules) {s : Str}
    (hs : s ∈ r.sources) (ho : ∃ o os, ruleOutputs r s = some (o :: os))
    (hact : expandAll s r.action ≠ none) (count : Nat) : (writeRuleSource m r count s).isSome := by
  obtain ⟨o, os, ho⟩ := ho
  have hf := (ok.rules r hr).2 s hs _ ho
  unfold writeRuleSource
  dsimp only
  rw [ho]
  cases e : expandAll s r.action with
  | none => exact absurd e hact
  | some act =>
    have hb : ((o :: os).map (Absolutify m)).any (fun o => ruleBlank (o.length + 1) o) = false := by
      rw [List.any_eq_false]
      intro i hi h
      obtain ⟨x, hx, rfl⟩ := List.mem_map.mp hi
      rw [ruleBlank_clean (MkClean.absolutify ok.path.1 (hf x hx).2.1).blank] at h
      cases h
    obtain ⟨l, hl⟩ := Option.isSome_iff_exists.mp (makeRule_isSome
      (a := sourceRule m r count s ((o :: os).map (Absolutify m)))
      (Or.inr (Or.inl ⟨by simp [sourceRule], by simp [sourceRule]⟩)))
    unfold sourceRule at hl
    dsimp only
    rw [hb]
    have hh : ((o :: os).map (Absolutify m)).head? = some (Absolutify m o) := rfl
    rw [hh]
    dsimp only
    rw [if_neg (by simp), hl]
    rfl

theorem writeRuleSources_isSome {r : MkRule} {ss : List Str} {count : Nat}
    (h : ∀ s ∈ ss, ∀ count, (writeRuleSource m r count s).isSome) :
    (writeRuleSources m r count ss).isSome := by
  induction ss generalizing count with
  | nil => rfl
  | cons s ss ih =>
    obtain ⟨a, ha⟩ := Option.isSome_iff_exists.mp (h s (by simp) count)
    obtain ⟨b, hb⟩ := Option.isSome_iff_exists.mp
      (ih (fun y hy => h y (by simp [hy])) (count := count + 1))
    unfold writeRuleSources
    rw [ha, hb]
    rfl

theorem phonyRule_isSome (o : Str) (ins : List Str) (c : Str) : (phonyRule m o ins c).isSome :=
  makeRule_isSome (Or.inl ⟨o, rfl⟩)

theorem orderRule_isSome (outs ins : List Str) (c : Str) : (orderRule outs ins c).isSome := by
  unfold orderRule
  split
  · rfl
  · exact makeRule_isSome (Or.inr (Or.inr ⟨rfl, rfl⟩))

theorem finalRule_isSome {deps linkDeps : List Str} (hl : ∀ x ∈ linkDeps, ' ' ∉ x) :
    (finalRule m deps linkDeps).isSome := by
  have hb : linkDeps.any (' ' ∈ ·) = false := by
    rw [List.any_eq_false]
    intro x hx
    simpa using hl x hx
  unfold finalRule
  dsimp only
  refine ite_isSome (fun _ => ?_) fun _ => ite_isSome (fun _ => ?_) fun _ =>
    ite_isSome (fun _ => ?_) fun _ => ite_isSome (fun _ => ?_) fun _ => ite_isSome (fun _ => ?_)
    fun _ => rfl
  · obtain ⟨l, hl⟩ := Option.isSome_iff_exists.mp (doCmd_isSome (m := m) (outs := [m.output])
      (ins := linkDeps) (c := none) (by simp)
      (cmd := if m.spec.toolset = c!"host" ∧ m.flavor = c!"android" then c!"link_host" else c!"link"))
    rw [hl]
    rfl
  · rw [hb]
    exact ite_isSome (fun h => by cases h) fun _ =>
      ite_isSome (fun _ => makeRule_isSome (Or.inl ⟨_, rfl⟩)) fun _ => doCmd_isSome (by simp)
  · obtain ⟨l, hl⟩ := Option.isSome_iff_exists.mp (doCmd_isSome (m := m) (outs := [m.output])
      (ins := linkDeps) (c := none) (by simp) (cmd := c!"solink"))
    rw [hl]
    rfl
  · rw [hb]
    exact ite_isSome (fun h => by cases h) fun _ => doCmd_isSome (by simp)
  · exact doCmd_isSome (by simp)

theorem aliasRules_isSome : (aliasRules m).isSome := by
  unfold aliasRules
  refine ite_isSome (fun _ => ?_) fun _ => rfl
  obtain ⟨a, ha⟩ := Option.isSome_iff_exists.mp
    (phonyRule_isSome (m := m) m.spec.targetName [m.output] c!"Add target alias")
  obtain ⟨b, hb⟩ := Option.isSome_iff_exists.mp
    (phonyRule_isSome (m := m) c!"all" [m.spec.targetName] c!"Add target alias to \"all\" target.")
  rw [ha, hb]
  rfl

theorem installRules_isSome : (installRules m).isSome := by
  unfold installRules
  refine ite_isSome (fun _ => ?_) fun _ => rfl
  dsimp only
  refine groups_isSome fun x hx => ?_
  simp only [List.mem_cons, List.not_mem_nil, or_false] at hx
  rcases hx with rfl | rfl | rfl | rfl | rfl
  · exact phonyRule_isSome _ _ _
  · exact ite_isSome (fun _ => doCmd_isSome (by simp)) fun _ => rfl
  · refine ite_isSome (fun _ => groups_isSome fun x hx => ?_) fun _ => rfl
    simp only [List.mem_cons, List.not_mem_nil, or_false] at hx
    rcases hx with rfl | rfl <;> exact doCmd_isSome (by simp)
  · exact ite_isSome (fun _ => phonyRule_isSome _ _ _) fun _ => rfl
  · exact ite_isSome (fun _ => phonyRule_isSome _ _ _) fun _ =>
      ite_isSome (fun _ => phonyRule_isSome _ _ _) fun _ => rfl

/-- C72: the makefile of a target is written, if its dependencies were written before, its actions
have outputs, and its rules have outputs and commands for all of their sources. -/
theorem C72_written (ok : TargetOk m t) (hdeps : ∀ d ∈ m.spec.dependencies, aget t.outputs d ≠ none)
    (hacts : ∀ a ∈ m.spec.actions, a.outputs ≠ [])
    (hrules : ∀ r ∈ m.spec.rules, ∀ s ∈ r.sources,
      (∃ o os, ruleOutputs r s = some (o :: os)) ∧ expandAll s r.action ≠ none) :
    ∃ lines t', writeMakefile m t = some (lines, t') := by
  have ok' : TargetOk (withOutput m) t :=
    ⟨ok.1, ok.2, ok.3, ok.4, ok.5, ok.6, ok.7, ok.8, ok.9, ok.10, ok.11, ok.12, ok.13, ok.14, ok.15,
      ok.16, ok.17⟩
  obtain ⟨⟨deps, link⟩, hd⟩ : ∃ x, ComputeDeps t m.spec = some x := by
    unfold ComputeDeps
    obtain ⟨l, hl⟩ := Option.isSome_iff_exists.mp (depOutputs_isSome hdeps)
    rw [hl]
    exact ⟨_, rfl⟩
  unfold writeMakefile
  dsimp only
  rw [show ComputeDeps t (withOutput m).spec = some (deps, link) from hd]
  dsimp only
  have hsome : ∀ g : List (Option (List MkLine)), (∀ x ∈ g, x.isSome) → ∃ l, groups g = some l :=
    fun g hg => Option.isSome_iff_exists.mp (groups_isSome hg)
  refine Exists.elim (hsome _ ?_) fun l hl => by rw [hl]; exact ⟨_, _, rfl⟩
  intro x hx
  simp only [List.mem_cons, List.not_mem_nil, or_false] at hx
  rcases hx with rfl | rfl | rfl | rfl | rfl | rfl
  · rfl
  · refine ite_isSome (fun _ => rfl) fun _ => ?_
    obtain ⟨l, hl⟩ := Option.isSome_iff_exists.mp (eachDo_isSome (f := writeAction (withOutput m))
      (l := m.spec.actions) fun a ha => writeAction_isSome ok' ha (hacts a ha))
    unfold WriteActions
    rw [show (withOutput m).spec = m.spec from rfl, hl]
    rfl
  · refine ite_isSome (fun _ => rfl) fun _ => ?_
    obtain ⟨l, hl⟩ := Option.isSome_iff_exists.mp (eachDo_isSome (f := writeRule (withOutput m))
      (l := m.spec.rules) fun r hr => by
        unfold writeRule
        obtain ⟨x, hx⟩ := Option.isSome_iff_exists.mp (writeRuleSources_isSome (m := withOutput m)
          (r := r) (ss := r.sources) (count := 0) fun s hs count =>
            writeRuleSource_isSome ok' hr hs (hrules r hr s hs).1 (hrules r hr s hs).2 count)
        rw [hx]
        rfl)
    unfold WriteRules
    rw [show (withOutput m).spec = m.spec from rfl, hl]
    rfl
  · refine ite_isSome (fun _ => rfl) fun _ => ?_
    obtain ⟨l, hl⟩ := Option.isSome_iff_exists.mp (eachDo_isSome
      (f := fun e => WriteDoCmd (withOutput m) [e.2] [e.1] c!"copy")
      (l := allCopies (withOutput m) m.spec.copies) fun e he => doCmd_isSome (by simp))
    unfold WriteCopies
    rw [show (withOutput m).spec = m.spec from rfl, hl]
    rfl
  · refine ite_isSome (fun _ => rfl) fun _ => groups_isSome fun x hx => ?_
    simp only [List.mem_cons, List.not_mem_nil, or_false] at hx
    rcases hx with rfl | rfl
    · unfold WriteSources
      dsimp only
      rw [if_neg]
      · obtain ⟨a, ha⟩ := Option.isSome_iff_exists.mp (orderRule_isSome [c!"$(OBJS)"] deps
          c!"Make sure our dependencies are built before any of us.")
        obtain ⟨b, hb⟩ := Option.isSome_iff_exists.mp (orderRule_isSome [c!"$(OBJS)"]
          (extraOutputs (withOutput m)) c!"Make sure our actions/rules run before any of us.")
        rw [ha, hb]
        rfl
      · intro h
        rw [List.any_eq_true] at h
        obtain ⟨x, hx, h⟩ := h
        obtain ⟨s, hs, rfl⟩ := List.mem_map.mp hx
        have := source_file ok' s (List.mem_filter.mp hs).1
        exact (objectOf_ref ok' this).2.1.blank (by simpa using h)
    · rfl
  · unfold WriteTarget
    refine groups_isSome fun x hx => ?_
    simp only [List.mem_cons, List.not_mem_nil, or_false] at hx
    rcases hx with rfl | rfl | rfl | rfl | rfl | rfl
    · rfl
    · refine ite_isSome (fun _ => rfl) fun _ => groups_isSome fun x hx => ?_
      simp only [List.mem_cons, List.not_mem_nil, or_false] at hx
      rcases hx with rfl | rfl <;> exact makeRule_isSome (Or.inr (Or.inr ⟨rfl, rfl⟩))
    · rfl
    · refine finalRule_isSome fun x hx => ?_
      rcases List.mem_append.mp hx with hx | hx
      · split at hx
        · cases hx
        · rcases List.mem_append.mp hx with hx | hx
          · split at hx
            · cases hx
            · rw [List.mem_singleton.mp hx]; decide
          · exact (source_file ok' x (List.mem_filter.mp hx).1).2.1.blank
      · obtain ⟨d, -, hd⟩ := (mem_deps hd).2.mp hx
        exact (ok.linkDeps _ (mem_of_aget hd)).2.1.blank
    · exact aliasRules_isSome
    · exact installRules_isSome

/-! ### A target -/

/-- A target with sources of several kinds, an action, a rule, a copy and a dependency. -/
def exampleTarget : MkSelf :=
  { flavor := c!"linux", srcdirPrefix := [], sha1 := fun _ => c!"d1", qualified := c!"lib/a.gyp:prog#target"
    path := c!"lib"
    spec :=
      { targetName := c!"prog", type := c!"executable", toolset := c!"target"
        dependencies := [c!"lib/a.gyp:util#target"]
        sources := [c!"main.cc", c!"../common/x.c", c!"$(obj)/gen/y.cc",
          c!"$(obj).$(TOOLSET)/$(TARGET)/geni/z.c", c!"extra.o", c!"readme.txt"]
        actions := [{ name := c!"make table", inputs := [c!"table.py", c!"in.txt"]
                      outputs := [c!"$(obj)/gen/y.cc", c!"$(obj)/gen/y.h"]
                      action := [c!"python", c!"table.py"] }]
        rules := [{ name := c!"proto", sources := [c!"a.proto", c!"b.proto"]
                    outputs := [c!"gen/%(INPUT_ROOT)s.cc"], action := [c!"protoc"], asSources := true }]
        copies := [{ destination := c!"$(builddir)/res", files := [c!"icon.png"] }] } }

/-- The products made before. -/
def exampleMade : MkOutputs :=
  { outputs := [(c!"lib/a.gyp:util#target", c!"$(obj).target/lib/libutil.a")]
    linkDeps := [(c!"lib/a.gyp:util#target", c!"$(obj).target/lib/libutil.a")] }

theorem fileText_plain {s : Str} (h1 : s ≠ []) (h2 : MkClean s) (h3 : '$' ∉ s) : FileText s :=
  ⟨h1, h2, .plain h3⟩

theorem example_obj : RefText localVars c!"$(obj)/gen/y.cc" ∧ RefText localVars c!"$(obj)/gen/y.h" :=
  ⟨.ref (n := c!"obj") (s := c!"/gen/y.cc") (by decide) (by decide) (.plain (by decide)),
    .ref (n := c!"obj") (s := c!"/gen/y.h") (by decide) (by decide) (.plain (by decide))⟩

theorem example_own : RefText localVars c!"$(obj).$(TOOLSET)/$(TARGET)/geni/z.c" :=
  .ref (n := c!"obj") (s := c!".$(TOOLSET)/$(TARGET)/geni/z.c") (by decide) (by decide)
    (.char (by decide) (.ref (n := c!"TOOLSET") (s := c!"/$(TARGET)/geni/z.c") (by decide) (by decide)
      (.char (by decide) (.ref (n := c!"TARGET") (s := c!"/geni/z.c") (by decide) (by decide)
        (.plain (by decide))))))

theorem example_dep : DepText c!"$(obj).target/lib/libutil.a" :=
  ⟨by decide, by unfold MkClean; decide,
    .ref (n := c!"obj") (s := c!".target/lib/libutil.a") (by decide) (by decide) (.plain (by decide))⟩

/-- The rule of the target. -/
def exampleRule : MkRule :=
  { name := c!"proto", sources := [c!"a.proto", c!"b.proto"]
    outputs := [c!"gen/%(INPUT_ROOT)s.cc"], action := [c!"protoc"], asSources := true }

theorem example_outputs : ∀ s ∈ [c!"a.proto", c!"b.proto"],
    ruleOutputs exampleRule s = some [c!"gen/" ++ s.take 1 ++ c!".cc"] := by
  intro s hs
  simp only [List.mem_cons, List.not_mem_nil, or_false] at hs
  rcases hs with rfl | rfl
  · simp [exampleRule, ruleOutputs, expandAll, ExpandInputRoot, ruleRoot, formatRoot, startsWith, hasSub,
      splitext, basename, rsplit1, dirname]
  · simp [exampleRule, ruleOutputs, expandAll, ExpandInputRoot, ruleRoot, formatRoot, startsWith, hasSub,
      splitext, basename, rsplit1, dirname]

theorem example_ok : TargetOk exampleTarget exampleMade where
  path_rel := rfl
  path := ⟨by unfold MkClean; decide, by decide⟩
  srcdir := Or.inl rfl
  toolset := ⟨by decide, by unfold MkClean; decide, by decide⟩
  name := ⟨by decide, by unfold MkClean; decide, by decide⟩
  digest := fun _ => (⟨by decide, by unfold MkClean; decide, by decide⟩ : MkWord c!"d1")
  sources := by
    intro s hs
    simp only [exampleTarget, List.mem_cons, List.not_mem_nil, or_false] at hs
    rcases hs with rfl | rfl | rfl | rfl | rfl | rfl
    · exact fileText_plain (by decide) (by unfold MkClean; decide) (by decide)
    · exact fileText_plain (by decide) (by unfold MkClean; decide) (by decide)
    · exact ⟨by decide, by unfold MkClean; decide, example_obj.1⟩
    · exact ⟨by decide, by unfold MkClean; decide, example_own⟩
    · exact fileText_plain (by decide) (by unfold MkClean; decide) (by decide)
    · exact fileText_plain (by decide) (by unfold MkClean; decide) (by decide)
  actions := by
    intro a ha f hf
    simp only [exampleTarget, List.mem_cons, List.not_mem_nil, or_false] at ha
    subst ha
    simp only [List.cons_append, List.nil_append, List.mem_cons, List.not_mem_nil, or_false] at hf
    rcases hf with rfl | rfl | rfl | rfl
    · exact fileText_plain (by decide) (by unfold MkClean; decide) (by decide)
    · exact fileText_plain (by decide) (by unfold MkClean; decide) (by decide)
    · exact ⟨by decide, by unfold MkClean; decide, example_obj.1⟩
    · exact ⟨by decide, by unfold MkClean; decide, example_obj.2⟩
  rules := by
    intro r hr
    obtain rfl : r = exampleRule := by simpa [exampleTarget, exampleRule] using hr
    constructor
    · intro f hf
      have : f ∈ [c!"a.proto", c!"b.proto"] := hf
      simp only [List.mem_cons, List.not_mem_nil, or_false] at this
      rcases this with rfl | rfl <;>
        exact fileText_plain (by decide) (by unfold MkClean; decide) (by decide)
    · intro s hs outs ho f hf
      rw [example_outputs s hs] at ho
      injection ho with ho
      subst ho
      rw [List.mem_singleton] at hf
      subst hf
      have : s ∈ [c!"a.proto", c!"b.proto"] := hs
      simp only [List.mem_cons, List.not_mem_nil, or_false] at this
      rcases this with rfl | rfl <;>
        exact fileText_plain (by decide) (by unfold MkClean; decide) (by decide)
  copies := by
    intro c hc f hf
    simp only [exampleTarget, List.mem_cons, List.not_mem_nil, or_false] at hc
    subst hc
    simp only [List.mem_cons, List.not_mem_nil, or_false] at hf
    rcases hf with rfl | rfl
    · exact ⟨by decide, by unfold MkClean; decide,
        .ref (n := c!"builddir") (s := c!"/res") (by decide) (by decide) (.plain (by decide))⟩
    · exact fileText_plain (by decide) (by unfold MkClean; decide) (by decide)
  product := by
    intro x hx
    obtain rfl : x = [] := by simpa [exampleTarget] using hx
    exact ⟨by unfold MkClean; decide, .nil⟩
  productDir := by simp [exampleTarget]
  outputs := by
    intro e he
    obtain rfl := List.mem_singleton.mp he
    exact Or.inr example_dep
  linkDeps := by
    intro e he
    obtain rfl := List.mem_singleton.mp he
    exact example_dep
  actionNames := List.nodup_singleton _
  ruleNames := List.nodup_singleton _
  configNames := by intro c hc; cases hc

/-- The same target with another type. -/
def exampleAs (type : Str) : MkSelf :=
  { exampleTarget with spec := { exampleTarget.spec with type } }

theorem exampleAs_ok (type : Str) : TargetOk (exampleAs type) exampleMade :=
  have ok := example_ok
  ⟨ok.1, ok.2, ok.3, ok.4, ok.5, ok.6, ok.7, ok.8, ok.9, ok.10, ok.11, ok.12, ok.13, ok.14, ok.15,
    ok.16, ok.17⟩

theorem exampleAs_written (type : Str) :
    ∃ lines t', writeMakefile (exampleAs type) exampleMade = some (lines, t') := by
  refine C72_written (exampleAs_ok type) ?_ ?_ ?_
  · intro d hd
    obtain rfl : d = c!"lib/a.gyp:util#target" := List.mem_singleton.mp hd
    decide
  · intro a ha
    simp only [exampleAs, exampleTarget, List.mem_cons, List.not_mem_nil, or_false] at ha
    subst ha
    simp
  · intro r hr s hs
    obtain rfl : r = exampleRule := by simpa [exampleAs, exampleTarget, exampleRule] using hr
    refine ⟨⟨_, _, example_outputs s hs⟩, ?_⟩
    simp [exampleRule, expandAll, ExpandInputRoot, hasSub, startsWith]

theorem example_written : ∃ lines t', writeMakefile exampleTarget exampleMade = some (lines, t') :=
  exampleAs_written c!"executable"

theorem example_copied : c!"$(builddir)/res/icon.png" ∈ specialFiles exampleTarget := by
  unfold specialFiles
  exact List.mem_append_right _ (by decide)

theorem fresh_nil : Fresh [] := fun _ _ => rfl

end Gyp
