import Verif.Props.MakeWritten
import Verif.Props.Shard
/-
C72: in the makefile of a target, what has to be made first is made first.
-/
namespace Gyp
open Spec

variable {m : MkSelf} {t t' : MkOutputs} {v0 : MakeVars} {lines : List MkLine}

theorem TargetOk.withOutput (ok : TargetOk m t) : TargetOk (withOutput m) t :=
  ⟨ok.1, ok.2, ok.3, ok.4, ok.5, ok.6, ok.7, ok.8, ok.9, ok.10, ok.11, ok.12, ok.13, ok.14, ok.15,
    ok.16, ok.17⟩

/-! ### Requirements on the rules -/

theorem oneLine_doCmd {c : Str} (h : '\n' ∉ c) : OneLine (c!"$(call do_cmd," ++ c ++ c!")") := by
  refine ⟨by simp [h], ?_⟩
  rw [List.getLast?_append]
  simp

theorem extra_name {e : Str} (h : e ∈ extraOutputs m) : RuleName e := by
  unfold extraOutputs at h
  rcases List.mem_append.mp h with h | h
  · rcases List.mem_append.mp h with h | h
    · obtain ⟨a, -, rfl⟩ := List.mem_map.mp h
      exact ref_ruleName (actionOutputs_var m a)
    · obtain ⟨r, -, rfl⟩ := List.mem_map.mp h
      exact ref_ruleName (ruleOutputs_var m r)
  · split at h
    · cases h
    · rw [List.mem_singleton] at h
      subst h
      exact ref_ruleName (copiesVar_var m)

theorem extra_words {v : MakeVars} (he : Extra m v) {f : Str} (hf : f ∈ specialFiles m) :
    ∃ e ∈ extraOutputs m, f ∈ wordsOf v e := by
  unfold specialFiles at hf
  unfold extraOutputs
  rcases List.mem_append.mp hf with hf | hf
  · rcases List.mem_append.mp hf with hf | hf
    · obtain ⟨a, ha, hf⟩ := List.mem_flatMap.mp hf
      refine ⟨_, List.mem_append_left _ (List.mem_append_left _ (List.mem_map_of_mem ha)), ?_⟩
      rw [words_var (actionOutputs_var m a), he.actions a ha]
      exact hf
    · obtain ⟨r, hr, hf⟩ := List.mem_flatMap.mp hf
      refine ⟨_, List.mem_append_left _ (List.mem_append_right _ (List.mem_map_of_mem hr)), ?_⟩
      rw [words_var (ruleOutputs_var m r), he.rules r hr, List.map_flatMap]
      exact hf
  · have hc : m.spec.copies ≠ [] := by
      intro e; rw [e] at hf; cases hf
    rw [if_neg hc]
    refine ⟨_, List.mem_append_right _ (List.mem_singleton.mpr rfl), ?_⟩
    rw [words_var (copiesVar_var m), he.copies hc]
    exact hf

theorem dep_name (ok : TargetOk m t) {deps link : List Str}
    (h : ComputeDeps t m.spec = some (deps, link)) : ∀ d ∈ deps, RuleName d := fun d hd =>
  have := dependency_text ok ((mem_deps h (x := d)).1.mp hd)
  this.2.1.ruleName this.1

theorem OBJS_var : VarName c!"OBJS" := by unfold VarName; decide

theorem objs_name : ∀ s ∈ [c!"$(OBJS)"], RuleName s := by
  intro s hs
  rw [List.mem_singleton] at hs
  subst hs
  exact ref_ruleName (n := c!"OBJS") OBJS_var

/-! ### Objects -/

/-- Rules of the section for the sources. -/
theorem objects_order (p : MkParts m t) (ok : TargetOk m t) (hf : Fresh v0)
    (hne : m.spec.sources ++ extraSources m.spec ≠ []) {obj y : Str}
    (ho : obj ∈ ((m.spec.sources ++ extraSources m.spec).filter (Compilable m.flavor)).map
      (objectFile m))
    (hy : DependencyFile t m.spec y ∨ y ∈ specialFiles m) :
    WaitsFor (rulesFrom v0 p.lines) obj y := by
  obtain ⟨pre, r1, r2, post, hsplit, e1, e2, hs, hv, -⟩ := sources_split p ok hf hne
  have h0 := parts_before p ok hf
  have hw : listValue (varsAfter (p.before v0) pre) c!"OBJS" = _ := hv
  rw [← hv] at ho
  have hlive : Live m.spec (varsAfter (p.before v0) pre) := h0.1.sets fun n hn hs =>
    parts_sources_local p n hn (by
      rw [hsplit]; simp only [List.append_assoc]; exact Sets.append.mpr (Or.inl hs))
  have hextra : Extra m (varsAfter (p.before v0) pre) := h0.2.stable fun n hn =>
    not_sets_aget fun hs => sources_extra ok p hn (by
      rw [hsplit]; simp only [List.append_assoc]; exact Sets.append.mpr (Or.inl hs))
  have hobj : obj ∈ wordsOf (varsAfter (p.before v0) pre) c!"$(OBJS)" := by
    have := words_var (v := varsAfter (p.before v0) pre) OBJS_var
    rw [show c!"$(OBJS)" = c!"$(" ++ c!"OBJS" ++ c!")" from rfl, this]
    exact ho
  rcases hy with hy | hy
  · have hyd := (mem_deps p.hdeps).1.mpr hy
    rcases orderRule_some e1 with ⟨h, -⟩ | rfl
    · rw [h] at hyd; cases hyd
    · have hat : RuleAt v0 p.lines _ (varsAfter (p.before v0) pre) := RuleAt.inSources p (by
        rw [hsplit, List.append_assoc, List.append_assoc]
        exact RuleAt.right (RuleAt.left (RuleAt.head _ _) _))
      refine hat.order ⟨objs_name, dep_name ok p.hdeps, by simp, by simp, ?_⟩ rfl
        (List.mem_singleton.mpr rfl) hyd hobj ?_
      · intro x hx
        injection hx with hx
        subst hx
        exact ⟨by decide, by decide⟩
      · rw [hlive.depWords (dependency_text ok hy)]
        simp
  · obtain ⟨e, he, hye⟩ := extra_words hextra hy
    rcases orderRule_some e2 with ⟨h, -⟩ | rfl
    · rw [h] at he; cases he
    · have hr1 : varsAfter (varsAfter (p.before v0) pre) r1 = varsAfter (p.before v0) pre := by
        rcases orderRule_some e1 with ⟨-, rfl⟩ | rfl <;> rfl
      have key := RuleAt.left (RuleAt.head (v0 := varsAfter (p.before v0) pre)
        { outputs := [c!"$(OBJS)"], inputs := extraOutputs m, orderOnly := true,
          comment := some c!"Make sure our actions/rules run before any of us." } []) post
      have hat := RuleAt.inSources p (RuleAt.right (RuleAt.right (x := r1) (by rw [hr1]; exact key))
        |> (by rw [hsplit, List.append_assoc, List.append_assoc]; exact ·))
      refine hat.order ⟨objs_name, fun s hs => extra_name hs, by simp, by simp, ?_⟩ rfl
        (List.mem_singleton.mpr rfl) he hobj hye
      intro x hx
      injection hx with hx
      subst hx
      exact ⟨by decide, by decide⟩

/-- C72: before any source of a target is compiled, the products of its dependencies, the
libraries among them and everything that its actions, rules and copies make are there. -/
theorem C72_objects_wait (h : writeMakefile m t = some (lines, t')) (ok : TargetOk m t)
    (hf : Fresh v0) (hne : allSources m.spec ≠ []) (obj : Str)
    (ho : obj ∈ listValue (varsAfter v0 lines) c!"OBJS") (y : Str)
    (hy : DependencyFile t m.spec y ∨ y ∈ specialFiles m) :
    WaitsFor (rulesFrom v0 lines) obj y := by
  obtain ⟨p, rfl, -⟩ := writeMakefile_parts h
  rw [allSources_eq] at hne
  have ok' := TargetOk.withOutput ok
  refine objects_order p ok' hf hne ?_ hy
  rw [(objs_value p ok' hf hne).1] at ho
  exact ho

example : ∃ lines t', writeMakefile exampleTarget exampleMade = some (lines, t') ∧
    ∀ obj ∈ listValue (varsAfter [] lines) c!"OBJS",
      WaitsFor (rulesFrom [] lines) obj c!"$(obj).target/lib/libutil.a" ∧
      WaitsFor (rulesFrom [] lines) obj c!"$(obj)/gen/y.h" ∧
      WaitsFor (rulesFrom [] lines) obj c!"$(builddir)/res/icon.png" := by
  obtain ⟨lines, t', h⟩ := example_written
  refine ⟨lines, t', h, fun obj ho => ?_⟩
  have hne : allSources exampleTarget.spec ≠ [] := by simp [allSources, exampleTarget]
  exact ⟨C72_objects_wait h example_ok fresh_nil hne obj ho _
      (Or.inl ⟨c!"lib/a.gyp:util#target", by decide, Or.inr rfl⟩),
    C72_objects_wait h example_ok fresh_nil hne obj ho _ (Or.inr (by decide)),
    C72_objects_wait h example_ok fresh_nil hne obj ho _ (Or.inr example_copied)⟩

/-! ### The section for the target -/

theorem ruleAt_mem (v0 : MakeVars) {ls : List MkLine} {a : RuleArgs} (h : .rule a ∈ ls) :
    ∃ v, RuleAt v0 ls a v := by
  obtain ⟨pre, post, rfl⟩ := List.append_of_mem h
  exact ⟨_, pre, post, rfl, rfl⟩


/-- The groups of statements for the target. -/
structure TargetParts (m : MkSelf) (deps linkDeps extra : List Str) (ls : List MkLine) where
  order : List MkLine
  rule : List MkLine
  short : List MkLine
  install : List MkLine
  horder : extra = [] ∧ order = [] ∨ extra ≠ [] ∧ order =
    [.rule { outputs := [m.output], inputs := extra, orderOnly := true,
             comment := some c!"Build our special outputs first." },
     .rule { outputs := extra, inputs := deps, orderOnly := true,
             comment := some c!"Preserve order dependency of special output on deps." }]
  hrule : finalRule m deps linkDeps = some rule
  hshort : aliasRules m = some short
  hinstall : installRules m = some install
  split : ls = (.text c!"### Rules for final target." :: order) ++ targetVars m deps ++ rule ++ short ++
    install

theorem target_parts {deps linkDeps extra : List Str} {ls : List MkLine}
    (h : WriteTarget m deps linkDeps extra = some ls) :
    Nonempty (TargetParts m deps linkDeps extra ls) := by
  unfold WriteTarget at h
  obtain ⟨a0, b0, e0, h0, rfl⟩ := groups_cons h
  obtain ⟨a1, b1, e1, h1, rfl⟩ := groups_cons h0
  obtain ⟨a2, b2, e2, h2, rfl⟩ := groups_cons h1
  obtain ⟨a3, b3, e3, h3, rfl⟩ := groups_cons h2
  obtain ⟨a4, b4, e4, h4, rfl⟩ := groups_cons h3
  obtain ⟨a5, b5, e5, h5, rfl⟩ := groups_cons h4
  have := groups_nil h5
  subst this
  injection e0 with e0
  injection e2 with e2
  subst e0
  subst e2
  refine ⟨⟨a1, a3, a4, a5, ?_, e3, e4, e5, by simp⟩⟩
  by_cases hx : extra = []
  · rw [if_pos hx] at e1
    injection e1 with e1
    exact Or.inl ⟨hx, e1.symm⟩
  · rw [if_neg hx] at e1
    obtain ⟨c0, d0, f0, g0, rfl⟩ := groups_cons e1
    obtain ⟨c1, d1, f1, g1, rfl⟩ := groups_cons g0
    have := groups_nil g1
    subst this
    rw [makeRule_some f0, makeRule_some f1]
    exact Or.inr ⟨hx, rfl⟩

/-- Everywhere in the section for the target. -/
structure AtTarget (m : MkSelf) (v late : MakeVars) : Prop where
  live : Live m.spec v
  extra : Extra m v
  objs : aget v c!"OBJS" = aget late c!"OBJS"

theorem atTarget (p : MkParts m t) (ok : TargetOk m t) (hf : Fresh v0) {a : RuleArgs} {v : MakeVars}
    (h : RuleAt (p.late v0) p.target a v) : AtTarget m v (p.late v0) := by
  obtain ⟨h1, h2⟩ := parts_late p ok hf
  refine ⟨h.live h1 (parts_target_local p), h2.stable fun n hn => h.stable (target_extra ok p hn), ?_⟩
  refine h.stable fun hs => ?_
  exact head_in (l := ['O']) ⟨'O', by simp, rfl⟩ (WriteTarget_head p.htarget hs) (by decide)

theorem output_name (ok : TargetOk m t) : RuleName (ComputeOutput m) :=
  have := output_ok ok
  this.2.1.ruleName this.2.2.1

theorem output_waits (p : MkParts m t) (ok : TargetOk m t) (hf : Fresh v0)
    (hout : m.output = ComputeOutput m) {f : Str} (hfile : f ∈ specialFiles m) :
    WaitsFor (rulesFrom v0 p.lines) (productFile m) f := by
  obtain ⟨q⟩ := target_parts p.htarget
  rcases q.horder with ⟨hx, -⟩ | ⟨-, ho⟩
  · obtain ⟨e, he, -⟩ := extra_words (parts_late p ok hf).2 hfile
    rw [hx] at he; cases he
  · obtain ⟨v, hat⟩ := ruleAt_mem (p.late v0) (ls := p.target)
      (a := { outputs := [m.output], inputs := extraOutputs m, orderOnly := true,
              comment := some c!"Build our special outputs first." })
      (by rw [q.split, ho]; simp)
    have hT := atTarget p ok hf hat
    obtain ⟨e, he, hw⟩ := extra_words hT.extra hfile
    refine (hat.inTarget p).order ⟨?_, fun s hs => extra_name hs, by simp, by simp, ?_⟩ rfl
      (List.mem_singleton.mpr rfl) he ?_ hw
    · intro s hs
      rw [List.mem_singleton] at hs
      subst hs
      rw [hout]; exact output_name ok
    · intro x hx
      injection hx with hx
      subst hx
      exact ⟨by decide, by decide⟩
    · rw [hout, hT.live.words ok (output_ok ok)]
      simp

theorem special_waits (p : MkParts m t) (ok : TargetOk m t) (hf : Fresh v0) {f y : Str}
    (hfile : f ∈ specialFiles m) (hy : DependencyFile t m.spec y) :
    WaitsFor (rulesFrom v0 p.lines) f y := by
  obtain ⟨q⟩ := target_parts p.htarget
  rcases q.horder with ⟨hx, -⟩ | ⟨hx, ho⟩
  · obtain ⟨e, he, -⟩ := extra_words (parts_late p ok hf).2 hfile
    rw [hx] at he; cases he
  · obtain ⟨v, hat⟩ := ruleAt_mem (p.late v0) (ls := p.target)
      (a := { outputs := extraOutputs m, inputs := p.deps, orderOnly := true,
              comment := some c!"Preserve order dependency of special output on deps." })
      (by rw [q.split, ho]; simp)
    have hT := atTarget p ok hf hat
    obtain ⟨e, he, hw⟩ := extra_words hT.extra hfile
    refine (hat.inTarget p).order ⟨fun s hs => extra_name hs, dep_name ok p.hdeps, hx, by simp, ?_⟩ rfl
      he ((mem_deps p.hdeps).1.mpr hy) hw ?_
    · intro x hx
      injection hx with hx
      subst hx
      exact ⟨by decide, by decide⟩
    · rw [hT.live.depWords (dependency_text ok hy)]
      simp

/-- C72: what the actions, rules and copies of a target make is made after the products of its
dependencies. -/
theorem C72_special_wait (h : writeMakefile m t = some (lines, t')) (ok : TargetOk m t)
    (hf : Fresh v0) (f : Str) (hfile : f ∈ specialFiles m) (y : Str)
    (hy : DependencyFile t m.spec y) : WaitsFor (rulesFrom v0 lines) f y := by
  obtain ⟨p, rfl, -⟩ := writeMakefile_parts h
  exact special_waits p (TargetOk.withOutput ok) hf hfile hy

example : ∃ lines t', writeMakefile exampleTarget exampleMade = some (lines, t') ∧
    WaitsFor (rulesFrom [] lines) c!"$(obj)/gen/y.h" c!"$(obj).target/lib/libutil.a" := by
  obtain ⟨lines, t', h⟩ := example_written
  exact ⟨lines, t', h, C72_special_wait h example_ok fresh_nil _ (by decide) _
    ⟨c!"lib/a.gyp:util#target", by decide, Or.inr rfl⟩⟩

/-- C72: the product of a target is made after what its actions, rules and copies make. -/
theorem C72_output_waits (h : writeMakefile m t = some (lines, t')) (ok : TargetOk m t)
    (hf : Fresh v0) (f : Str) (hfile : f ∈ specialFiles m) :
    WaitsFor (rulesFrom v0 lines) (productFile m) f := by
  obtain ⟨p, rfl, -⟩ := writeMakefile_parts h
  exact output_waits p (TargetOk.withOutput ok) hf rfl hfile

example : ∃ lines t', writeMakefile exampleTarget exampleMade = some (lines, t') ∧
    WaitsFor (rulesFrom [] lines) c!"$(builddir)/prog" c!"$(builddir)/res/icon.png" := by
  obtain ⟨lines, t', h⟩ := example_written
  exact ⟨lines, t', h, C72_output_waits h example_ok fresh_nil _ example_copied⟩

/-! ### Actions, rules and copies -/

theorem doCmd_ok {outs ins : List Str} {cmd : Str} {c : Option Str}
    (ho : ∀ s ∈ outs, RuleName s) (hi : ∀ s ∈ ins, RuleName s) (hne : outs ≠ [])
    (hcmd : '\n' ∉ cmd) (hc : ∀ x, c = some x → OneLine x) : (doCmdRule m outs ins cmd c).Ok := by
  refine ⟨ho, hi, hne, ?_, hc⟩
  intro x hx
  simp only [doCmdRule, Option.getD_some, List.mem_singleton] at hx
  subst hx
  exact oneLine_doCmd hcmd

/-- One of the parts. -/
theorem part_at {α : Type} {f : α → Option (List MkLine)} {xs : List α} {parts : List (List MkLine)}
    (h : xs.map f = parts.map some) {x : α} (hx : x ∈ xs) :
    ∃ pre part post, parts.flatten = pre ++ part ++ post ∧ f x = some part := by
  induction xs generalizing parts with
  | nil => cases hx
  | cons y ys ih =>
    cases parts with
    | nil => simp at h
    | cons p ps =>
      simp only [List.map_cons, List.cons.injEq] at h
      rcases List.mem_cons.mp hx with rfl | hx
      · exact ⟨[], p, ps.flatten, rfl, h.1⟩
      · obtain ⟨pre, part, post, h1, h2⟩ := ih h.2 hx
        exact ⟨p ++ pre, part, post, by simp [h1], h2⟩

theorem action_at (p : MkParts m t) {a : MkAction} (ha : a ∈ m.spec.actions) :
    ∃ v, RuleAt (varsAfter v0 (headLines m.spec)) p.actions
      (doCmdRule m (a.outputs.map (Absolutify m))
          (a.inputs.map fun i => Sourceify m (Absolutify m i)) (commandName m a.name) none) v ∧
      a.outputs ≠ [] := by
  rcases p.hactions with ⟨h, -⟩ | h
  · rw [h] at ha; cases ha
  · obtain ⟨parts, hp, hl⟩ := WriteActions_some h
    obtain ⟨pre, part, post, h1, h2⟩ := part_at hp ha
    obtain ⟨first, hfirst, hpart⟩ := writeAction_some h2
    obtain ⟨v, hv⟩ := ruleAt_mem (varsAfter v0 (headLines m.spec)) (ls := p.actions)
      (a := doCmdRule m (a.outputs.map (Absolutify m))
          (a.inputs.map fun i => Sourceify m (Absolutify m i)) (commandName m a.name) none)
      (by rw [hl, h1, hpart]; simp)
    refine ⟨v, hv, ?_⟩
    intro e
    rw [e] at hfirst
    cases hfirst

theorem inActions (p : MkParts m t) {a : RuleArgs} {v : MakeVars}
    (h : RuleAt (varsAfter v0 (headLines m.spec)) p.actions a v) : RuleAt v0 p.lines a v := by
  rw [parts_lines]
  exact RuleAt.left (RuleAt.left (RuleAt.left (RuleAt.left (RuleAt.right h) _) _) _) _

theorem abs_words (ok : TargetOk m t) {v : MakeVars} (hv : Live m.spec v) {f : Str}
    (hf : FileText f) : fileName m f ∈ wordsOf v (Absolutify m f) := by
  rw [hv.words ok (absolutify_file ok hf)]; simp

theorem src_words (ok : TargetOk m t) {v : MakeVars} (hv : Live m.spec v) {f : Str}
    (hf : FileText f) : inputName m f ∈ wordsOf v (Sourceify m (Absolutify m f)) := by
  rw [hv.words ok (sourceify_file ok hf)]; simp

theorem abs_name (ok : TargetOk m t) {f : Str} (hf : FileText f) : RuleName (Absolutify m f) :=
  have := absolutify_file ok hf
  this.2.1.ruleName this.2.2.1

theorem src_name (ok : TargetOk m t) {f : Str} (hf : FileText f) :
    RuleName (Sourceify m (Absolutify m f)) :=
  have := sourceify_file ok hf
  this.2.1.ruleName this.2.2.1

theorem abs_names (ok : TargetOk m t) {l : List Str} (h : ∀ f ∈ l, FileText f) :
    ∀ s ∈ l.map (Absolutify m), RuleName s := by
  intro s hs
  obtain ⟨f, hf, rfl⟩ := List.mem_map.mp hs
  exact abs_name ok (h f hf)

theorem src_names (ok : TargetOk m t) {l : List Str} (h : ∀ f ∈ l, FileText f) :
    ∀ s ∈ l.map fun i => Sourceify m (Absolutify m i), RuleName s := by
  intro s hs
  obtain ⟨f, hf, rfl⟩ := List.mem_map.mp hs
  exact src_name ok (h f hf)

theorem cmd_line (m : MkSelf) (n : Str) : '\n' ∉ commandName m n :=
  (commandName_var m n).not_mem (by decide)

theorem runs_of {rules : List MakeItem} {x cmd : Str} {acts : List Str}
    (hc : c!"$(call do_cmd," ++ cmd ++ c!")" ∈ acts)
    (h : HasRecipe rules x acts ∨
      ∃ y, MadeFrom rules x y ∧ HasRecipe rules y (c!"$(call do_cmd,touch)" :: acts)) :
    RunsFor rules x cmd := by
  rcases h with h | ⟨y, h1, h2⟩
  · exact ⟨x, _, Or.inl rfl, h, hc⟩
  · exact ⟨y, _, Or.inr h1, h2, List.mem_cons_of_mem _ hc⟩

/-- C72: an output of an action is made from the inputs of the action, with its command. -/
theorem C72_action (h : writeMakefile m t = some (lines, t')) (ok : TargetOk m t) (hf : Fresh v0)
    (a : MkAction) (ha : a ∈ m.spec.actions) (o : Str) (ho : o ∈ a.outputs) :
    (∀ i ∈ a.inputs, MadeWith (rulesFrom v0 lines) (fileName m o) (inputName m i)) ∧
      RunsFor (rulesFrom v0 lines) (fileName m o) (commandName m a.name) := by
  obtain ⟨p, rfl, -⟩ := writeMakefile_parts h
  have ok' := TargetOk.withOutput ok
  obtain ⟨v, hat, hne⟩ := action_at (v0 := v0) p ha
  have hfiles := ok.actions a ha
  have hlive := hat.live (live_head ok' hf) (parts_actions_local p)
  have hin : ∀ i ∈ a.inputs, FileText i := fun i hi => hfiles i (by simp [hi])
  have hou : ∀ i ∈ a.outputs, FileText i := fun i hi => hfiles i (by simp [hi])
  have hok := doCmd_ok (m := withOutput m) (c := none) (abs_names ok' hou) (src_names ok' hin)
    (by simpa using hne) (cmd_line (withOutput m) a.name) (by simp)
  constructor
  · intro i hi
    exact (inActions p hat).made hok rfl rfl (ok.digest _) (List.mem_map_of_mem ho)
      (List.mem_map_of_mem hi) (abs_words ok' hlive (hou o ho)) (src_words ok' hlive (hin i hi))
  · exact runs_of (List.mem_singleton.mpr rfl) ((inActions p hat).command hok rfl rfl (ok.digest _)
      (List.mem_map_of_mem ho) (abs_words ok' hlive (hou o ho)))

example : ∃ lines t', writeMakefile exampleTarget exampleMade = some (lines, t') ∧
    MadeWith (rulesFrom [] lines) c!"$(obj)/gen/y.h" c!"lib/table.py" ∧
    RunsFor (rulesFrom [] lines) c!"$(obj)/gen/y.h" c!"lib_a_gyp_prog_target_make_table" := by
  obtain ⟨lines, t', h⟩ := example_written
  have := C72_action h example_ok fresh_nil _ (List.mem_singleton.mpr rfl) c!"$(obj)/gen/y.h" (by decide)
  exact ⟨lines, t', h, this.1 c!"table.py" (by decide), this.2⟩

theorem sourceRule_at {r : MkRule} {count : Nat} {ss : List Str} {ls : List MkLine} {o : List Str}
    (h : writeRuleSources m r count ss = some (ls, o)) {k : Nat} {s : Str} (hk : ss[k]? = some s) :
    ∃ outs, ruleOutputs r s = some outs ∧ outs ≠ [] ∧
      .rule (sourceRule m r (count + k) s (outs.map (Absolutify m))) ∈ ls := by
  induction ss generalizing count ls o k with
  | nil => cases hk
  | cons x ss ih =>
    unfold writeRuleSources at h
    split at h
    · rename_i a o1 b q e1 e2
      injection h with h
      injection h with h1 h2
      subst h1
      cases k with
      | zero =>
        injection hk with hk
        subst hk
        obtain ⟨outs, action, first, f1, -, f2, f3, f4⟩ := writeRuleSource_some e1
        refine ⟨outs, f1, ?_, List.mem_append_left _ ?_⟩
        · rintro rfl
          rw [f2] at f3
          cases f3
        · rw [f4, ← f2]; simp
      | succ k =>
        rw [List.getElem?_cons_succ] at hk
        obtain ⟨outs, g1, g2, g3⟩ := ih e2 hk
        refine ⟨outs, g1, g2, List.mem_append_right _ ?_⟩
        rw [show count + (k + 1) = count + 1 + k by omega]
        exact g3
    · cases h

theorem inRules (p : MkParts m t) {a : RuleArgs} {v : MakeVars}
    (h : RuleAt (varsAfter v0 (headLines m.spec ++ p.actions)) p.rules a v) :
    RuleAt v0 p.lines a v := by
  rw [parts_lines]
  exact RuleAt.left (RuleAt.left (RuleAt.left (RuleAt.right h) _) _) _

theorem natStr_line (n : Nat) : '\n' ∉ natStr n := by
  intro h
  have := natStr_mem h
  revert this; decide

/-- C72: what a rule makes of its `k`-th source is made from that source and the inputs of the
rule, with the command for that source. -/
theorem C72_rule (h : writeMakefile m t = some (lines, t')) (ok : TargetOk m t) (hf : Fresh v0)
    (r : MkRule) (hr : r ∈ m.spec.rules) (k : Nat) (s : Str) (hs : r.sources[k]? = some s) :
    ∃ outs, ruleOutputs r s = some outs ∧ outs ≠ [] ∧ ∀ o ∈ outs,
      (∀ i ∈ s :: r.inputs, MadeWith (rulesFrom v0 lines) (fileName m o) (inputName m i)) ∧
      RunsFor (rulesFrom v0 lines) (fileName m o) (commandName m r.name ++ c!"_" ++ natStr k) := by
  obtain ⟨p, rfl, -⟩ := writeMakefile_parts h
  have ok' := TargetOk.withOutput ok
  have hmem := List.mem_of_getElem? hs
  rcases p.hrules with ⟨h, -⟩ | h
  · change m.spec.rules = [] at h
    rw [h] at hr; cases hr
  obtain ⟨parts, hp, hl⟩ := WriteRules_some h
  obtain ⟨pre, part, post, h1, h2⟩ := part_at hp hr
  obtain ⟨l, outputs, e, hpart⟩ := writeRule_some h2
  obtain ⟨outs, g1, g2, g3⟩ := sourceRule_at e hs
  rw [Nat.zero_add] at g3
  refine ⟨outs, g1, g2, ?_⟩
  obtain ⟨v, hat⟩ := ruleAt_mem (varsAfter v0 (headLines (withOutput m).spec ++ p.actions))
    (ls := p.rules) (a := sourceRule (withOutput m) r k s (outs.map (Absolutify (withOutput m))))
    (by
      rw [hl, h1, hpart]
      simp only [List.mem_append]
      exact Or.inl (Or.inl (Or.inr (Or.inl (Or.inr g3)))))
  have hlive := hat.live (s := (withOutput m).spec) (by
    rw [varsAfter_append]
    exact (live_head ok' hf).sets (parts_actions_local p)) (parts_rules_local p)
  obtain ⟨f1, f2⟩ := ok.rules r hr
  have hou : ∀ i ∈ outs, FileText i := f2 s hmem outs g1
  have hin : ∀ i ∈ s :: r.inputs, FileText i := fun i hi => f1 i (by
    rcases List.mem_cons.mp hi with rfl | hi
    · simp [hmem]
    · simp [hi])
  have hok : (sourceRule (withOutput m) r k s (outs.map (Absolutify (withOutput m)))).Ok := by
    refine ⟨abs_names ok' hou, src_names ok' hin, by simpa [sourceRule] using g2, ?_, by
      simp [sourceRule]⟩
    intro x hx
    simp only [sourceRule, Option.getD_some, List.mem_append, List.mem_singleton] at hx
    rcases hx with rfl | hx
    · refine oneLine_doCmd ?_
      simp only [List.mem_append, not_or]
      exact ⟨⟨cmd_line (withOutput m) r.name, by decide⟩, natStr_line k⟩
    · split at hx
      · rw [List.mem_singleton] at hx
        subst hx
        exact ⟨by decide, by decide⟩
      · cases hx
  intro o ho
  constructor
  · intro i hi
    exact (inRules p hat).made hok rfl rfl (ok.digest _) (List.mem_map_of_mem ho)
      (List.mem_map_of_mem (f := fun i => Sourceify (withOutput m) (Absolutify (withOutput m) i)) hi)
      (abs_words ok' hlive (hou o ho)) (src_words ok' hlive (hin i hi))
  · exact runs_of (List.mem_append_left _ (List.mem_singleton.mpr rfl)) ((inRules p hat).command hok
      rfl rfl (ok.digest _) (List.mem_map_of_mem ho) (abs_words ok' hlive (hou o ho)))

example : ∃ lines t', writeMakefile exampleTarget exampleMade = some (lines, t') ∧
    MadeWith (rulesFrom [] lines) c!"lib/gen/b.cc" c!"lib/b.proto" ∧
    RunsFor (rulesFrom [] lines) c!"lib/gen/b.cc" c!"lib_a_gyp_prog_target_proto_1" := by
  obtain ⟨lines, t', h⟩ := example_written
  obtain ⟨outs, h1, -, h2⟩ := C72_rule h example_ok fresh_nil exampleRule (List.mem_singleton.mpr rfl)
    1 c!"b.proto" rfl
  rw [example_outputs c!"b.proto" (by decide)] at h1
  injection h1 with h1
  subst h1
  have := h2 c!"gen/b.cc" (by decide)
  exact ⟨lines, t', h, this.1 c!"b.proto" (by decide), this.2⟩

theorem inCopies (p : MkParts m t) {a : RuleArgs} {v : MakeVars}
    (h : RuleAt (varsAfter v0 (headLines m.spec ++ p.actions ++ p.rules)) p.copies a v) :
    RuleAt v0 p.lines a v := by
  rw [parts_lines]
  exact RuleAt.left (RuleAt.left (RuleAt.right h) _) _

/-- C72: a copied file is made from the file it is a copy of. -/
theorem C72_copy (h : writeMakefile m t = some (lines, t')) (ok : TargetOk m t) (hf : Fresh v0)
    (c : MkCopy) (hc : c ∈ m.spec.copies) (f : Str) (hfile : f ∈ c.files) :
    MadeFrom (rulesFrom v0 lines) (copiedName m c f) (inputName m f) ∧
      HasRecipe (rulesFrom v0 lines) (copiedName m c f) [c!"$(call do_cmd,copy)"] := by
  obtain ⟨p, rfl, -⟩ := writeMakefile_parts h
  have ok' := TargetOk.withOutput ok
  rcases p.hcopies with ⟨h, -⟩ | h
  · change m.spec.copies = [] at h
    rw [h] at hc; cases hc
  obtain ⟨⟨d, hd, h1, h2⟩, h3⟩ := copy_file ok' hc hfile
  obtain ⟨v, hat⟩ := ruleAt_mem (varsAfter v0 (headLines (withOutput m).spec ++ p.actions ++ p.rules))
    (ls := p.copies) (a := doCmdRule (withOutput m) [Sourceify (withOutput m) (Absolutify (withOutput m) d)]
      [Sourceify (withOutput m) (Absolutify (withOutput m) f)] c!"copy" none)
    (by
      rw [WriteCopies_some h]
      simp only [List.mem_append, List.mem_flatMap]
      refine Or.inl (Or.inr ⟨copyPaths (withOutput m) c.destination f, ?_, ?_⟩)
      · exact List.mem_flatMap.mpr ⟨c, hc, List.mem_map_of_mem hfile⟩
      · rw [h1, h3]; simp)
  have hlive := hat.live (s := (withOutput m).spec) (by
    rw [varsAfter_append, varsAfter_append]
    exact ((live_head ok' hf).sets (parts_actions_local p)).sets (parts_rules_local p))
    (parts_copies_local p)
  have hff : FileText f := ok.copies c hc f (by simp [hfile])
  have hok := doCmd_ok (m := withOutput m) (c := none) (cmd := c!"copy")
    (outs := [Sourceify (withOutput m) (Absolutify (withOutput m) d)])
    (ins := [Sourceify (withOutput m) (Absolutify (withOutput m) f)])
    (by simpa using src_name ok' hd) (by simpa using src_name ok' hff) (by simp) (by decide) (by simp)
  have hx : copiedName m c f ∈ wordsOf v (Sourceify (withOutput m) (Absolutify (withOutput m) d)) := by
    have := src_words ok' hlive hd
    rw [h2] at this
    exact this
  exact ⟨(inCopies p hat).one hok rfl rfl (List.mem_singleton.mpr rfl) hx (src_words ok' hlive hff),
    (inCopies p hat).recipe hok rfl rfl hx⟩

example : ∃ lines t', writeMakefile exampleTarget exampleMade = some (lines, t') ∧
    MadeFrom (rulesFrom [] lines) c!"$(builddir)/res/icon.png" c!"lib/icon.png" := by
  obtain ⟨lines, t', h⟩ := example_written
  exact ⟨lines, t', h, (C72_copy h example_ok fresh_nil _ (List.mem_singleton.mpr rfl) c!"icon.png"
    (by decide)).1⟩

/-! ### The product -/

/-- The types of target that are linked or archived. -/
def linkedTypes : List Str :=
  [c!"executable", c!"static_library", c!"shared_library", c!"loadable_module"]

theorem linkedBy_line {line : Str} (h : LinkedBy m line) : OneLine line := by
  cases h <;> exact ⟨by decide, by decide⟩

/-- The rule for the product. -/
theorem finalRule_at {deps linkDeps : List Str} {ls : List MkLine}
    (h : finalRule m deps linkDeps = some ls) (ht : m.spec.type ∈ linkedTypes) :
    ∃ line, LinkedBy m line ∧ ∃ a : RuleArgs, .rule a ∈ ls ∧ a.outputs = [m.output] ∧
      a.inputs = linkDeps ∧ a.actions = some [line] ∧ a.orderOnly = false ∧ a.comment = none := by
  have key : ∀ {cmd : Str} {l : List MkLine}, WriteDoCmd m [m.output] linkDeps cmd = some l →
      LinkedBy m (c!"$(call do_cmd," ++ cmd ++ c!")") →
      ∀ {ls : List MkLine}, (∀ x ∈ l, x ∈ ls) →
      ∃ line, LinkedBy m line ∧ ∃ a : RuleArgs, .rule a ∈ ls ∧ a.outputs = [m.output] ∧
        a.inputs = linkDeps ∧ a.actions = some [line] ∧ a.orderOnly = false ∧ a.comment = none := by
    intro cmd l hw hl ls hls
    have := WriteDoCmd_some hw
    subst this
    exact ⟨_, hl, _, hls _ (List.mem_cons_self ..), rfl, rfl, rfl, rfl, rfl⟩
  unfold finalRule at h
  dsimp only at h
  by_cases h1 : m.spec.type = c!"executable"
  · rw [if_pos h1] at h
    split at h
    · cases h
    · rename_i l hl
      injection h with h
      subst h
      refine key hl ?_ fun x hx => List.mem_cons_of_mem _ hx
      by_cases hh : m.spec.toolset = c!"host" ∧ m.flavor = c!"android"
      · rw [if_pos hh]; exact .hostProgram h1 hh.1 hh.2
      · rw [if_neg hh]; exact .program h1 hh
  rw [if_neg h1] at h
  by_cases h2 : m.spec.type = c!"static_library"
  · rw [if_pos h2] at h
    split at h
    · cases h
    · by_cases hla : m.flavor = c!"linux" ∨ m.flavor = c!"android"
      · rw [if_pos hla] at h
        have := makeRule_some h
        subst this
        have hfl : m.flavor ∉ [c!"mac", c!"openbsd", c!"netbsd", c!"win"] := by
          rcases hla with e | e <;> rw [e] <;> decide
        refine ⟨_, ?_, _, List.mem_singleton.mpr rfl, rfl, rfl, rfl, rfl, rfl⟩
        cases hs : m.spec.standalone with
        | false =>
          rw [if_pos ⟨hfl, rfl⟩]; exact .thin h2 hla hs
        | true =>
          rw [if_neg (by simp)]; exact .archive h2 hla hs
      · rw [if_neg hla] at h
        refine key h ?_ fun x hx => hx
        by_cases hth : m.flavor ∉ [c!"mac", c!"openbsd", c!"netbsd", c!"win"] ∧
            m.spec.standalone = false
        · rw [if_pos hth]; exact .thinCmd h2 hla hth.1 hth.2
        · rw [if_neg hth]
          refine .archiveCmd h2 hla ?_
          by_cases hm : m.flavor ∈ [c!"mac", c!"openbsd", c!"netbsd", c!"win"]
          · exact Or.inl hm
          · refine Or.inr ?_
            cases hs : m.spec.standalone with
            | true => rfl
            | false => exact absurd ⟨hm, hs⟩ hth
  rw [if_neg h2] at h
  by_cases h3 : m.spec.type = c!"shared_library"
  · rw [if_pos h3] at h
    split at h
    · cases h
    · rename_i l hl
      injection h with h
      subst h
      refine key hl (.library h3) fun x hx => ?_
      simp [hx]
  rw [if_neg h3] at h
  by_cases h4 : m.spec.type = c!"loadable_module"
  · rw [if_pos h4] at h
    split at h
    · cases h
    · refine key h ?_ fun x hx => hx
      by_cases hh : m.spec.toolset = c!"host" ∧ m.flavor = c!"android"
      · rw [if_pos hh]; exact .hostAddon h4 hh.1 hh.2
      · rw [if_neg hh]; exact .addon h4 hh
  · simp only [linkedTypes, List.mem_cons, List.not_mem_nil, or_false] at ht
    tauto

theorem linkDep_text (ok : TargetOk m t) {deps link : List Str}
    (h : ComputeDeps t m.spec = some (deps, link)) : ∀ d ∈ link, DepText d := by
  intro d hd
  obtain ⟨x, -, hx⟩ := (mem_deps h (x := d)).2.mp hd
  exact ok.linkDeps _ (mem_of_aget hx)

theorem linkInputs_name (p : MkParts m t) (ok : TargetOk m t) :
    ∀ s ∈ extraLinkDeps m (m.spec.sources ++ extraSources m.spec) ++ p.linkDeps, RuleName s := by
  intro s hs
  rcases List.mem_append.mp hs with hs | hs
  · unfold extraLinkDeps at hs
    rcases List.mem_append.mp hs with hs | hs
    · split at hs
      · cases hs
      · exact objs_name s hs
    · have := source_file ok s (List.mem_filter.mp hs).1
      exact this.2.1.ruleName this.1
  · have := linkDep_text ok p.hdeps s hs
    exact this.2.1.ruleName this.1

/-- C72: the product of a target is made from all its objects, from the object files among its
sources and from the libraries of its dependencies, with the command for its type. -/
theorem C72_link (h : writeMakefile m t = some (lines, t')) (ok : TargetOk m t) (hf : Fresh v0)
    (ht : m.spec.type ∈ [c!"executable", c!"static_library", c!"shared_library",
      c!"loadable_module"]) :
    (allSources m.spec ≠ [] → ∀ obj ∈ listValue (varsAfter v0 lines) c!"OBJS",
      MadeFrom (rulesFrom v0 lines) (productFile m) obj) ∧
    (∀ s ∈ allSources m.spec, c!".o" <:+ s →
      MadeFrom (rulesFrom v0 lines) (productFile m) (expand (ownVars m.spec) s)) ∧
    (∀ d ∈ m.spec.dependencies, ∀ l, aget t.linkDeps d = some l →
      MadeFrom (rulesFrom v0 lines) (productFile m) l) ∧
    ∃ line, LinkedBy m line ∧ HasRecipe (rulesFrom v0 lines) (productFile m) [line] := by
  obtain ⟨p, rfl, -⟩ := writeMakefile_parts h
  have ok' := TargetOk.withOutput ok
  obtain ⟨q⟩ := target_parts p.htarget
  obtain ⟨line, hline, a, ha, a1, a2, a3, a4, a5⟩ := finalRule_at q.hrule ht
  obtain ⟨v, hat⟩ := ruleAt_mem (p.late v0) (ls := p.target) (a := a) (by
    rw [q.split]; simp [ha])
  have hT := atTarget p ok' hf hat
  have hok : a.Ok := by
    refine ⟨?_, ?_, by rw [a1]; simp, ?_, by rw [a5]; simp⟩
    · rw [a1]
      intro s hs
      rw [List.mem_singleton] at hs
      subst hs
      exact output_name ok
    · rw [a2]; exact linkInputs_name p ok'
    · rw [a3]
      intro x hx
      rw [Option.getD_some, List.mem_singleton] at hx
      subst hx
      exact linkedBy_line hline
  have hx : productFile m ∈ wordsOf v (withOutput m).output := by
    have := hT.live.words ok' (output_ok ok')
    rw [show (withOutput m).output = ComputeOutput (withOutput m) from rfl, this]
    exact List.mem_singleton.mpr rfl
  have hone : ∀ i ∈ extraLinkDeps (withOutput m) ((withOutput m).spec.sources ++
      extraSources (withOutput m).spec) ++ p.linkDeps, ∀ y ∈ wordsOf v i,
      MadeFrom (rulesFrom v0 p.lines) (productFile m) y := fun i hi y hy =>
    (hat.inTarget p).one hok a4 a1 (by rw [a2]; exact hi) hx hy
  refine ⟨?_, ?_, ?_, line, by cases hline <;> (constructor <;> assumption), ?_⟩
  · intro hne obj ho
    rw [allSources_eq] at hne
    have hv := objs_value p ok' hf hne
    rw [hv.1] at ho
    refine hone c!"$(OBJS)" ?_ obj ?_
    · refine List.mem_append_left _ (List.mem_append_left _ ?_)
      rw [if_neg]
      · exact List.mem_singleton.mpr rfl
      · intro e
        unfold objectsOf at e
        obtain ⟨s, hs, -⟩ := List.mem_map.mp ho
        have : objectOf (withOutput m) s ∈ ([] : List Str) := by
          rw [← e]; exact List.mem_map_of_mem hs
        cases this
    · rw [show c!"$(OBJS)" = c!"$(" ++ c!"OBJS" ++ c!")" from rfl, words_var OBJS_var,
        listValue_stable hT.objs, hv.2.1]
      exact ho
  · intro s hs ho
    rw [allSources_eq] at hs
    have hfile := source_file ok' s hs
    refine hone s (List.mem_append_left _ (List.mem_append_right _
      (List.mem_filter.mpr ⟨hs, by unfold Linkable endsWith; exact List.isSuffixOf_iff_suffix.mpr ho⟩))) _ ?_
    rw [hT.live.words ok' ⟨hfile.2.2, hfile.2.1, hfile.1, rfl⟩]
    exact List.mem_singleton.mpr rfl
  · intro d hd l hl
    have hm : l ∈ p.linkDeps := (mem_deps p.hdeps).2.mpr ⟨d, hd, hl⟩
    refine hone l (List.mem_append_right _ hm) l ?_
    rw [hT.live.depWords (linkDep_text ok' p.hdeps l hm)]
    exact List.mem_singleton.mpr rfl
  · have := (hat.inTarget p).recipe hok a4 a1 hx
    rw [a3] at this
    exact this

example : ∃ lines t', writeMakefile exampleTarget exampleMade = some (lines, t') ∧
    MadeFrom (rulesFrom [] lines) c!"$(builddir)/prog" c!"extra.o" ∧
    MadeFrom (rulesFrom [] lines) c!"$(builddir)/prog" c!"$(obj).target/lib/libutil.a" := by
  obtain ⟨lines, t', h⟩ := example_written
  have := C72_link h example_ok fresh_nil (by decide)
  exact ⟨lines, t', h, this.2.1 c!"extra.o" (by decide) (by decide),
    this.2.2.1 c!"lib/a.gyp:util#target" (by decide) _ rfl⟩

/-- C72: the product of a target that only groups others is made again after any of them. -/
theorem C72_group (h : writeMakefile m t = some (lines, t')) (ok : TargetOk m t) (hf : Fresh v0)
    (ht : m.spec.type = c!"none") :
    (∀ d ∈ m.spec.dependencies, ∀ f, f ≠ [] → aget t.outputs d = some f →
      MadeFrom (rulesFrom v0 lines) (productFile m) f) ∧
    HasRecipe (rulesFrom v0 lines) (productFile m) [c!"$(call do_cmd,touch)"] := by
  obtain ⟨p, rfl, -⟩ := writeMakefile_parts h
  have ok' := TargetOk.withOutput ok
  obtain ⟨q⟩ := target_parts p.htarget
  have hr := q.hrule
  have ht' : (withOutput m).spec.type = c!"none" := ht
  unfold finalRule at hr
  dsimp only at hr
  rw [ht', if_neg (by decide), if_neg (by decide), if_neg (by decide), if_neg (by decide),
    if_pos rfl] at hr
  have hq := WriteDoCmd_some hr
  obtain ⟨v, hat⟩ := ruleAt_mem (p.late v0) (ls := p.target)
    (a := doCmdRule (withOutput m) [(withOutput m).output] p.deps c!"touch" none) (by
    rw [q.split, hq]; simp)
  have hT := atTarget p ok' hf hat
  have hok : (doCmdRule (withOutput m) [(withOutput m).output] p.deps c!"touch" none).Ok :=
    doCmd_ok (by
      intro s hs
      rw [List.mem_singleton] at hs
      subst hs
      exact output_name ok) (dep_name ok' p.hdeps) (by simp) (by decide) (by simp)
  have hx : productFile m ∈ wordsOf v (withOutput m).output := by
    have := hT.live.words ok' (output_ok ok')
    rw [show (withOutput m).output = ComputeOutput (withOutput m) from rfl, this]
    exact List.mem_singleton.mpr rfl
  refine ⟨?_, (hat.inTarget p).recipe hok rfl rfl hx⟩
  intro d hd f hne hfo
  have hy : DependencyFile t (withOutput m).spec f := ⟨d, hd, Or.inl ⟨hne, hfo⟩⟩
  refine (hat.inTarget p).one hok rfl rfl ((mem_deps p.hdeps).1.mpr hy) hx ?_
  rw [hT.live.depWords (dependency_text ok' hy)]
  exact List.mem_singleton.mpr rfl

example : ∃ lines t', writeMakefile (exampleAs c!"none") exampleMade = some (lines, t') ∧
    MadeFrom (rulesFrom [] lines) c!"$(obj).target/lib/prog.stamp" c!"$(obj).target/lib/libutil.a" := by
  obtain ⟨lines, t', h⟩ := exampleAs_written c!"none"
  exact ⟨lines, t', h, (C72_group h (exampleAs_ok _) fresh_nil rfl).1 c!"lib/a.gyp:util#target"
    (by decide) _ (by decide) rfl⟩

end Gyp
