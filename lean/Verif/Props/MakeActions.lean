import Verif.Proofs.MakeScripts
import Verif.Props.MakeFlags
/-
C74: the commands of actions and rules.
-/
namespace Gyp
open Spec

variable {m : MkSelf} {t t' : MkOutputs} {v0 v1 : MakeVars} {lines : List MkLine}

/-! ### Templates -/

theorem formatted_eq {root dir s x : Str} (h : Formatted root dir s x) : formatRoot root dir s = some x := by
  induction h with
  | nil => rw [formatRoot]
  | @char c s x hc _ ih =>
    rw [formatRoot, ih]
    · rfl
    · exact hc
  | percent _ ih => simp [formatRoot, startsWith, ih]
  | root _ ih => simp [formatRoot, startsWith, ih]
  | dirname _ ih => simp [formatRoot, startsWith, ih]

theorem filledIn_eq {source s x : Str} (h : FilledIn source s x) :
    ExpandInputRoot s (ruleRoot source).1 (ruleRoot source).2 = some x := by
  have hi : ∀ p : Str, hasSub p s = true ↔ p <:+: s := by
    intro p
    rw [hasSub_iff]
    constructor
    · rintro ⟨a, b, e⟩; exact ⟨a, b, e.symm⟩
    · rintro ⟨a, b, e⟩; exact ⟨a, b, e.symm⟩
  unfold FilledIn at h
  unfold ExpandInputRoot
  split at h
  · rename_i hc
    obtain ⟨root, ext, hb, he, hr, hf⟩ := h
    rw [if_pos (by rwa [hi, hi])]
    have hs : '/' ∉ basename source := by
      obtain ⟨d, hd, -, h2⟩ := basename_split source
      exact h2
    rw [hb] at hs
    simp only [List.mem_append, not_or] at hs
    have h1 : (ruleRoot source).1 = root := by
      unfold ruleRoot splitext
      dsimp only
      rw [hb, List.append_assoc]
      have e1 : rsplit1 '.' (root ++ (c!"." ++ ext)) = some (root, ext) := rsplit1_append he
      rw [e1]
      dsimp only
      have e2 : basename root = root := by
        unfold basename
        rw [rsplit1_none_iff.mpr hs.1.1]
      rw [if_neg hs.2, e2, if_pos]
      obtain ⟨c, hc1, hc2⟩ := hr
      exact List.any_eq_true.mpr ⟨c, hc1, by simpa using hc2⟩
    rw [h1]
    exact formatted_eq hf
  · rename_i hc
    rw [if_neg (by rwa [hi, hi]), h]

theorem filledIn_all {source : Str} {l xs : List Str} (h : List.Forall₂ (FilledIn source) l xs) :
    expandAll source l = some xs := by
  induction h with
  | nil => rfl
  | cons h1 _ ih => rw [expandAll, filledIn_eq h1, ih]

/-! ### The variables of the first output -/

theorem varName_cmd (n : Str) : ∀ c ∈ c!"cmd_" ++ commandName m n, makeVarChar c = true := by
  have h0 : ∀ c ∈ c!"cmd_", makeVarChar c = true := by decide
  intro c hc
  rcases List.mem_append.mp hc with hc | hc
  · exact h0 c hc
  · exact commandName_var m n c hc

theorem varName_rule (n : Str) (k : Nat) :
    ∀ c ∈ c!"cmd_" ++ (commandName m n ++ c!"_" ++ natStr k), makeVarChar c = true := by
  intro c hc
  rw [← List.append_assoc, ← List.append_assoc] at hc
  rcases List.mem_append.mp hc with hc | hc
  · rcases List.mem_append.mp hc with hc | hc
    · exact varName_cmd n c hc
    · rw [List.mem_singleton.mp hc]; decide
  · have := natStr_mem hc
    unfold makeVarChar
    simp [this.1, this.2]

theorem library_ok (flavor : Str) : '$' ∉ libraryVar flavor ∧ LineText (libraryVar flavor) := by
  unfold libraryVar LineText
  split <;> decide

theorem command_head (var rest : Str) (hv : var = c!"LIBPATH" ∨ var = c!"LD_LIBRARY_PATH") :
    ∀ c, (libraryText var ++ rest).head? = some c → isBlank c = false := by
  rcases hv with rfl | rfl <;>
  · intro c hc
    simp [libraryText] at hc
    rw [← hc]; decide

theorem library_cases (flavor : Str) : libraryVar flavor = c!"LIBPATH" ∨ libraryVar flavor = c!"LD_LIBRARY_PATH" := by
  unfold libraryVar
  split <;> simp

/-- C74: the command of an action: with what make puts for the variables in it (those of the first
output of the action), the shell makes the directories of the outputs and runs the action, with
exactly its arguments, in the directory of the build file. -/
theorem C74_action (h : writeMakefile m t = some (lines, t')) (ok : TargetOk m t) (hn : NamesApart m)
    {build : Str} (hh : HeaderOk v0 build) (a : MkAction) (ha : a ∈ m.spec.actions)
    (first : Str) (hfirst : a.outputs.head? = some first) (prereqs args : List Str)
    (hok : CommandOk m v1 (commandEnv m v0 v1 prereqs) a.outputs a.action args) :
    ∃ text line, laterText lines (c!"cmd_" ++ commandName m a.name) = some text ∧
      commandLine v1 (localValues v0 lines) (expand v0 (fileName m first)) prereqs text = some line ∧
      ScriptFor line (libraryVar m.flavor) (valueOf v0 c!"abs_builddir") (commandDir m v1)
        (commandEnv m v0 v1 prereqs) a.outputs args := by
  obtain ⟨p, rfl, -⟩ := writeMakefile_parts h
  have ok' := TargetOk.withOutput ok
  have hfiles := ok.actions a ha
  have hin : ∀ i ∈ a.inputs, FileText i := fun i hi => hfiles i (by simp [hi])
  have hou : ∀ i ∈ a.outputs, FileText i := fun i hi => hfiles i (by simp [hi])
  have hfile : FileText first := hou first (List.mem_of_mem_head? hfirst)
  rcases p.hactions with ⟨he, -⟩ | hw
  · change m.spec.actions = [] at he
    rw [he] at ha; cases ha
  obtain ⟨parts, hp, hl⟩ := WriteActions_some hw
  obtain ⟨pre, part, post, h1, h2⟩ := part_at hp ha
  obtain ⟨first', hfirst', hpart⟩ := writeAction_some h2
  obtain rfl : first' = Absolutify (withOutput m) first := by
    rw [List.head?_map, hfirst] at hfirst'
    exact (Option.some.inj hfirst').symm
  have hsub : ∀ l ∈ part, l ∈ p.actions := by
    intro l hlm
    rw [hl, h1]; simp [hlm]
  have hq := file_quote ok' hfile
  rw [hq] at hpart
  have hne : a.outputs ≠ [] := by intro e; rw [e] at hfirst; cases hfirst
  have hy : OwnValues (withOutput m) v0 (localValues v0 p.lines) (expand v0 (fileName m first)) := by
    refine ⟨?_, ?_, ?_⟩
    · exact dir_value p ok' hh hfile (n := c!"obj") (x := c!"$(abs_obj)") (by decide)
        (Or.inl (hsub _ (by rw [hpart]; simp)))
    · exact dir_value p ok' hh hfile (n := c!"builddir") (x := c!"$(abs_builddir)") (by decide)
        (Or.inl (hsub _ (by rw [hpart]; simp)))
    · refine first_toolset p ok' hh hfile (doCmd_ok (m := withOutput m) (c := none) (abs_names ok' hou)
        (src_names ok' hin) (by simpa using hne) (cmd_line (withOutput m) a.name) (by simp)) rfl rfl (by simp)
        (ok.digest _) ?_ (Or.inl (hsub _ (by rw [hpart]; simp)))
      show (a.outputs.map (Absolutify (withOutput m))).head? = _
      rw [List.head?_map, hfirst]
      rfl
  obtain ⟨l1, l2, e1, line, l3, l4⟩ := command_whole (var := libraryVar m.flavor) p ok' hy
    (args := args) ⟨hok.args, hok.last, hok.dirs, hok.dir⟩ (library_ok m.flavor)
  have htext : actionCommand (withOutput m) a = libraryText (libraryVar m.flavor) ++ cdAction (withOutput m) ++
      hardTarget (withOutput m) (mkdirs (outputDirs a.outputs)) ++
      hardTarget (withOutput m) (EncodePOSIXShellList a.action) := by
    rw [List.append_assoc, ← e1]
    rfl
  refine ⟨actionCommand (withOutput m) a, line, ?_, ?_, l4⟩
  · refine later_all ?_ ?_ ?_
    · have : .setLater (c!"cmd_" ++ commandName m a.name) (actionCommand (withOutput m) a) ∈ p.actions :=
        hsub _ (by rw [hpart]; exact List.mem_cons_of_mem _ (List.mem_cons_of_mem _ List.mem_cons_self))
      unfold MkParts.lines
      simp only [List.mem_append]
      tauto
    · intro x hx
      rcases lines_later p hx (action_copies (m := withOutput m) a.name) with ⟨a', ha', e, rfl⟩ | ⟨r, hr, k, e, hc⟩
      · have := List.inj_on_of_nodup_map ok.actionNames ha ha' e
        rw [this]
      · obtain ⟨s, -, -, hk, -⟩ := hc
        have hlt : k < r.sources.length := by
          by_contra hge
          rw [List.getElem?_eq_none (by omega)] at hk
          cases hk
        exact absurd e (hn a ha r hr k hlt)
    · rw [htext]
      exact later_value (varName_cmd _) l1.1 l1.2 l2 (by
        rw [List.append_assoc, List.append_assoc]
        exact command_head _ _ (library_cases _))
  · rw [htext]
    exact l3

theorem sourceRule_part {r : MkRule} {count : Nat} {ss : List Str} {ls : List MkLine} {o : List Str}
    (h : writeRuleSources m r count ss = some (ls, o)) {k : Nat} {s : Str} (hk : ss[k]? = some s) :
    ∃ part o', writeRuleSource m r (count + k) s = some (part, o') ∧ ∀ l ∈ part, l ∈ ls := by
  induction ss generalizing count ls o k with
  | nil => cases hk
  | cons x ss ih =>
    unfold writeRuleSources at h
    split at h
    · rename_i a o1 b q e1 e2
      injection h with h
      injection h with h1 h2
      subst h1
      cases k with
      | zero =>
        injection hk with hk
        subst hk
        exact ⟨a, o1, e1, fun l hl => List.mem_append_left _ hl⟩
      | succ k =>
        rw [List.getElem?_cons_succ] at hk
        obtain ⟨part, o', g1, g2⟩ := ih e2 hk
        refine ⟨part, o', ?_, fun l hl => List.mem_append_right _ (g2 l hl)⟩
        rw [show count + (k + 1) = count + 1 + k by omega]
        exact g1
    · cases h

/-- C74: the command of a rule for its `k`-th source: the same, with the name of the source filled
in. -/
theorem C74_rule (h : writeMakefile m t = some (lines, t')) (ok : TargetOk m t) (hn : NamesApart m)
    {build : Str} (hh : HeaderOk v0 build) (r : MkRule) (hr : r ∈ m.spec.rules) (k : Nat) (src : Str)
    (hsrc : r.sources[k]? = some src) (outs action : List Str)
    (houts : List.Forall₂ (FilledIn src) r.outputs outs) (haction : List.Forall₂ (FilledIn src) r.action action)
    (first : Str) (hfirst : outs.head? = some first) (prereqs args : List Str)
    (hok : CommandOk m v1 (commandEnv m v0 v1 prereqs) outs action args) :
    ∃ text line, laterText lines (c!"cmd_" ++ (commandName m r.name ++ c!"_" ++ natStr k)) = some text ∧
      commandLine v1 (localValues v0 lines) (expand v0 (fileName m first)) prereqs text = some line ∧
      ScriptFor line c!"LD_LIBRARY_PATH" (valueOf v0 c!"abs_builddir") (commandDir m v1)
        (commandEnv m v0 v1 prereqs) outs args := by
  obtain ⟨p, rfl, -⟩ := writeMakefile_parts h
  have ok' := TargetOk.withOutput ok
  have hmem := List.mem_of_getElem? hsrc
  have hro : ruleOutputs r src = some outs := filledIn_all houts
  have hin : ∀ i ∈ src :: r.inputs, FileText i := by
    intro i hi
    rcases List.mem_cons.mp hi with rfl | hi
    · exact (ok.rules r hr).1 _ (by simp [hmem])
    · exact (ok.rules r hr).1 _ (by simp [hi])
  have hou : ∀ i ∈ outs, FileText i := (ok.rules r hr).2 src hmem outs hro
  have hfile : FileText first := hou first (List.mem_of_mem_head? hfirst)
  rcases p.hrules with ⟨he, -⟩ | hw
  · change m.spec.rules = [] at he
    rw [he] at hr; cases hr
  obtain ⟨parts, hp, hl⟩ := WriteRules_some hw
  obtain ⟨pre, part, post, h1, h2⟩ := part_at hp hr
  obtain ⟨l, outputs, e, hpart⟩ := writeRule_some h2
  obtain ⟨part', o', e2, hsub'⟩ := sourceRule_part e hsrc
  rw [Nat.zero_add] at e2
  obtain ⟨outs', action', first', f1, f2, rfl, f4, hpart'⟩ := writeRuleSource_some e2
  obtain rfl : outs' = outs := by rw [hro] at f1; exact (Option.some.inj f1).symm
  obtain rfl : action' = action := by rw [filledIn_all haction] at f2; exact (Option.some.inj f2).symm
  obtain rfl : first' = Absolutify (withOutput m) first := by
    rw [List.head?_map, hfirst] at f4
    exact (Option.some.inj f4).symm
  have hsub : ∀ l ∈ part', l ∈ p.rules := by
    intro l hlm
    rw [hl, h1, hpart]; simp [hsub' l hlm]
  have hne : outs' ≠ [] := by intro e; rw [e] at hfirst; cases hfirst
  have hrok : (sourceRule (withOutput m) r k src (outs'.map (Absolutify (withOutput m)))).Ok := by
    refine ⟨abs_names ok' hou, src_names ok' hin, by simpa [sourceRule] using hne, ?_, by simp [sourceRule]⟩
    intro x hx
    simp only [sourceRule, Option.getD_some, List.cons_append, List.nil_append, List.mem_cons] at hx
    rcases hx with rfl | hx
    · refine oneLine_doCmd ?_
      intro hx
      rcases List.mem_append.mp hx with hx | hx
      · rcases List.mem_append.mp hx with hx | hx
        · exact cmd_line _ _ hx
        · revert hx; decide
      · exact natStr_line k hx
    · split at hx
      · rw [List.mem_singleton.mp hx]
        unfold OneLine
        decide
      · cases hx
  have hy : OwnValues (withOutput m) v0 (localValues v0 p.lines) (expand v0 (fileName m first)) := by
    refine ⟨?_, ?_, ?_⟩
    · exact dir_value p ok' hh hfile (n := c!"obj") (x := c!"$(abs_obj)") (by decide)
        (Or.inr (hsub _ (by rw [hpart']; simp)))
    · exact dir_value p ok' hh hfile (n := c!"builddir") (x := c!"$(abs_builddir)") (by decide)
        (Or.inr (hsub _ (by rw [hpart']; simp)))
    · refine first_toolset p ok' hh hfile hrok rfl rfl (by simp) (ok.digest _) ?_
        (Or.inr (hsub _ (by rw [hpart']; simp)))
      show (outs'.map (Absolutify (withOutput m))).head? = _
      rw [List.head?_map, hfirst]
      rfl
  obtain ⟨l1, l2, -, line, l3, l4⟩ := command_whole (var := c!"LD_LIBRARY_PATH") p ok' hy
    (args := args) ⟨hok.args, hok.last, hok.dirs, hok.dir⟩ (library_ok c!"linux")
  have htext : ruleCommand (withOutput m) outs' action' = libraryText c!"LD_LIBRARY_PATH" ++ cdAction (withOutput m) ++
      hardTarget (withOutput m) (mkdirs (outputDirs outs')) ++
      hardTarget (withOutput m) (EncodePOSIXShellList action') := rfl
  refine ⟨ruleCommand (withOutput m) outs' action', line, ?_, ?_, l4⟩
  · refine later_all ?_ ?_ ?_
    · have : .setLater (c!"cmd_" ++ (commandName m r.name ++ c!"_" ++ natStr k)) (ruleCommand (withOutput m) outs' action') ∈ p.rules :=
        hsub _ (by
          rw [hpart']
          exact List.mem_cons_of_mem _ (List.mem_cons_of_mem _ (List.mem_cons_of_mem _ (List.mem_cons_of_mem _ List.mem_cons_self))))
      unfold MkParts.lines
      simp only [List.mem_append]
      tauto
    · intro x hx
      rcases lines_later p hx (rule_copies (m := withOutput m) r.name k) with ⟨a, ha, e, rfl⟩ | ⟨r', hr', k', e, hc⟩
      · have hlt : k < r.sources.length := by
          by_contra hge
          rw [List.getElem?_eq_none (by omega)] at hsrc
          cases hsrc
        exact absurd e.symm (hn a ha r hr k hlt)
      · obtain ⟨e1, rfl⟩ := command_split e
        have := List.inj_on_of_nodup_map ok.ruleNames hr hr' e1
        subst this
        obtain ⟨s, o, ac, g1, g2, g3, rfl⟩ := hc
        rw [hsrc] at g1
        obtain rfl := Option.some.inj g1
        rw [hro] at g2
        obtain rfl := Option.some.inj g2
        rw [f2] at g3
        obtain rfl := Option.some.inj g3
        rfl
    · rw [htext]
      exact later_value (varName_rule _ _) l1.1 l1.2 l2 (by
        rw [List.append_assoc, List.append_assoc]
        exact command_head _ _ (Or.inr rfl))
  · rw [htext]
    exact l3

/-! ### A target -/

/-- An action with arguments that have to be quoted, and references. -/
def exampleAction : MkAction :=
  { name := c!"make table", inputs := [c!"table.py", c!"in.txt"]
    outputs := [c!"$(obj)/gen/y.cc", c!"$(obj)/gen/y.h"]
    action := [c!"python", c!"table.py", c!"--out=$(obj)/gen", c!"it's a \"b\"; c", c!"$(TARGET)"] }

/-- A rule that gives its command the name of the source in three ways. -/
def exampleProto : MkRule :=
  { name := c!"proto", sources := [c!"a.proto", c!"b.proto"]
    outputs := [c!"gen/%(INPUT_ROOT)s.cc"]
    action := [c!"protoc", c!"--cc=gen/%(INPUT_ROOT)s.cc", c!"$(abspath $<)", c!"100%"], asSources := true }

/-- The target of the earlier examples, with these. -/
def exampleActing : MkSelf :=
  { exampleTarget with
    srcdirPrefix := c!"$(srcdir)/"
    spec := { exampleTarget.spec with actions := [exampleAction], rules := [exampleProto] } }

/-- What is defined at the top of the makefile. -/
def exampleActingHeader : MakeVars :=
  exampleHeader c!"Debug" ++ [(c!"abs_obj", c!"/b/out/x/obj"), (c!"abs_builddir", c!"/b/out/x")]

theorem exampleActingHeader_ok : HeaderOk exampleActingHeader c!"Debug" where
  dirs := by
    intro n hn
    simp only [headerVars, List.mem_cons, List.not_mem_nil, or_false] at hn
    rcases hn with rfl | rfl | rfl
    · exact ⟨c!"out/x/obj", rfl, by decide, by unfold MkClean; decide, by decide⟩
    · exact ⟨c!"out/x", rfl, by decide, by unfold MkClean; decide, by decide⟩
    · exact ⟨c!"..", rfl, by decide, by unfold MkClean; decide, by decide⟩
  build := rfl

theorem exampleProto_outputs : ∀ s ∈ [c!"a.proto", c!"b.proto"],
    ruleOutputs exampleProto s = some [c!"gen/" ++ s.take 1 ++ c!".cc"] := example_outputs

theorem exampleActing_ok : TargetOk exampleActing exampleMade where
  path_rel := rfl
  path := example_ok.path
  srcdir := Or.inr rfl
  toolset := example_ok.toolset
  name := example_ok.name
  digest := example_ok.digest
  sources := example_ok.sources
  actions := by
    intro a ha f hf
    obtain rfl := List.mem_singleton.mp ha
    exact example_ok.actions _ (List.mem_singleton_self _) f hf
  rules := by
    intro r hr
    obtain rfl := List.mem_singleton.mp hr
    exact example_ok.rules exampleRule (List.mem_singleton_self _)
  copies := example_ok.copies
  product := example_ok.product
  productDir := example_ok.productDir
  outputs := example_ok.outputs
  linkDeps := example_ok.linkDeps
  actionNames := List.nodup_singleton _
  ruleNames := List.nodup_singleton _
  configNames := by intro c hc; cases hc

theorem filled_proto : List.Forall₂ (FilledIn c!"b.proto") exampleProto.action
    [c!"protoc", c!"--cc=gen/b.cc", c!"$(abspath $<)", c!"100%"] := by
  have hnot : ∀ s : Str, hasSub c!"%(INPUT_ROOT)s" s = false → hasSub c!"%(INPUT_DIRNAME)s" s = false →
      FilledIn c!"b.proto" s s := by
    intro s h1 h2
    unfold FilledIn
    rw [if_neg]
    rintro (⟨a, b, e⟩ | ⟨a, b, e⟩)
    · rw [(hasSub_iff _ _).mpr ⟨a, b, e.symm⟩] at h1; cases h1
    · rw [(hasSub_iff _ _).mpr ⟨a, b, e.symm⟩] at h2; cases h2
  refine .cons (hnot _ (by decide) (by decide)) (.cons ?_ (.cons (hnot _ (by decide) (by decide))
    (.cons (hnot _ (by decide) (by decide)) .nil)))
  unfold FilledIn
  rw [if_pos (Or.inl ⟨c!"--cc=gen/", c!".cc", rfl⟩)]
  refine ⟨c!"b", c!"proto", rfl, by decide, ⟨'b', by decide, by decide⟩, ?_⟩
  have hplain : ∀ (s u x : Str), '%' ∉ s → Formatted c!"b" (dirname c!"b.proto") u x →
      Formatted c!"b" (dirname c!"b.proto") (s ++ u) (s ++ x) := by
    intro s u x hs h
    induction s with
    | nil => exact h
    | cons c s ih =>
      rw [List.mem_cons, not_or] at hs
      exact .char (fun e => hs.1 e.symm) (ih hs.2)
  exact hplain c!"--cc=gen/" _ _ (by decide) (.root (hplain c!".cc" [] [] (by decide) .nil))

theorem filled_cc : List.Forall₂ (FilledIn c!"b.proto") exampleProto.outputs [c!"gen/b.cc"] := by
  refine .cons ?_ .nil
  unfold FilledIn
  rw [if_pos (Or.inl ⟨c!"gen/", c!".cc", rfl⟩)]
  refine ⟨c!"b", c!"proto", rfl, by decide, ⟨'b', by decide, by decide⟩, ?_⟩
  exact .char (by decide) (.char (by decide) (.char (by decide) (.char (by decide)
    (.root (.char (by decide) (.char (by decide) (.char (by decide) .nil)))))))

theorem exampleActing_written : ∃ lines t', writeMakefile exampleActing exampleMade = some (lines, t') := by
  refine C72_written exampleActing_ok ?_ ?_ ?_
  · intro d hd
    obtain rfl : d = c!"lib/a.gyp:util#target" := List.mem_singleton.mp hd
    decide
  · intro a ha
    obtain rfl := List.mem_singleton.mp ha
    simp [exampleAction]
  · intro r hr s hs
    obtain rfl := List.mem_singleton.mp hr
    refine ⟨⟨_, _, exampleProto_outputs s hs⟩, ?_⟩
    simp only [exampleProto, List.mem_cons, List.not_mem_nil, or_false] at hs
    rcases hs with rfl | rfl <;> decide +kernel

theorem exampleActing_apart : NamesApart exampleActing := by
  intro a ha r hr k hk e
  obtain rfl := List.mem_singleton.mp ha
  obtain rfl := List.mem_singleton.mp hr
  have : k = 0 ∨ k = 1 := by
    have : k < 2 := hk
    omega
  rcases this with rfl | rfl <;> revert e <;> decide

theorem argText_plain {env : Str → Str} {s u x : Str} (hs : ∀ c ∈ s, c ∉ ['$', '#', '\n'])
    (h : ArgText env u x) : ArgText env (s ++ u) (s ++ x) := by
  induction s with
  | nil => exact h
  | cons c s ih => exact .char (hs c List.mem_cons_self) (ih fun d hd => hs d (List.mem_cons_of_mem _ hd))

theorem argText_lit {env : Str → Str} {s : Str} (hs : ∀ c ∈ s, c ∉ ['$', '#', '\n']) : ArgText env s s := by
  have := argText_plain (u := []) (x := []) hs (.nil (env := env))
  rwa [List.append_nil] at this

theorem exampleAction_ok : CommandOk exampleActing [(c!"srcdir", c!"..")]
    (commandEnv exampleActing exampleActingHeader [(c!"srcdir", c!"..")] []) exampleAction.outputs exampleAction.action
    [c!"python", c!"table.py", c!"--out=/b/out/x/obj/gen", c!"it's a \"b\"; c", c!"prog"] where
  args := by
    refine .cons (argText_lit (by decide)) (.cons (argText_lit (by decide)) (.cons ?_ (.cons (argText_lit (by decide)) (.cons ?_ .nil))))
    · exact argText_plain (s := c!"--out=") (by decide) (.ref (n := c!"obj") (x := c!"/gen")
        ⟨by decide, by decide, by decide, by decide⟩ (argText_lit (by decide)))
    · exact .ref (n := c!"TARGET") (s := []) (x := []) ⟨by decide, by decide, by decide, by decide⟩ .nil
  last := by
    intro s hs
    obtain rfl : c!"$(TARGET)" = s := Option.some.inj hs
    decide
  dirs := by
    intro o ho _
    refine ⟨c!"/b/out/x/obj/gen", ?_, by unfold PlainWord; decide⟩
    have : dirname o = c!"$(obj)/gen" := by
      simp only [exampleAction, List.mem_cons, List.not_mem_nil, or_false] at ho
      rcases ho with rfl | rfl <;> decide
    rw [this]
    exact .ref (n := c!"obj") (x := c!"/gen") ⟨by decide, by decide, by decide, by decide⟩ (argText_lit (by decide))
  dir := by unfold PlainWord; decide

/-- The hypotheses are met: the action of the example, with quotes, blanks, `;` and variables. -/
example : ∃ lines t' text line, writeMakefile exampleActing exampleMade = some (lines, t') ∧
    laterText lines c!"cmd_lib_a_gyp_prog_target_make_table" = some text ∧
    commandLine [(c!"srcdir", c!"..")] (localValues exampleActingHeader lines) c!"out/x/obj/gen/y.cc" [] text = some line ∧
    ScriptFor line c!"LD_LIBRARY_PATH" c!"/b/out/x" c!"../lib" (commandEnv exampleActing exampleActingHeader [(c!"srcdir", c!"..")] [])
      exampleAction.outputs
      [c!"python", c!"table.py", c!"--out=/b/out/x/obj/gen", c!"it's a \"b\"; c", c!"prog"] := by
  obtain ⟨lines, t', h⟩ := exampleActing_written
  obtain ⟨text, line, e1, e2, e3⟩ := C74_action h exampleActing_ok exampleActing_apart exampleActingHeader_ok exampleAction
    (List.mem_singleton_self _) _ rfl [] _ exampleAction_ok
  exact ⟨lines, t', text, line, h, e1, e2, e3⟩

theorem exampleProto_ok : CommandOk exampleActing [(c!"srcdir", c!".."), (c!"CURDIR", c!"/s/build")]
    (commandEnv exampleActing exampleActingHeader
      [(c!"srcdir", c!".."), (c!"CURDIR", c!"/s/build")] [c!"../lib/b.proto"])
    [c!"gen/b.cc"] [c!"protoc", c!"--cc=gen/b.cc", c!"$(abspath $<)", c!"100%"]
    [c!"protoc", c!"--cc=gen/b.cc", c!"/s/lib/b.proto", c!"100%"] where
  args := by
    refine .cons (argText_lit (by decide)) (.cons (argText_lit (by decide)) (.cons ?_ (.cons (argText_lit (by decide)) .nil)))
    exact .source (env := commandEnv exampleActing exampleActingHeader
      [(c!"srcdir", c!".."), (c!"CURDIR", c!"/s/build")] [c!"../lib/b.proto"])
      (f := c!"abspath ") (s := []) (x := []) (by decide) (by decide) .nil
  last := by
    intro s hs
    obtain rfl : c!"100%" = s := Option.some.inj hs
    decide
  dirs := by
    intro o ho _
    obtain rfl := List.mem_singleton.mp ho
    exact ⟨c!"gen", argText_lit (by decide), by unfold PlainWord; decide⟩
  dir := by unfold PlainWord; decide

/-- The hypotheses are met: the rule of the example, for its second source. -/
example : ∃ lines t' text line, writeMakefile exampleActing exampleMade = some (lines, t') ∧
    laterText lines c!"cmd_lib_a_gyp_prog_target_proto_1" = some text ∧
    commandLine [(c!"srcdir", c!".."), (c!"CURDIR", c!"/s/build")]
      (localValues exampleActingHeader lines) (expand exampleActingHeader (fileName exampleActing c!"gen/b.cc"))
      [c!"../lib/b.proto"] text = some line ∧
    ScriptFor line c!"LD_LIBRARY_PATH" c!"/b/out/x" c!"../lib" (commandEnv exampleActing exampleActingHeader
      [(c!"srcdir", c!".."), (c!"CURDIR", c!"/s/build")] [c!"../lib/b.proto"]) [c!"gen/b.cc"]
      [c!"protoc", c!"--cc=gen/b.cc", c!"/s/lib/b.proto", c!"100%"] := by
  obtain ⟨lines, t', h⟩ := exampleActing_written
  obtain ⟨text, line, e1, e2, e3⟩ := C74_rule h exampleActing_ok exampleActing_apart exampleActingHeader_ok exampleProto
    (List.mem_singleton_self _) 1 c!"b.proto" rfl _ _ filled_cc filled_proto _ rfl [c!"../lib/b.proto"] _ exampleProto_ok
  exact ⟨lines, t', text, line, h, e1, e2, e3⟩

/-! ### What is not as it should be -/

/-- A target with actions only. -/
def exampleActions (actions : List MkAction) : MkSelf :=
  { flavor := c!"linux", srcdirPrefix := [], sha1 := fun _ => c!"d1", qualified := c!"a.gyp:t#target", path := []
    spec := { targetName := c!"t", type := c!"none", toolset := c!"target", actions } }

/-- The lines of a target with actions only. -/
def exampleLines (actions : List MkAction) : List MkLine :=
  ((writeMakefile (exampleActions actions) ⟨[], []⟩).map (·.1)).getD []

/-- C74: the directories are absolute for the first output of an action only: when make wants the
second output, the command is expanded with the relative ones, although it changes directory. -/
theorem C74_second_output :
    let lines := exampleLines [{ name := c!"gen", inputs := [], outputs := [c!"$(obj)/y.cc", c!"$(obj)/y.h"]
                                 action := [c!"python", c!"$(obj)/y.cc"] }]
    localValue (localValues exampleActingHeader lines) c!"out/x/obj/y.cc" c!"obj" = some c!"/b/out/x/obj" ∧
      localValue (localValues exampleActingHeader lines) c!"out/x/obj/y.h" c!"obj" = none := by
  decide +kernel

/-- C74: two actions with names that differ in a character that is not kept share a variable for
their commands, and one for their outputs: the output of the first is made by the command of the
second, and nothing waits for it. -/
theorem C74_shared_command :
    let lines := exampleLines [{ name := c!"a-b", inputs := [], outputs := [c!"x"], action := [c!"one"] },
                               { name := c!"a b", inputs := [], outputs := [c!"y"], action := [c!"two"] }]
    (∀ x ∈ [c!"x", c!"y"], .rule [x] [c!"FORCE_DO_CMD"] [] [c!"$(call do_cmd,a_gyp_t_target_a_b)"] ∈ rulesFrom [] lines) ∧
      laterText lines c!"cmd_a_gyp_t_target_a_b" =
        some c!"LD_LIBRARY_PATH=$(builddir)/lib.host:$(builddir)/lib.target:$$LD_LIBRARY_PATH; export LD_LIBRARY_PATH; cd .; two" ∧
      ∀ x, ¬ WaitsFor (rulesFrom [] lines) x c!"x" := by
  intro lines
  have h : ∀ e ∈ rulesFrom [] lines, (match e with
      | .rule _ ns os _ => decide (c!"x" ∉ ns ++ os)
      | _ => true) = true := by decide +kernel
  refine ⟨by decide +kernel, by decide +kernel, ?_⟩
  rintro x ⟨ts, ns, os, recipe, h1, -, h3⟩
  have := h _ h1
  exact of_decide_eq_true this (List.mem_append.mpr h3)

/-- C74: an argument with a number sign ends the command there. -/
theorem C74_number_sign :
    laterText (exampleLines [{ name := c!"n", inputs := [], outputs := [c!"x"], action := [c!"echo", c!"a#b"] }])
        c!"cmd_a_gyp_t_target_n" =
      some c!"LD_LIBRARY_PATH=$(builddir)/lib.host:$(builddir)/lib.target:$$LD_LIBRARY_PATH; export LD_LIBRARY_PATH; cd .; echo \"a" := by
  decide +kernel

end Gyp
