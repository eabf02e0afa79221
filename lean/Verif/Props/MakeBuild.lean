import Verif.Proofs.MakeInstall
import Verif.Props.DeepTargets
import Verif.Props.MakeCompile
/-
C73: the makefiles of a whole build.
-/
namespace Gyp
open Spec

variable {m : MkSelf} {t t' : MkOutputs} {lines : List MkLine} {v0 : MakeVars}

/-! ### One target -/

/-- The rules of the section for the target. -/
theorem targetRule (p : MkParts m t) (ok : TargetOk m t) (hf : Fresh v0) {a : RuleArgs}
    (ha : .rule a ∈ p.target) : ∃ v, RuleAt v0 p.lines a v ∧ Live m.spec v := by
  obtain ⟨v, hat⟩ := ruleAt_mem (p.late v0) ha
  exact ⟨v, hat.inTarget p, (atTarget p ok hf hat).live⟩

theorem dep_ruleName {x : Str} (h : DepText x) : RuleName x := h.2.1.ruleName h.1

/-- A rule between names of products. -/
theorem targetRule_made (p : MkParts m t) (ok : TargetOk m t) (hf : Fresh v0) {a : RuleArgs}
    (ha : .rule a ∈ p.target) (hord : a.orderOnly = false) {o i : Str} (ho : a.outputs = [o])
    (hi : i ∈ a.inputs) (hot : DepText o) (hit : ∀ x ∈ a.inputs, DepText x)
    (hact : ∀ x ∈ a.actions.getD [], OneLine x) (hc : ∀ x, a.comment = some x → OneLine x) :
    MadeFrom (rulesFrom v0 p.lines) o i ∧ HasRecipe (rulesFrom v0 p.lines) o (a.actions.getD []) := by
  obtain ⟨v, hat, hlive⟩ := targetRule p ok hf ha
  have hok : a.Ok := ⟨by rw [ho]; intro s hs; rw [List.mem_singleton] at hs; subst hs; exact dep_ruleName hot,
    fun s hs => dep_ruleName (hit s hs), by simp [ho], hact, hc⟩
  have hw : ∀ {x}, DepText x → x ∈ wordsOf v x := by
    intro x hx
    rw [hlive.depWords hx]
    exact List.mem_singleton.mpr rfl
  exact ⟨hat.one hok hord ho hi (hw hot) (hw (hit i hi)), hat.recipe hok hord ho (hw hot)⟩

theorem word_dep {s : Str} (h : MkWord s) : DepText s := ⟨h.1, h.2.1, .plain h.2.2⟩

/-- C73: the product of an installed target is copied into the directory of the build. -/
theorem C73_installed (h : writeMakefile m t = some (lines, t')) (ok : TargetOk m t) (hf : Fresh v0)
    (hp : ProductPlain m) (hne : installedFile m ≠ productFile m) :
    MadeFrom (rulesFrom v0 lines) (installedFile m) (productFile m) ∧
      HasRecipe (rulesFrom v0 lines) (installedFile m) [c!"$(call do_cmd,copy)"] := by
  obtain ⟨p, rfl, -⟩ := writeMakefile_parts h
  have ok' := TargetOk.withOutput ok
  obtain ⟨q⟩ := target_parts p.htarget
  have hi : installed m.spec = true := by
    by_contra hc
    apply hne
    unfold installedFile
    rw [if_neg fun h => hc ((installed_iff _).mpr h)]
  have hq := install_parts q.hinstall hi
  have hpath := install_path ok hp hi
  have hprod := product_plain ok hp
  have hout : (withOutput m).output = productFile m := hprod.1.symm
  have hcopy := hq.copy (by rw [hpath, hout]; exact hne)
  rw [hpath, hout] at hcopy
  have := targetRule_made (v0 := v0) p ok' hf (o := installedFile m) (i := productFile m)
    (by rw [q.split]; exact List.mem_append_right _ hcopy) rfl rfl (List.mem_singleton.mpr rfl)
    (installedFile_text ok hp) (by
      intro x hx
      rw [show x = productFile m from List.mem_singleton.mp hx]
      exact hprod.2) (by
      intro x hx
      rw [show x = c!"$(call do_cmd,copy)" from List.mem_singleton.mp hx]
      exact ⟨by decide, by decide⟩)
    (oneLine_desc (m := withOutput m) (a := c!"Copy this to the ") (b := c!" output path.") (by
      intro x hx
      simp only [List.mem_cons, List.not_mem_nil, or_false] at hx
      rcases hx with rfl | rfl | rfl <;> exact ⟨by decide, by decide⟩))
  exact this

theorem output_slash (m : MkSelf) (hd : m.spec.productDir ≠ some []) : '/' ∈ ComputeOutput m := by
  have key : ∀ a b : Str, a ≠ [] → '/' ∈ pathJoin a b := by
    intro a b ha
    unfold pathJoin
    split
    · rename_i h
      cases b with
      | nil => cases h
      | cons x b =>
        have h' : (['/'] : Str).isPrefixOf (x :: b) = true := h
        simp only [List.isPrefixOf_cons₂, List.isPrefixOf_nil_left, Bool.and_true, beq_iff_eq] at h'
        simp [← h']
    · split
      · rename_i h
        rcases h with h | h
        · exact absurd h ha
        · obtain ⟨pre, rfl⟩ := List.isSuffixOf_iff_suffix.mp h
          simp
      · simp
  unfold ComputeOutput
  dsimp only
  refine key _ _ ?_
  cases e : m.spec.productDir with
  | some d => exact fun h => hd (by rw [e]; exact congrArg some h)
  | none =>
    show (if m.spec.type = c!"executable" then c!"$(builddir)" else _) ≠ []
    split
    · decide
    · unfold pathJoin
      split
      · rename_i h
        intro e'; rw [e'] at h; cases h
      · split <;> simp

/-- C73: the name of a target stands for its installed product. -/
theorem C73_alias (h : writeMakefile m t = some (lines, t')) (ok : TargetOk m t) (hf : Fresh v0)
    (hp : ProductPlain m) (hn : '/' ∉ m.spec.targetName) :
    MadeFrom (rulesFrom v0 lines) m.spec.targetName (installedFile m) := by
  obtain ⟨p, rfl, -⟩ := writeMakefile_parts h
  have ok' := TargetOk.withOutput ok
  obtain ⟨q⟩ := target_parts p.htarget
  have hprod := product_plain ok hp
  have hout : (withOutput m).output = productFile m := hprod.1.symm
  have hone : ∀ x, some c!"Add target alias" = some x → OneLine x := by
    intro x hx
    injection hx with hx
    subst hx
    exact ⟨by decide, by decide⟩
  by_cases hi : installed m.spec = true
  · have hq := (install_parts q.hinstall hi).name
    rw [install_path ok hp hi] at hq
    exact (targetRule_made (v0 := v0) p ok' hf (o := m.spec.targetName) (i := installedFile m)
      (by rw [q.split]; exact List.mem_append_right _ hq) rfl rfl (List.mem_singleton.mpr rfl)
      (word_dep ok.name) (by
        intro x hx
        rw [show x = installedFile m from List.mem_singleton.mp hx]
        exact installedFile_text ok hp) (by intro x hx; cases hx) hone).1
  · have hq := (alias_parts q.hshort ⟨⟨by rw [hout]; exact hprod.2.1, by
        rw [hout, hprod.1]
        intro e
        apply hn
        have := output_slash m ok.productDir
        rw [e] at this
        exact this⟩, fun hc => hi ((installed_iff _).mpr (Or.inr hc))⟩).1
    rw [hout] at hq
    have he : installedFile m = productFile m := by
      unfold installedFile
      rw [if_neg fun h => hi ((installed_iff _).mpr h)]
    rw [he]
    exact (targetRule_made (v0 := v0) p ok' hf (o := m.spec.targetName) (i := productFile m)
      (by rw [q.split]; exact List.mem_append_left _ (List.mem_append_right _ hq)) rfl rfl
      (List.mem_singleton.mpr rfl)
      (word_dep ok.name) (by
        intro x hx
        rw [show x = productFile m from List.mem_singleton.mp hx]
        exact hprod.2) (by intro x hx; cases hx) hone).1

theorem unversioned_text {s : Str} (h : DepText s) : DepText (UnversionedSidedeck s) := by
  unfold UnversionedSidedeck
  split
  · rename_i he
    obtain ⟨pre, rfl⟩ := List.isSuffixOf_iff_suffix.mp he
    dsimp only
    rw [show (pre ++ c!".x").take ((pre ++ c!".x").length - 2) = pre by simp]
    split
    · rename_i a b hab
      split
      · have hs := (rsplit1_some hab).1
        have hr : RefText headerVars a := (RefText.cut (x := '.') (by decide) (by decide) h.2.2 a
          (b ++ c!".x") (by rw [hs]; simp)).1
        refine ⟨by simp, ?_, RefText.append hr (.plain (by decide))⟩
        intro c hc
        simp only [List.mem_append] at hc
        rcases hc with hc | hc
        · exact h.2.1 c (by rw [hs]; simp [hc])
        · exact (show MkClean c!".x" by unfold MkClean; decide) c hc
      · exact h
    · exact h
  · exact h

theorem sharedObject_text {s : Str} (h : DepText s) : DepText (SharedObjectFromSidedeck s) := by
  unfold SharedObjectFromSidedeck
  split
  · rename_i he
    obtain ⟨pre, rfl⟩ := List.isSuffixOf_iff_suffix.mp he
    rw [show (pre ++ c!".x").take ((pre ++ c!".x").length - 2) = pre by simp]
    have hr : RefText headerVars pre := (RefText.cut (x := '.') (by decide) (by decide) h.2.2 pre
      c!"x" (by simp)).1
    refine ⟨by simp, ?_, RefText.append hr (.plain (by decide))⟩
    intro c hc
    simp only [List.mem_append] at hc
    rcases hc with hc | hc
    · exact h.2.1 c (by simp [hc])
    · exact (show MkClean c!".so" by unfold MkClean; decide) c hc
  · exact h

theorem reaches_of {rules : List MakeItem} {x y : Str} (h : MadeFrom rules x y) : Reaches rules x y := by
  obtain ⟨ts, ns, os, r, h1, h2, h3⟩ := h
  exact .single ⟨ts, ns, os, r, h1, h2, Or.inl h3⟩

/-- C73: `make all` makes the installed product of every target that belongs to the build. -/
theorem C73_all (h : writeMakefile m t = some (lines, t')) (ok : TargetOk m t) (hf : Fresh v0)
    (hp : ProductPlain m) (hn : '/' ∉ m.spec.targetName) (hall : m.partOfAll = true) :
    Reaches (rulesFrom v0 lines) c!"all" (installedFile m) := by
  have halias := C73_alias (v0 := v0) h ok hf hp hn
  obtain ⟨p, rfl, -⟩ := writeMakefile_parts h
  have ok' := TargetOk.withOutput ok
  obtain ⟨q⟩ := target_parts p.htarget
  have hprod := product_plain ok hp
  have hout : (withOutput m).output = productFile m := hprod.1.symm
  have hallText : DepText c!"all" := ⟨by decide, by unfold MkClean; decide, .plain (by decide)⟩
  have hins := installedFile_text ok hp
  by_cases hi : installed m.spec = true
  · have hq := install_parts q.hinstall hi
    have hpath := install_path ok hp hi
    have hdesc : ∀ x, some (c!"Add " ++ fileDesc (withOutput m) ++ c!" to \"all\" target.") = some x →
        OneLine x := oneLine_desc (by
      intro x hx
      simp only [List.mem_cons, List.not_mem_nil, or_false] at hx
      rcases hx with rfl | rfl | rfl <;> exact ⟨by decide, by decide⟩)
    have hsym : ∀ x, some (c!"Symlnk this to the " ++ fileDesc (withOutput m) ++ c!" output path.") =
        some x → OneLine x := oneLine_desc (by
      intro x hx
      simp only [List.mem_cons, List.not_mem_nil, or_false] at hx
      rcases hx with rfl | rfl | rfl <;> exact ⟨by decide, by decide⟩)
    by_cases hz : m.flavor = c!"zos" ∧ m.spec.type = c!"shared_library"
    · obtain ⟨h1, h2⟩ := hq.link hz
      rw [hpath] at h1 h2
      have hu := unversioned_text hins
      have a := (targetRule_made (v0 := v0) p ok' hf (o := c!"all")
        (i := UnversionedSidedeck (installedFile m))
        (by rw [q.split]; exact List.mem_append_right _ h2) rfl rfl (List.mem_cons_self ..)
        hallText (by
          intro x hx
          rcases List.mem_cons.mp hx with rfl | hx
          · exact hu
          · rw [List.mem_singleton.mp hx]
            exact sharedObject_text hins) (by intro x hx; cases hx) hdesc).1
      have b := (targetRule_made (v0 := v0) p ok' hf (o := UnversionedSidedeck (installedFile m))
        (i := installedFile m)
        (by rw [q.split]; exact List.mem_append_right _ h1) rfl rfl (List.mem_singleton.mpr rfl)
        hu (by
          intro x hx
          rw [show x = installedFile m from List.mem_singleton.mp hx]
          exact hins) (by
          intro x hx
          rw [show x = c!"$(call do_cmd,symlink)" from List.mem_singleton.mp hx]
          exact ⟨by decide, by decide⟩) hsym).1
      exact .trans (reaches_of a) (reaches_of b)
    · have h1 := hq.all hz hall
      rw [hpath] at h1
      exact reaches_of (targetRule_made (v0 := v0) p ok' hf (o := c!"all") (i := installedFile m)
        (by rw [q.split]; exact List.mem_append_right _ h1) rfl rfl (List.mem_singleton.mpr rfl)
        hallText (by
          intro x hx
          rw [show x = installedFile m from List.mem_singleton.mp hx]
          exact hins) (by intro x hx; cases hx) hdesc).1
  · have hq := (alias_parts q.hshort ⟨⟨by rw [hout]; exact hprod.2.1, by
        rw [hout, hprod.1]
        intro e
        apply hn
        have := output_slash m ok.productDir
        rw [e] at this
        exact this⟩, fun hc => hi ((installed_iff _).mpr (Or.inr hc))⟩).2 hall
    refine .trans (reaches_of (targetRule_made (v0 := v0) p ok' hf (o := c!"all") (i := m.spec.targetName)
      (by rw [q.split]; exact List.mem_append_left _ (List.mem_append_right _ hq)) rfl rfl
      (List.mem_singleton.mpr rfl) hallText (by
        intro x hx
        rw [show x = m.spec.targetName from List.mem_singleton.mp hx]
        exact word_dep ok.name) (by intro x hx; cases hx) (by
        intro x hx
        injection hx with hx
        subst hx
        exact ⟨by decide, by decide⟩)).1) (reaches_of halias)

/-! ### All targets -/

theorem waitsFor_mono {a b : List MakeItem} (h : ∀ i ∈ a, i ∈ b) {x y : Str} (hw : WaitsFor a x y) :
    WaitsFor b x y := by
  obtain ⟨ts, ns, os, r, h1, h2⟩ := hw
  exact ⟨ts, ns, os, r, h _ h1, h2⟩

theorem madeFrom_mono {a b : List MakeItem} (h : ∀ i ∈ a, i ∈ b) {x y : Str} (hw : MadeFrom a x y) :
    MadeFrom b x y := by
  obtain ⟨ts, ns, os, r, h1, h2⟩ := hw
  exact ⟨ts, ns, os, r, h _ h1, h2⟩

theorem reaches_mono {a b : List MakeItem} (h : ∀ i ∈ a, i ∈ b) {x y : Str} (hw : Reaches a x y) :
    Reaches b x y := by
  induction hw with
  | single h1 => exact .single (waitsFor_mono h h1)
  | tail _ h2 ih => exact .tail ih (waitsFor_mono h h2)

/-- The makefile of a target does not set the variables of the header. -/
theorem lines_header (h : writeMakefile m t = some (lines, t')) {n : Str} (hn : n ∈ headerVars) :
    ¬ Sets lines n := by
  obtain ⟨p, rfl, -⟩ := writeMakefile_parts h
  intro hs
  have hloc : n ∈ localVars := by
    unfold localVars; exact List.mem_cons_of_mem _ (List.mem_cons_of_mem _ hn)
  unfold MkParts.lines at hs
  simp only [Sets.append] at hs
  rcases hs with (((((hs | hs) | hs) | hs) | hs) | hs) | hs
  · obtain ⟨l, hl, he⟩ := hs
    simp only [List.mem_cons, List.not_mem_nil, or_false] at hl
    rcases hl with rfl | rfl <;> injection he with he <;> subst he <;> revert hn <;> decide
  · exact parts_actions_local p n hloc hs
  · exact parts_rules_local p n hloc hs
  · exact parts_copies_local p n hloc hs
  · exact parts_sources_local p n hloc hs
  · exact targetSuffixRules_sets hs
  · exact parts_target_local p n hloc hs

variable {r : MakeRun} {needed : List Str} {dicts : List (Str × MkSpec)} {list : List Str}

theorem described_unique {q : Str} {m m' : MkSelf} (h : Described r needed dicts q m)
    (h' : Described r needed dicts q m') : m = m' := by
  obtain ⟨b, x, s, spec, h1, h2, rfl⟩ := h
  obtain ⟨b', x', s', spec', h1', h2', rfl⟩ := h'
  rw [h1] at h1'
  rw [h2] at h2'
  simp only [Prod.mk.injEq, Option.some.injEq] at h1' h2'
  rw [h1'.1, h2']

/-- A target whose product is linked into others. -/
def IsLibrary (s : MkSpec) : Prop := s.type = c!"static_library" ∨ s.type = c!"shared_library"

/-- The tables after some targets. -/
structure TableOk (r : MakeRun) (needed : List Str) (dicts : List (Str × MkSpec)) (t : MkOutputs)
    (done : List Str) : Prop where
  outputs : ∀ e ∈ t.outputs, DepText e.2
  linkDeps : ∀ e ∈ t.linkDeps, DepText e.2
  file : ∀ q ∈ done, ∀ m, Described r needed dicts q m → aget t.outputs q = some (installedFile m)
  lib : ∀ q ∈ done, ∀ m, Described r needed dicts q m → IsLibrary m.spec →
    aget t.linkDeps q = some (productFile m)

theorem selfOk_target (h : SelfOk m) {done : List Str} (ht : TableOk r needed dicts t done) :
    TargetOk m t :=
  have ok := h.target
  ⟨ok.1, ok.2, ok.3, ok.4, ok.5, ok.6, ok.7, ok.8, ok.9, ok.10, ok.11, ok.12,
    fun e he => Or.inr (ht.outputs e he), ht.linkDeps, ok.15, ok.16, ok.17⟩

theorem mem_aset {α : Type} {l : List (Str × α)} {k : Str} {x : α} {e : Str × α} (h : e ∈ aset l k x) :
    e ∈ l ∨ e = (k, x) := by
  induction l with
  | nil => exact Or.inr (List.mem_singleton.mp h)
  | cons y l ih =>
    unfold aset at h
    split at h
    · rcases List.mem_cons.mp h with rfl | h
      · exact Or.inr (by simp_all)
      · exact Or.inl (List.mem_cons_of_mem _ h)
    · rcases List.mem_cons.mp h with rfl | h
      · exact Or.inl (List.mem_cons_self ..)
      · rcases ih h with h | h
        · exact Or.inl (List.mem_cons_of_mem _ h)
        · exact Or.inr h

theorem table_next {q : Str} {done : List Str} (hd : Described r needed dicts q m) (hs : SelfOk m)
    (ht : TableOk r needed dicts t done) (h : writeMakefile m t = some (lines, t')) :
    TableOk r needed dicts t' (q :: done) := by
  have ok := selfOk_target hs ht
  obtain ⟨-, -, rfl⟩ := writeMakefile_parts h
  have hq : m.qualified = q := by obtain ⟨_, _, _, _, _, _, rfl⟩ := hd; rfl
  have hprod := product_plain ok hs.product
  have hout : (withOutput m).output = productFile m := hprod.1.symm
  have hfile := installedFile_text ok hs.product
  have hrec := recorded ok hs.product
  constructor
  · intro e he
    dsimp only at he
    rw [hrec] at he
    rcases mem_aset he with he | rfl
    · exact ht.outputs e he
    · exact hfile
  · intro e he
    dsimp only at he
    split at he
    · rcases mem_aset he with he | rfl
      · exact ht.linkDeps e he
      · rw [hout]; exact hprod.2
    · exact ht.linkDeps e he
  · intro x hx mx hdx
    dsimp only
    rw [hrec, hq]
    by_cases e : x = q
    · subst e
      rw [described_unique hdx hd]
      rw [aget_aset, if_pos rfl]
    · rw [aget_aset, if_neg e]
      exact ht.file x ((List.mem_cons.mp hx).resolve_left e) mx hdx
  · intro x hx mx hdx hl
    dsimp only
    rw [hq, hout]
    by_cases e : x = q
    · subst e
      rw [described_unique hdx hd] at hl ⊢
      rw [if_pos (show m.spec.type = _ ∨ m.spec.type = _ from hl)]
      rw [aget_aset, if_pos rfl]
    · have := ht.lib x ((List.mem_cons.mp hx).resolve_left e) mx hdx hl
      split
      · rw [aget_aset, if_neg e]; exact this
      · exact this

theorem writeTargets_cons {q : Str} {rest : List Str} {m : MkSelf} (hd : Described r needed dicts q m) :
    ∃ path, ∀ t, writeTargets r needed dicts (q :: rest) t =
      match writeMakefile m t with
      | none => none
      | some (lines, t') =>
        match writeTargets r needed dicts rest t' with
        | none => none
        | some files => some ((path, lines) :: files) := by
  obtain ⟨b, x, s, spec, h1, h2, rfl⟩ := hd
  refine ⟨makefilePath r b (makefileName r x s), fun t => ?_⟩
  rw [writeTargets, h1, h2]
  rfl

/-- The hypotheses for a rest of the list, after some targets. -/
structure RestOk (r : MakeRun) (needed : List Str) (dicts : List (Str × MkSpec))
    (list done : List Str) : Prop where
  each : ∀ q ∈ list, ∃ m, Described r needed dicts q m ∧ SelfOk m
  order : ∀ pre q post, list = pre ++ q :: post → ∀ m, Described r needed dicts q m →
    ∀ d ∈ m.spec.dependencies, d ∈ pre ++ done
  before : ∀ q ∈ done, ∃ m, Described r needed dicts q m

theorem RestOk.next {q : Str} {rest done : List Str} (h : RestOk r needed dicts (q :: rest) done) :
    RestOk r needed dicts rest (q :: done) := by
  refine ⟨fun x hx => h.each x (List.mem_cons_of_mem _ hx), fun pre x post he m hd d hdep => ?_, ?_⟩
  rotate_left
  · intro x hx
    rcases List.mem_cons.mp hx with rfl | hx
    · obtain ⟨m, hm, -⟩ := h.each x (List.mem_cons_self ..)
      exact ⟨m, hm⟩
    · exact h.before x hx
  have := h.order (q :: pre) x post (by rw [he]; rfl) m hd d hdep
  simp only [List.cons_append, List.mem_cons, List.mem_append] at this ⊢
  tauto

theorem writeTargets_isSome : ∀ (list done : List Str) (t : MkOutputs),
    RestOk r needed dicts list done → TableOk r needed dicts t done →
    ∃ files, writeTargets r needed dicts list t = some files := by
  intro list
  induction list with
  | nil => intro _ _ _ _; exact ⟨_, rfl⟩
  | cons q rest ih =>
    intro done t hr ht
    obtain ⟨m, hd, hs⟩ := hr.each q (List.mem_cons_self ..)
    obtain ⟨path, hc⟩ := writeTargets_cons (rest := rest) hd
    have hdep : ∀ d ∈ m.spec.dependencies, aget t.outputs d ≠ none := by
      intro d hdd
      have hin : d ∈ done := by simpa using hr.order [] q rest rfl m hd d hdd
      obtain ⟨md, hmd⟩ := hr.before d hin
      rw [ht.file d hin md hmd]
      simp
    obtain ⟨lines, t', hw⟩ := C72_written (selfOk_target hs ht) hdep hs.actions hs.rules
    obtain ⟨files, hf⟩ := ih (q :: done) t' hr.next (table_next hd hs ht hw)
    rw [hc t, hw]
    dsimp only
    rw [hf]
    exact ⟨_, rfl⟩

/-- What is known about the makefile of a target. -/
structure WrittenAt (r : MakeRun) (needed : List Str) (dicts : List (Str × MkSpec)) (m : MkSelf)
    (lines : List MkLine) (t1 t2 : MkOutputs) : Prop where
  write : writeMakefile m t1 = some (lines, t2)
  ok : TargetOk m t1
  file : ∀ d ∈ m.spec.dependencies, ∀ md, Described r needed dicts d md →
    aget t1.outputs d = some (installedFile md)
  lib : ∀ d ∈ m.spec.dependencies, ∀ md, Described r needed dicts d md → IsLibrary md.spec →
    aget t1.linkDeps d = some (productFile md)

theorem writeTargets_at : ∀ (list done : List Str) (t : MkOutputs) (files : List (Str × List MkLine)),
    RestOk r needed dicts list done → TableOk r needed dicts t done →
    writeTargets r needed dicts list t = some files →
    (∀ q ∈ list, ∀ m, Described r needed dicts q m → ∃ path lines t1 t2, (path, lines) ∈ files ∧
      WrittenAt r needed dicts m lines t1 t2) ∧
    ∀ e ∈ files, ∃ m t1 t2, writeMakefile m t1 = some (e.2, t2) := by
  intro list
  induction list with
  | nil =>
    intro _ _ files _ _ h
    injection h with h
    subst h
    exact ⟨(by simp), (by simp)⟩
  | cons q rest ih =>
    intro done t files hr ht h
    obtain ⟨m, hd, hs⟩ := hr.each q (List.mem_cons_self ..)
    obtain ⟨path, hc⟩ := writeTargets_cons (rest := rest) hd
    rw [hc t] at h
    cases hw : writeMakefile m t with
    | none => rw [hw] at h; cases h
    | some x =>
      obtain ⟨lines, t'⟩ := x
      rw [hw] at h
      dsimp only at h
      cases hf : writeTargets r needed dicts rest t' with
      | none => rw [hf] at h; cases h
      | some fs =>
        rw [hf] at h
        injection h with h
        subst h
        obtain ⟨i1, i2⟩ := ih (q :: done) t' fs hr.next (table_next hd hs ht hw) hf
        constructor
        · intro x hx mx hdx
          rcases List.mem_cons.mp hx with rfl | hx
          · rw [described_unique hdx hd]
            have hin : ∀ d ∈ m.spec.dependencies, d ∈ done := fun d hdd => by
              simpa using hr.order [] x rest rfl m hd d hdd
            exact ⟨path, lines, t, t', List.mem_cons_self .., hw, selfOk_target hs ht,
              fun d hdd md hmd => ht.file d (hin d hdd) md hmd,
              fun d hdd md hmd hl => ht.lib d (hin d hdd) md hmd hl⟩
          · obtain ⟨p', l', t1, t2, h1, h2⟩ := i1 x hx mx hdx
            exact ⟨p', l', t1, t2, List.mem_cons_of_mem _ h1, h2⟩
        · intro e he
          rcases List.mem_cons.mp he with rfl | he
          · exact ⟨m, t, t', hw⟩
          · exact i2 e he

theorem build_rest (ok : BuildOk r needed dicts list) : RestOk r needed dicts list [] :=
  ⟨ok.each, fun pre q post h m hm d hd => by
    rw [List.append_nil]; exact ok.order pre q post h m hm d hd, (by simp)⟩

theorem table_nil : TableOk r needed dicts ⟨[], []⟩ [] :=
  ⟨(by simp), (by simp), (by simp), (by simp)⟩

/-- C73: the makefiles of all targets are written. -/
theorem C73_written (ok : BuildOk r needed dicts list) :
    ∃ files, writeTargets r needed dicts list ⟨[], []⟩ = some files :=
  writeTargets_isSome list [] _ (build_rest ok) table_nil

/-- The rules of one of the makefiles are among those of the build. -/
theorem rules_of {files : List (Str × List MkLine)} {rules : List MakeItem}
    (hw : ∀ e ∈ files, ∃ m t1 t2, writeMakefile m t1 = some (e.2, t2)) (hr : RulesOf v0 files rules)
    (hf : Fresh v0) {e : Str × List MkLine} (he : e ∈ files) :
    ∃ v, Fresh v ∧ ∀ i ∈ rulesFrom v e.2, i ∈ rules := by
  obtain ⟨order, hp, rfl⟩ := hr
  obtain ⟨pre, post, rfl⟩ := List.append_of_mem (hp.mem_iff.mpr he)
  refine ⟨varsAfter v0 (pre.flatMap (·.2)), fun n hn => ?_, fun i hi => ?_⟩
  · rw [not_sets_aget, hf n hn]
    rintro ⟨l, hl, hs⟩
    obtain ⟨x, hx, hl⟩ := List.mem_flatMap.mp hl
    obtain ⟨m, t1, t2, hm⟩ := hw x (hp.mem_iff.mp (List.mem_append_left _ hx))
    exact lines_header hm hn ⟨l, hl, hs⟩
  · rw [List.flatMap_append, rulesFrom_append, List.flatMap_cons, rulesFrom_append]
    exact List.mem_append_right _ (List.mem_append_left _ hi)

section build

variable {files : List (Str × List MkLine)} {rules : List MakeItem}

/-- The makefile of a target and its rules among those of the build. -/
theorem build_at (ok : BuildOk r needed dicts list)
    (h : writeTargets r needed dicts list ⟨[], []⟩ = some files) (hf : Fresh v0)
    (hr : RulesOf v0 files rules) {q : Str} (hq : q ∈ list) {m : MkSelf}
    (hm : Described r needed dicts q m) :
    ∃ lines t1 t2 v, WrittenAt r needed dicts m lines t1 t2 ∧ SelfOk m ∧ Fresh v ∧
      ∀ i ∈ rulesFrom v lines, i ∈ rules := by
  obtain ⟨h1, h2⟩ := writeTargets_at list [] _ files (build_rest ok) table_nil h
  obtain ⟨path, lines, t1, t2, he, hw⟩ := h1 q hq m hm
  obtain ⟨v, hv, hsub⟩ := rules_of h2 hr hf he
  obtain ⟨m', hm', hs⟩ := ok.each q hq
  rw [described_unique hm' hm] at hs
  exact ⟨lines, t1, t2, v, hw, hs, hv, hsub⟩

theorem product_reached (ok : BuildOk r needed dicts list)
    (h : writeTargets r needed dicts list ⟨[], []⟩ = some files) (hf : Fresh v0)
    (hr : RulesOf v0 files rules) {q : Str} (hq : q ∈ list) {m : MkSelf}
    (hm : Described r needed dicts q m) {x : Str} (hx : Reaches rules x (installedFile m)) :
    Reaches rules x (productFile m) := by
  obtain ⟨lines, t1, t2, v, hw, hs, hv, hsub⟩ := build_at ok h hf hr hq hm
  by_cases he : installedFile m = productFile m
  · rwa [he] at hx
  · exact .trans hx (reaches_of (madeFrom_mono hsub (C73_installed hw.write hw.ok hv hs.product he).1))

/-- C73: the name of a target makes its product. -/
theorem C73_name (ok : BuildOk r needed dicts list)
    (h : writeTargets r needed dicts list ⟨[], []⟩ = some files) (hf : Fresh v0)
    (hr : RulesOf v0 files rules) (q : Str) (hq : q ∈ list) (m : MkSelf)
    (hm : Described r needed dicts q m) :
    Reaches rules m.spec.targetName (installedFile m) ∧
      Reaches rules m.spec.targetName (productFile m) := by
  obtain ⟨lines, t1, t2, v, hw, hs, hv, hsub⟩ := build_at ok h hf hr hq hm
  have := reaches_mono hsub (reaches_of (C73_alias hw.write hw.ok hv hs.product hs.name))
  exact ⟨this, product_reached ok h hf hr hq hm this⟩

/-- C73: `all` makes the products of all targets that the given build files need. -/
theorem C73_everything (ok : BuildOk r needed dicts list)
    (h : writeTargets r needed dicts list ⟨[], []⟩ = some files) (hf : Fresh v0)
    (hr : RulesOf v0 files rules) (targets : Targets) (buildFile : Str) (found : List Str)
    (hall : AllTargets list targets buildFile found) (hneeded : ∀ x ∈ found, x ∈ needed)
    (root : Str) (hroot : root ∈ list) (hb : BuildFile root = some buildFile)
    (q : Str) (hpath : Relation.ReflTransGen targets.Mentions root q) (hq : q ∈ list) (m : MkSelf)
    (hm : Described r needed dicts q m) :
    Reaches rules c!"all" (installedFile m) ∧ Reaches rules c!"all" (productFile m) := by
  obtain ⟨lines, t1, t2, v, hw, hs, hv, hsub⟩ := build_at ok h hf hr hq hm
  have hin : q ∈ needed := by
    refine hneeded q ?_
    obtain ⟨deps, rfl, -, hdeps⟩ := C62_all_targets _ _ _ _ hall
    by_cases hown : q ∈ list ∧ BuildFile q = some buildFile
    · exact List.mem_append_left _ (List.mem_filter.mpr ⟨hown.1, by simpa using hown.2⟩)
    · exact List.mem_append_right _ ((hdeps q).mpr ⟨hown, root, hroot, hb, hpath⟩)
  have hpart : m.partOfAll = true := by
    obtain ⟨_, _, _, _, _, _, rfl⟩ := hm
    exact decide_eq_true hin
  have := reaches_mono hsub (C73_all hw.write hw.ok hv hs.product hs.name hpart)
  exact ⟨this, product_reached ok h hf hr hq hm this⟩

/-- C73: before a product is made, the product of every target that it depends on is made, if it
has sources to compile, actions, rules or copies, or is a group, or if that product is a library. -/
theorem C73_depends (ok : BuildOk r needed dicts list)
    (h : writeTargets r needed dicts list ⟨[], []⟩ = some files) (hf : Fresh v0)
    (hr : RulesOf v0 files rules) (q : Str) (hq : q ∈ list) (m : MkSelf)
    (hm : Described r needed dicts q m)
    (htype : m.spec.type ∈ [c!"executable", c!"static_library", c!"shared_library",
      c!"loadable_module", c!"none"])
    (d : Str) (hd : d ∈ m.spec.dependencies) (md : MkSelf) (hmd : Described r needed dicts d md)
    (hwhy : compiledSources m ≠ [] ∨ specialFiles m ≠ [] ∨ m.spec.type = c!"none" ∨
      md.spec.type ∈ [c!"static_library", c!"shared_library"]) :
    Reaches rules (productFile m) (productFile md) := by
  obtain ⟨lines, t1, t2, v, hw, hs, hv, hsub⟩ := build_at ok h hf hr hq hm
  have hdl : d ∈ list := by
    obtain ⟨pre, post, rfl⟩ := List.append_of_mem hq
    exact List.mem_append_left _ (ok.order pre q post rfl m hm d hd)
  obtain ⟨_, _, _, _, hwd, hsd, _, _⟩ := build_at ok h hf hr hdl hmd
  have hdep : DependencyFile t1 m.spec (installedFile md) :=
    ⟨d, hd, Or.inl ⟨(installedFile_text hwd.ok hsd.product).1, hw.file d hd md hmd⟩⟩
  have special : specialFiles m ≠ [] → Reaches rules (productFile m) (productFile md) := by
    intro hne
    obtain ⟨f, hfile⟩ := List.exists_mem_of_ne_nil _ hne
    refine product_reached ok h hf hr hdl hmd ?_
    exact .trans (.single (waitsFor_mono hsub (C72_output_waits hw.write hw.ok hv f hfile)))
      (.single (waitsFor_mono hsub (C72_special_wait hw.write hw.ok hv f hfile _ hdep)))
  by_cases hn : m.spec.type = c!"none"
  · refine product_reached ok h hf hr hdl hmd ?_
    exact reaches_of (madeFrom_mono hsub ((C72_group hw.write hw.ok hv hn).1 d hd _
      (installedFile_text hwd.ok hsd.product).1 (hw.file d hd md hmd)))
  have hlinked : m.spec.type ∈ [c!"executable", c!"static_library", c!"shared_library",
      c!"loadable_module"] := by
    simp only [List.mem_cons, List.not_mem_nil, or_false] at htype ⊢
    tauto
  have hlink := C72_link hw.write hw.ok hv hlinked
  rcases hwhy with hc | hc | hc | hc
  · obtain ⟨s, hsrc⟩ := List.exists_mem_of_ne_nil _ hc
    have hall : allSources m.spec ≠ [] := List.ne_nil_of_mem (List.mem_filter.mp hsrc).1
    obtain ⟨p, hp, -⟩ := writeMakefile_parts hw.write
    have hobj : objectFile (withOutput m) s ∈ listValue (varsAfter v lines) c!"OBJS" := by
      rw [hp, (objs_value p (TargetOk.withOutput hw.ok) hv (by rw [allSources_eq] at hall; exact hall)).1]
      refine List.mem_map_of_mem ?_
      rw [compiledSources_eq] at hsrc
      exact hsrc
    refine product_reached ok h hf hr hdl hmd ?_
    exact .trans (reaches_of (madeFrom_mono hsub (hlink.1 hall _ hobj)))
      (.single (waitsFor_mono hsub (C72_objects_wait hw.write hw.ok hv hall _ hobj _ (Or.inl hdep))))
  · exact special hc
  · exact absurd hc hn
  · refine reaches_of (madeFrom_mono hsub (hlink.2.2.1 d hd _ (hw.lib d hd md hmd ?_)))
    simpa [IsLibrary] using hc

end build

/-! ### A build of two targets -/

/-- A library. -/
def utilSpec : MkSpec :=
  { targetName := c!"util", type := c!"static_library", toolset := c!"target", sources := [c!"util.c"] }

def exampleRun : MakeRun :=
  { cwd := [c!"p"], flavor := c!"linux", depth := c!".", toplevel := c!".", sha1 := fun _ => c!"d1" }

def exampleList : List Str := [c!"lib/a.gyp:util#target", c!"lib/a.gyp:prog#target"]

def exampleDicts : List (Str × MkSpec) :=
  [(c!"lib/a.gyp:util#target", utilSpec), (c!"lib/a.gyp:prog#target", exampleTarget.spec)]

def exampleUtil : MkSelf :=
  { flavor := c!"linux", srcdirPrefix := [], sha1 := fun _ => c!"d1"
    qualified := c!"lib/a.gyp:util#target", path := c!"lib", spec := utilSpec }

theorem exampleBuild_util : Described exampleRun exampleList exampleDicts c!"lib/a.gyp:util#target"
    exampleUtil := ⟨c!"lib/a.gyp", c!"util", c!"target", utilSpec, rfl, rfl, rfl⟩

theorem exampleBuild_prog : Described exampleRun exampleList exampleDicts c!"lib/a.gyp:prog#target"
    exampleTarget := ⟨c!"lib/a.gyp", c!"prog", c!"target", exampleTarget.spec, rfl, rfl, rfl⟩

theorem exampleUtil_ok : SelfOk exampleUtil where
  target :=
    { path_rel := rfl
      path := ⟨by unfold MkClean; decide, by decide⟩
      srcdir := Or.inl rfl
      toolset := ⟨by decide, by unfold MkClean; decide, by decide⟩
      name := ⟨by decide, by unfold MkClean; decide, by decide⟩
      digest := fun _ => (⟨by decide, by unfold MkClean; decide, by decide⟩ : MkWord c!"d1")
      sources := by
        intro s hs
        rw [show s = c!"util.c" from List.mem_singleton.mp hs]
        exact fileText_plain (by decide) (by unfold MkClean; decide) (by decide)
      actions := by intro a ha; cases ha
      rules := by intro a ha; cases ha
      copies := by intro a ha; cases ha
      product := by
        intro x hx
        rw [show x = [] from List.mem_singleton.mp hx]
        exact ⟨by simp [MkClean], .nil⟩
      productDir := by decide
      outputs := by simp
      linkDeps := by simp
      actionNames := by decide
      ruleNames := by decide
      configNames := by intro c hc; cases hc }
  product := by
    intro x hx
    rw [show x = [] from List.mem_singleton.mp hx]
    exact .nil
  name := by decide
  actions := by intro a ha; cases ha
  rules := by intro a ha; cases ha

theorem exampleTarget_self : SelfOk exampleTarget where
  target :=
    have ok := example_ok
    ⟨ok.1, ok.2, ok.3, ok.4, ok.5, ok.6, ok.7, ok.8, ok.9, ok.10, ok.11, ok.12, by simp, by simp,
      ok.15, ok.16, ok.17⟩
  product := by
    intro x hx
    rw [show x = [] from List.mem_singleton.mp hx]
    exact .nil
  name := by decide
  actions := by
    intro a ha
    rw [show a = _ from List.mem_singleton.mp ha]
    decide
  rules := by
    intro r hr s hs
    rw [show r = exampleRule from List.mem_singleton.mp hr] at hs ⊢
    refine ⟨⟨_, _, example_outputs s hs⟩, ?_⟩
    simp [exampleRule, expandAll, ExpandInputRoot, hasSub, startsWith]

theorem exampleBuild : BuildOk exampleRun exampleList exampleDicts exampleList where
  each := by
    intro q hq
    simp only [exampleList, List.mem_cons, List.not_mem_nil, or_false] at hq
    rcases hq with rfl | rfl
    · exact ⟨_, exampleBuild_util, exampleUtil_ok⟩
    · exact ⟨_, exampleBuild_prog, exampleTarget_self⟩
  order := by
    intro pre q post h m hm d hd
    match pre, h with
    | [], h =>
      injection h with h1 h2
      subst h1
      rw [described_unique hm exampleBuild_util] at hd
      cases hd
    | [x], h =>
      injection h with h1 h2
      injection h2 with h2 h3
      subst h1 h2
      rw [described_unique hm exampleBuild_prog] at hd
      exact hd
    | x :: y :: z, h =>
      have := congrArg List.length h
      simp [exampleList] at this

example : ∃ files, writeTargets exampleRun exampleList exampleDicts exampleList ⟨[], []⟩ = some files ∧
    ∀ rules, RulesOf [] files rules →
      Reaches rules c!"prog" c!"$(builddir)/prog" ∧
      Reaches rules c!"$(builddir)/prog" c!"$(obj).target/lib/libutil.a" ∧
      Reaches rules c!"util" c!"$(obj).target/lib/libutil.a" := by
  obtain ⟨files, h⟩ := C73_written exampleBuild
  refine ⟨files, h, fun rules hr => ⟨?_, ?_, ?_⟩⟩
  · exact (C73_name exampleBuild h fresh_nil hr _ (by decide) _ exampleBuild_prog).1
  · exact C73_depends exampleBuild h fresh_nil hr _ (by decide) _ exampleBuild_prog (by decide) _
      (by decide) _ exampleBuild_util (Or.inr (Or.inr (Or.inr (by decide))))
  · exact (C73_name exampleBuild h fresh_nil hr _ (by decide) _ exampleBuild_util).2

/-- The library belongs to the build of `lib/a.gyp`. -/
def exampleGraph : Targets :=
  [(c!"lib/a.gyp:util#target", { type := c!"static_library" }),
   (c!"lib/a.gyp:prog#target", { type := c!"executable", dependencies := some [c!"lib/a.gyp:util#target"] })]

example : ∃ files, writeTargets exampleRun exampleList exampleDicts exampleList ⟨[], []⟩ = some files ∧
    ∀ rules, RulesOf [] files rules →
      Reaches rules c!"all" c!"$(builddir)/prog" ∧
      Reaches rules c!"all" c!"$(obj).target/lib/libutil.a" := by
  obtain ⟨files, h⟩ := C73_written exampleBuild
  have hall : AllTargets exampleList exampleGraph c!"lib/a.gyp" exampleList := by
    refine ⟨[], ⟨⟨exampleList, []⟩, ?_, rfl, exampleList, .refl _, by decide⟩, by decide⟩
    refine .head (.visit _ c!"lib/a.gyp:util#target" _ (by decide) (by decide) rfl) ?_
    refine .head (.visit _ c!"lib/a.gyp:prog#target" _ (by decide) (by decide) rfl) ?_
    refine .head (.skip _ c!"lib/a.gyp:util#target" (by decide) (by decide)) ?_
    exact .refl
  refine ⟨files, h, fun rules hr => ⟨?_, ?_⟩⟩
  · exact (C73_everything exampleBuild h fresh_nil hr exampleGraph _ _ hall (fun _ h => h)
      c!"lib/a.gyp:prog#target" (by decide) (by decide) _ .refl (by decide) _ exampleBuild_prog).1
  · exact (C73_everything exampleBuild h fresh_nil hr exampleGraph _ _ hall (fun _ h => h)
      c!"lib/a.gyp:util#target" (by decide) (by decide) _ .refl (by decide) _ exampleBuild_util).2

example : ∃ lines t', writeMakefile (exampleAs c!"shared_library") exampleMade = some (lines, t') ∧
    MadeFrom (rulesFrom [] lines) c!"$(builddir)/libprog.so" c!"$(obj).target/lib/libprog.so" ∧
    HasRecipe (rulesFrom [] lines) c!"$(builddir)/libprog.so" [c!"$(call do_cmd,copy)"] ∧
    MadeFrom (rulesFrom [] lines) c!"prog" c!"$(builddir)/libprog.so" ∧
    Reaches (rulesFrom [] lines) c!"all" c!"$(builddir)/libprog.so" := by
  obtain ⟨lines, t', h⟩ := exampleAs_written c!"shared_library"
  have hp : ProductPlain (exampleAs c!"shared_library") := by
    intro x hx
    rw [show x = [] from List.mem_singleton.mp hx]
    exact .nil
  have h1 := C73_installed (v0 := []) h (exampleAs_ok _) fresh_nil hp (by decide)
  have h2 := C73_alias (v0 := []) h (exampleAs_ok _) fresh_nil hp (by decide)
  have h3 := C73_all (v0 := []) h (exampleAs_ok _) fresh_nil hp (by decide) rfl
  exact ⟨lines, t', h, h1.1, h1.2, h2, h3⟩

/-! ### The files -/

theorem walk_makefile {r : MakeRun} (hc : ∀ c ∈ r.cwd, validName c) (hg : r.generatorOutput = [])
    (buildFile target toolset : Str) (ht : '/' ∉ target ++ toolset ++ r.suffix) :
    walk r.cwd.reverse (makefilePath r buildFile (makefileName r target toolset)) =
      makefileName r target toolset :: walk r.cwd.reverse (dirname buildFile) := by
  unfold makefilePath
  dsimp only
  rw [if_pos hg, walk_join, walk_join, walk_RelativePath hc, walk_component]
  · unfold walkStep
    have hlen : 3 ≤ (makefileName r target toolset).length := by simp [makefileName]; omega
    rw [if_neg, if_neg, if_neg] <;> intro e <;> rw [e] at hlen <;> simp at hlen
  · unfold makefileName
    simp only [List.mem_append, not_or] at ht ⊢
    exact ⟨⟨⟨⟨ht.1.1, by decide⟩, ht.1.2⟩, ht.2⟩, by decide⟩

theorem dot_inj {a b x y : Str} (hx : '.' ∉ x) (hy : '.' ∉ y) (h : a ++ c!"." ++ x = b ++ c!"." ++ y) :
    a = b ∧ x = y := by
  have e : a ++ '.' :: x = b ++ '.' :: y := by simpa using h
  have h1 := rsplit1_append (a := a) hx
  rw [e, rsplit1_append hy] at h1
  simp only [Option.some.injEq, Prod.mk.injEq] at h1
  exact ⟨h1.1.symm, h1.2.symm⟩

/-- C73: two targets have the same makefile only if their build files are in the same directory and
they have the same name and toolset. -/
theorem C73_files (r : MakeRun) (hc : ∀ c ∈ r.cwd, validName c) (hg : r.generatorOutput = [])
    (hs : '/' ∉ r.suffix) (b₁ b₂ n₁ n₂ s₁ s₂ : Str) (hn : '/' ∉ n₁ ++ n₂ ++ s₁ ++ s₂)
    (hd : '.' ∉ s₁ ++ s₂)
    (h : walk r.cwd.reverse (makefilePath r b₁ (makefileName r n₁ s₁)) =
      walk r.cwd.reverse (makefilePath r b₂ (makefileName r n₂ s₂))) :
    walk r.cwd.reverse (dirname b₁) = walk r.cwd.reverse (dirname b₂) ∧ n₁ = n₂ ∧ s₁ = s₂ := by
  simp only [List.mem_append, not_or] at hn hd
  rw [walk_makefile hc hg _ _ _ (by simp [hn, hs]), walk_makefile hc hg _ _ _ (by simp [hn, hs])] at h
  injection h with h1 h2
  refine ⟨h2, ?_⟩
  unfold makefileName at h1
  rw [List.append_assoc _ r.suffix, List.append_assoc _ r.suffix] at h1
  exact dot_inj hd.1 hd.2 (List.append_cancel_right h1)

example : makefilePath exampleRun c!"lib/a.gyp" (makefileName exampleRun c!"prog" c!"target") =
    c!"./lib/prog.target.mk" := by decide

/-- C73, what the code does not do: with a directory for the output, makefiles of targets of
different directories can be the same file (here of `/p/out/a.gyp` and `/p/d/a.gyp`, with the output
in `/p/d/out`). -/
theorem C73_files_output : ∃ (r : MakeRun) (b₁ b₂ : Str), (∀ c ∈ r.cwd, validName c) ∧
    walk r.cwd.reverse (dirname b₁) ≠ walk r.cwd.reverse (dirname b₂) ∧
    ∀ n s, walk r.cwd.reverse (makefilePath r b₁ (makefileName r n s)) =
      walk r.cwd.reverse (makefilePath r b₂ (makefileName r n s)) := by
  refine ⟨{ exampleRun with cwd := [c!"p", c!"d"], generatorOutput := c!"out" }, c!"../out/a.gyp",
    c!"a.gyp", by decide, by decide, fun n s => ?_⟩
  unfold makefilePath
  dsimp only
  rw [if_neg (by decide), if_neg (by decide), walk_join, walk_join _ _ (makefileName _ n s)]
  have : walk [c!"p", c!"d"].reverse (pathJoin (pathJoin c!"." c!"out")
      (RelativePath [c!"p", c!"d"] (dirname c!"../out/a.gyp") c!".")) =
    walk [c!"p", c!"d"].reverse (pathJoin (pathJoin c!"." c!"out")
      (RelativePath [c!"p", c!"d"] (dirname c!"a.gyp") c!".")) := by decide
  exact congrArg (fun l => walk l _) this

end Gyp
