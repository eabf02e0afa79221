import Verif.Props.MakeOrder
import Verif.Spec.MakeBuild
/-
The rules for installing a target, its alias and `all`.
-/
namespace Gyp
open Spec

variable {m : MkSelf} {t t' : MkOutputs} {lines : List MkLine} {v0 : MakeVars}

theorem own_header (s : MkSpec) : ∀ n ∈ headerVars, aget (ownVars s) n = none := by
  intro n hn
  simp only [headerVars, List.mem_cons, List.not_mem_nil, or_false] at hn
  rcases hn with rfl | rfl | rfl <;> rfl

theorem product_plain (ok : TargetOk m t) (hp : ProductPlain m) :
    productFile m = ComputeOutput m ∧ DepText (productFile m) := by
  obtain ⟨h1, h2, h3⟩ := output_text (R := headerVars) (fun n hn => hn) ok.name ok.toolset ok.path
    (fun x hx => ⟨(ok.product x hx).1, hp x hx⟩) ok.productDir
  have : productFile m = ComputeOutput m := expand_stable _ (own_header _) h1
  exact ⟨this, by rw [this]; exact ⟨h3, h2, h1⟩⟩

theorem header_noSlash : ∀ n ∈ headerVars, '/' ∉ n := by decide

theorem installed_iff (s : MkSpec) : installed s = true ↔ s.standalone = true ∨ s.type ∈ installedTypes := by
  unfold installed
  rw [Bool.or_eq_true, decide_eq_true_eq]
  rfl

theorem dep_append {a b : Str} (ha : DepText a) (hb : RefText headerVars b ∧ MkClean b) :
    DepText (a ++ b) :=
  ⟨by simp [ha.1], ha.2.1.append hb.2, RefText.append ha.2.2 hb.1⟩

theorem dep_builddir : DepText c!"$(builddir)/" :=
  ⟨by decide, by unfold MkClean; decide,
    .ref (n := c!"builddir") (s := c!"/") (by decide) (by decide) (.plain (by decide))⟩

theorem dep_basename {x : Str} (h : DepText x) : RefText headerVars (basename x) ∧ MkClean (basename x) :=
  ⟨basename_ref header_noSlash h.2.2, fun c hc => h.2.1 c (mem_basename hc)⟩

theorem installedFile_text (ok : TargetOk m t) (hp : ProductPlain m) : DepText (installedFile m) := by
  have h := product_plain ok hp
  unfold installedFile
  split
  · split
    · exact dep_append (a := c!"$(builddir)/lib." ++ m.spec.toolset ++ c!"/")
        (dep_append (dep_append (b := c!"lib.") dep_builddir ⟨.plain (by decide), by unfold MkClean; decide⟩ |>
          fun h' => dep_append h' ⟨.plain ok.toolset.2.2, ok.toolset.2.1⟩)
          ⟨.plain (by decide), by unfold MkClean; decide⟩) (dep_basename h.2)
    · exact dep_append dep_builddir (dep_basename h.2)
  · exact h.2

/-- What is entered into the table. -/
theorem recorded (ok : TargetOk m t) (hp : ProductPlain m) :
    (if installed m.spec then InstallPath (withOutput m) else (withOutput m).output) =
      installedFile m := by
  have h := (product_plain ok hp).1
  unfold installedFile
  by_cases hi : installed m.spec = true
  · rw [if_pos hi, if_pos ((installed_iff _).mp hi), h]
    unfold InstallPath withOutput
    dsimp only
    rw [if_pos hi]
    split <;> rfl
  · rw [if_neg hi, if_neg (fun hc => hi ((installed_iff _).mpr hc)), h]
    rfl

theorem install_path (ok : TargetOk m t) (hp : ProductPlain m) (hi : installed m.spec = true) :
    InstallPath (withOutput m) = installedFile m := by
  have := recorded ok hp
  rwa [if_pos hi] at this

theorem alias_parts {ls : List MkLine} (h : aliasRules m = some ls)
    (hc : (m.output ≠ [] ∧ m.output ≠ m.spec.targetName) ∧ m.spec.type ∉ installableTypes) :
    .rule { outputs := [m.spec.targetName], inputs := [m.output]
            comment := some c!"Add target alias", phony := true
            digest := m.sha1 m.spec.targetName } ∈ ls ∧
    (m.partOfAll = true →
      .rule { outputs := [c!"all"], inputs := [m.spec.targetName]
              comment := some c!"Add target alias to \"all\" target.", phony := true
              digest := m.sha1 m.spec.targetName } ∈ ls) := by
  unfold aliasRules at h
  rw [if_pos hc] at h
  split at h
  · rename_i a b ha hb
    injection h with h
    have ha := makeRule_some ha
    have hb := makeRule_some hb
    subst ha hb
    by_cases hp : m.partOfAll = true
    · rw [if_pos hp] at h
      subst h
      exact ⟨by simp, fun _ => by simp⟩
    · rw [if_neg hp] at h
      subst h
      exact ⟨by simp, fun h => absurd h hp⟩
  · cases h

/-- The groups of rules for an installed target. -/
structure InstallParts (m : MkSelf) (ls : List MkLine) : Prop where
  name : .rule { outputs := [m.spec.targetName], inputs := [InstallPath m]
                 comment := some c!"Add target alias", phony := true
                 digest := m.sha1 m.spec.targetName } ∈ ls
  copy : InstallPath m ≠ m.output → .rule (doCmdRule m [InstallPath m] [m.output] c!"copy"
    (some (c!"Copy this to the " ++ fileDesc m ++ c!" output path."))) ∈ ls
  link : m.flavor = c!"zos" ∧ m.spec.type = c!"shared_library" →
    .rule (doCmdRule m [UnversionedSidedeck (InstallPath m)] [InstallPath m] c!"symlink"
      (some (c!"Symlnk this to the " ++ fileDesc m ++ c!" output path."))) ∈ ls ∧
    .rule { outputs := [c!"all"]
            inputs := [UnversionedSidedeck (InstallPath m), SharedObjectFromSidedeck (InstallPath m)]
            comment := some (c!"Add " ++ fileDesc m ++ c!" to \"all\" target."), phony := true
            digest := m.sha1 m.spec.targetName } ∈ ls
  all : ¬ (m.flavor = c!"zos" ∧ m.spec.type = c!"shared_library") → m.partOfAll = true →
    .rule { outputs := [c!"all"], inputs := [InstallPath m]
            comment := some (c!"Add " ++ fileDesc m ++ c!" to \"all\" target."), phony := true
            digest := m.sha1 m.spec.targetName } ∈ ls

theorem install_parts {ls : List MkLine} (h : installRules m = some ls) (hi : installed m.spec = true) :
    InstallParts m ls := by
  unfold installRules at h
  rw [if_pos hi] at h
  dsimp only at h
  obtain ⟨a0, b0, e0, h0, rfl⟩ := groups_cons h
  obtain ⟨a1, b1, e1, h1, rfl⟩ := groups_cons h0
  obtain ⟨a2, b2, e2, h2, rfl⟩ := groups_cons h1
  obtain ⟨a3, b3, e3, h3, rfl⟩ := groups_cons h2
  obtain ⟨a4, b4, e4, h4, rfl⟩ := groups_cons h3
  have := groups_nil h4
  subst this
  have e0 := makeRule_some e0
  refine ⟨?_, ?_, ?_, ?_⟩
  · rw [e0]; simp
  · intro hc
    rw [if_pos hc] at e1
    rw [WriteDoCmd_some e1]; simp
  · intro hz
    rw [if_pos hz] at e2 e4
    obtain ⟨c0, d0, f0, g0, rfl⟩ := groups_cons e2
    obtain ⟨c1, d1, f1, g1, rfl⟩ := groups_cons g0
    rw [WriteDoCmd_some f1, makeRule_some e4]
    exact ⟨by simp, by simp⟩
  · intro hz hp
    rw [if_neg hz, if_pos hp] at e4
    rw [makeRule_some e4]; simp

theorem fileDesc_line (m : MkSelf) : fileDesc m ∈ [c!"shared library", c!"static library", c!"executable"] := by
  unfold fileDesc
  split
  · simp
  · split <;> simp

theorem oneLine_desc {a b : Str} (h : ∀ x ∈ [c!"shared library", c!"static library", c!"executable"],
    OneLine (a ++ x ++ b)) : ∀ x, some (a ++ fileDesc m ++ b) = some x → OneLine x := by
  intro x hx
  injection hx with hx
  subst hx
  exact h _ (fileDesc_line m)

end Gyp
