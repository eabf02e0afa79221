import Verif.Proofs.MakeDeep
import Verif.Proofs.MakeState
import Verif.Proofs.MakeOrderBase
/-
Helper lemmas for `Verif/Props/MakeFlags.lean`: variables for single targets, and which parts of a
makefile set them.
-/
namespace Gyp
open Spec

/-- No variable of this name is set for single targets. -/
def NoLocal (ls : List MkLine) (n : Str) : Prop := ∀ t x, MkLine.setFor t n x ∉ ls

theorem NoLocal.append {a b : List MkLine} {n : Str} (ha : NoLocal a n) (hb : NoLocal b n) :
    NoLocal (a ++ b) n := by
  intro t x h
  rcases List.mem_append.mp h with h | h
  · exact ha t x h
  · exact hb t x h

theorem localValues_name {v : MakeVars} {ls : List MkLine} {e : Str × Str × Str}
    (h : e ∈ localValues v ls) : e.2.1 = c!"TOOLSET" ∨ ∃ t x, MkLine.setFor t e.2.1 x ∈ ls := by
  induction ls generalizing v with
  | nil => cases h
  | cons l ls ih =>
    have rest : ∀ v', e ∈ localValues v' ls →
        e.2.1 = c!"TOOLSET" ∨ ∃ t x, MkLine.setFor t e.2.1 x ∈ l :: ls := fun v' h' =>
      (ih h').imp_right fun ⟨t, x, hx⟩ => ⟨t, x, List.mem_cons_of_mem _ hx⟩
    cases l with
    | setFor t n x =>
      rcases List.mem_append.mp h with h | h
      · obtain ⟨y, -, rfl⟩ := List.mem_map.mp h
        exact Or.inr ⟨t, x, List.mem_cons_self ..⟩
      · exact rest _ h
    | rule a =>
      rcases List.mem_append.mp h with h | h
      · obtain ⟨i, -, hi⟩ := List.mem_flatMap.mp h
        cases i with
        | rule => cases hi
        | setVar ts text =>
          simp only [ruleLocals] at hi
          split at hi
          · obtain ⟨y, -, rfl⟩ := List.mem_map.mp hi
            exact Or.inl rfl
          · cases hi
      · exact rest _ h
    | text => exact rest _ h
    | set => exact rest _ h
    | setLater => exact rest _ h
    | list => exact rest _ h
    | add => exact rest _ h
    | pattern => exact rest _ h

theorem localValues_cons (v : MakeVars) (l : MkLine) (ls : List MkLine) :
    localValues v (l :: ls) = localValues v [l] ++ localValues (putVar v l) ls := by
  exact localValues_append v [l] ls

/-- The last one counts. -/
theorem localValue_last {v0 : MakeVars} {pre post : List MkLine} {t n x y : Str}
    (hy : y ∈ Spec.names (real (valuesAfter v0 pre) t)) (hn : NoLocal post n) (hT : n ≠ c!"TOOLSET") :
    localValue (localValues v0 (pre ++ .setFor t n x :: post)) y n =
      some (real (valuesAfter v0 pre) x) := by
  have hpost : ∀ v, (localValues v post).filter (fun e => e.1 = y ∧ e.2.1 = n) = [] := by
    intro v
    rw [List.filter_eq_nil_iff]
    rintro e he h
    have h := of_decide_eq_true h
    rcases localValues_name he with h' | ⟨t', x', h'⟩
    · exact hT (h.2 ▸ h')
    · rw [h.2] at h'
      exact hn t' x' h'
  unfold localValue
  rw [localValues_append, List.filter_append, localValues, List.filter_append, hpost, List.append_nil,
    List.getLast?_append]
  have hne : ((Spec.names (real (valuesAfter v0 pre) t)).map fun y =>
      (y, n, real (valuesAfter v0 pre) x)).filter (fun e => e.1 = y ∧ e.2.1 = n) ≠ [] := by
    refine List.ne_nil_of_mem (a := (y, n, real (valuesAfter v0 pre) x)) ?_
    exact List.mem_filter.mpr ⟨List.mem_map.mpr ⟨y, hy, rfl⟩, by simp⟩
  have hlast := List.getLast?_eq_some_getLast hne
  rw [hlast]
  simp only [Option.some_or, Option.map_some, Option.some.injEq]
  obtain ⟨z, -, hz⟩ := List.mem_map.mp (List.mem_filter.mp (List.getLast_mem hne)).1
  rw [← hz]

/-- All variables `TOOLSET` for single targets have the value of the global one. -/
theorem localValues_toolset {v : MakeVars} {ls : List MkLine} (hs : ¬ Sets ls c!"TOOLSET")
    (hf : ∀ t x, .setFor t c!"TOOLSET" x ∈ ls → x = c!"$(TOOLSET)") {e : Str × Str × Str}
    (he : e ∈ localValues v ls) (hn : e.2.1 = c!"TOOLSET") : e.2.2 = valueOf v c!"TOOLSET" := by
  induction ls generalizing v with
  | nil => cases he
  | cons l ls ih =>
    have hs' : ¬ Sets ls c!"TOOLSET" := fun ⟨x, hx, h⟩ => hs ⟨x, List.mem_cons_of_mem _ hx, h⟩
    have hl : setsVar l ≠ some c!"TOOLSET" := fun h => hs ⟨l, List.mem_cons_self .., h⟩
    have hv : valueOf (putVar v l) c!"TOOLSET" = valueOf v c!"TOOLSET" := by
      unfold valueOf
      rw [aget_putVar hl]
    have rest : e ∈ localValues (putVar v l) ls → e.2.2 = valueOf v c!"TOOLSET" := fun h => by
      rw [ih hs' (fun t x hx => hf t x (List.mem_cons_of_mem _ hx)) h, hv]
    cases l with
    | setFor t n x =>
      rcases List.mem_append.mp he with h | h
      · obtain ⟨y, -, rfl⟩ := List.mem_map.mp h
        dsimp only at hn ⊢
        subst hn
        rw [hf t x (List.mem_cons_self ..)]
        unfold real
        rw [show c!"$(TOOLSET)" = c!"$(" ++ c!"TOOLSET" ++ c!")" from rfl,
          deep_ref _ (by unfold NameText; decide)]
        rfl
      · exact rest h
    | rule a =>
      rcases List.mem_append.mp he with h | h
      · obtain ⟨i, -, hi⟩ := List.mem_flatMap.mp h
        cases i with
        | rule => cases hi
        | setVar ts text =>
          simp only [ruleLocals] at hi
          split at hi
          · obtain ⟨y, -, rfl⟩ := List.mem_map.mp hi
            rfl
          · cases hi
      · exact rest h
    | text => exact rest he
    | set => exact rest he
    | setLater => exact rest he
    | list => exact rest he
    | add => exact rest he
    | pattern => exact rest he

theorem localValue_all {ls : List (Str × Str × Str)} {y n x : Str} (hx : (y, n, x) ∈ ls)
    (hall : ∀ e ∈ ls, e.2.1 = n → e.2.2 = x) : localValue ls y n = some x := by
  unfold localValue
  have hne : ls.filter (fun e => e.1 = y ∧ e.2.1 = n) ≠ [] :=
    List.ne_nil_of_mem (List.mem_filter.mpr ⟨hx, by simp⟩)
  rw [List.getLast?_eq_some_getLast hne, Option.map_some]
  have := List.mem_filter.mp (List.getLast_mem hne)
  rw [hall _ this.1 (by simpa using (of_decide_eq_true this.2).2)]

theorem localValue_none {v : MakeVars} {ls : List MkLine} {y n : Str} (hn : NoLocal ls n)
    (hT : n ≠ c!"TOOLSET") : localValue (localValues v ls) y n = none := by
  unfold localValue
  rw [List.filter_eq_nil_iff.mpr]
  · rfl
  · rintro e he h
    have h := of_decide_eq_true h
    rcases localValues_name he with h' | ⟨t', x', h'⟩
    · exact hT (h.2 ▸ h')
    · rw [h.2] at h'
      exact hn t' x' h'

/-! ### The variables for single targets in the parts of a makefile -/

variable {m : MkSelf} {t : MkOutputs}

/-- The names of variables for single targets are in the list. -/
def LocalsIn (ls : List MkLine) (allowed : List Str) : Prop :=
  ∀ t n x, MkLine.setFor t n x ∈ ls → n ∈ allowed

theorem LocalsIn.no {ls : List MkLine} {allowed : List Str} (h : LocalsIn ls allowed) {n : Str}
    (hn : n ∉ allowed) : NoLocal ls n := fun t x hx => hn (h t n x hx)

theorem LocalsIn.append {a b : List MkLine} {l : List Str} (ha : LocalsIn a l) (hb : LocalsIn b l) :
    LocalsIn (a ++ b) l := by
  intro t n x h
  rcases List.mem_append.mp h with h | h
  · exact ha t n x h
  · exact hb t n x h

theorem LocalsIn.flatten {parts : List (List MkLine)} {l : List Str} (h : ∀ p ∈ parts, LocalsIn p l) :
    LocalsIn parts.flatten l := by
  intro t n x hx
  obtain ⟨p, hp, hx⟩ := List.mem_flatten.mp hx
  exact h p hp t n x hx

theorem LocalsIn.mono {a : List MkLine} {l l' : List Str} (ha : LocalsIn a l) (h : ∀ n ∈ l, n ∈ l') :
    LocalsIn a l' := fun t n x hx => h n (ha t n x hx)

theorem LocalsIn.none {a : List MkLine} {l : List Str} (h : ∀ t n x, MkLine.setFor t n x ∉ a) :
    LocalsIn a l := fun t n x hx => absurd hx (h t n x)

theorem action_locals {a : MkAction} {ls : List MkLine} (h : writeAction m a = some ls) :
    LocalsIn ls [c!"obj", c!"builddir"] := by
  obtain ⟨first, -, rfl, -⟩ := writeAction_some h
  intro t n x hx
  simp only [List.mem_append, List.mem_cons, List.not_mem_nil, or_false, reduceCtorEq, false_or,
    MkLine.setFor.injEq] at hx
  rcases hx with ⟨-, rfl, -⟩ | ⟨-, rfl, -⟩ <;> simp

theorem actions_locals {as : List MkAction} {ls : List MkLine} (h : WriteActions m as = some ls) :
    LocalsIn ls [c!"obj", c!"builddir"] := by
  obtain ⟨parts, h1, rfl⟩ := WriteActions_some h
  refine (LocalsIn.flatten fun p hp => ?_).append (.none (by simp))
  have : some p ∈ as.map (writeAction m) := by rw [h1]; exact List.mem_map.mpr ⟨p, hp, rfl⟩
  obtain ⟨a, -, ha⟩ := List.mem_map.mp this
  exact action_locals ha

theorem ruleSources_locals {r : MkRule} {count : Nat} {ss : List Str} {ls : List MkLine} {o : List Str}
    (h : writeRuleSources m r count ss = some (ls, o)) : LocalsIn ls [c!"obj", c!"builddir"] := by
  induction ss generalizing count ls o with
  | nil =>
    simp only [writeRuleSources, Option.some.injEq, Prod.mk.injEq] at h
    rw [← h.1]
    exact .none (by simp)
  | cons s ss ih =>
    rw [writeRuleSources] at h
    split at h
    · rename_i a oa b ob h1 h2
      simp only [Option.some.injEq, Prod.mk.injEq] at h
      rw [← h.1]
      refine LocalsIn.append ?_ (ih h2)
      obtain ⟨outs, action, first, -, -, -, -, -, rfl⟩ := writeRuleSource_some h1
      intro t n x hx
      simp only [List.mem_append, List.mem_cons, List.not_mem_nil, or_false, reduceCtorEq, false_or,
        MkLine.setFor.injEq] at hx
      rcases hx with ⟨-, rfl, -⟩ | ⟨-, rfl, -⟩ <;> simp
    · cases h

theorem rules_locals {rs : List MkRule} {ls : List MkLine} (h : WriteRules m rs = some ls) :
    LocalsIn ls [c!"obj", c!"builddir"] := by
  obtain ⟨parts, h1, rfl⟩ := WriteRules_some h
  refine (LocalsIn.flatten fun p hp => ?_).append (.none (by simp))
  have : some p ∈ rs.map (writeRule m) := by rw [h1]; exact List.mem_map.mpr ⟨p, hp, rfl⟩
  obtain ⟨r, -, hr⟩ := List.mem_map.mp this
  obtain ⟨l, outputs, e, rfl⟩ := writeRule_some hr
  exact ((LocalsIn.none (by simp)).append (ruleSources_locals e)).append (.none (by simp))

theorem copies_locals {cs : List MkCopy} {ls : List MkLine} (h : WriteCopies m cs = some ls) (l : List Str) :
    LocalsIn ls l := by
  rw [WriteCopies_some h]
  refine .none ?_
  simp

theorem rule_locals (a : RuleArgs) (l : List Str) : LocalsIn [.rule a] l := .none (by simp)

theorem makeRule_locals {a : RuleArgs} {ls : List MkLine} (h : makeRule a = some ls) (l : List Str) :
    LocalsIn ls l := by
  rw [makeRule_some h]; exact rule_locals a l

theorem doCmd_locals {outs ins : List Str} {cmd : Str} {c : Option Str} {ls : List MkLine}
    (h : WriteDoCmd m outs ins cmd c = some ls) (l : List Str) : LocalsIn ls l := by
  rw [WriteDoCmd_some h]
  exact .none (by simp)

theorem suffix_locals {dir : Str} {exts : List Str} (l : List Str) : LocalsIn (suffixRules m dir exts) l := by
  refine .none fun t n x hx => ?_
  obtain ⟨e, -, hx⟩ := List.mem_flatMap.mp hx
  split at hx <;> simp at hx

theorem targetSuffix_locals (srcs l : List Str) : LocalsIn (targetSuffixRules m srcs) l := by
  unfold targetSuffixRules
  dsimp only
  split
  · exact .none (by simp)
  · exact ((((LocalsIn.none (by simp)).append (suffix_locals l)).append (.none (by simp))).append
      (suffix_locals l)).append (suffix_locals l) |>.append (.none (by simp))

theorem groups_locals {gs : List (Option (List MkLine))} {ls : List MkLine} (h : groups gs = some ls)
    {l : List Str} (hg : ∀ g ∈ gs, ∀ x, g = some x → LocalsIn x l) : LocalsIn ls l := by
  obtain ⟨parts, rfl, rfl⟩ := groups_some h
  exact .flatten fun p hp => hg _ (List.mem_map.mpr ⟨p, hp, rfl⟩) p rfl

theorem alias_locals {ls : List MkLine} (h : aliasRules m = some ls) (l : List Str) : LocalsIn ls l := by
  unfold aliasRules at h
  split at h
  · split at h
    · rename_i a b ha hb
      injection h with h
      subst h
      have h1 := makeRule_locals (l := l) ha
      have h2 := makeRule_locals (l := l) hb
      split
      · exact h1.append h2
      · exact h1
    · cases h
  · injection h with h; subst h; exact .none (by simp)

theorem install_locals {ls : List MkLine} (h : installRules m = some ls) (l : List Str) : LocalsIn ls l := by
  unfold installRules at h
  split at h
  · refine groups_locals h ?_
    intro g hg x hx
    have nil : ∀ {y : List MkLine}, (some [] : Option (List MkLine)) = some y → LocalsIn y l := by
      intro y hy; injection hy with hy; subst hy; exact .none (by simp)
    simp only [List.mem_cons, List.not_mem_nil, or_false] at hg
    rcases hg with rfl | rfl | rfl | rfl | rfl
    · exact makeRule_locals hx l
    · split at hx
      · exact doCmd_locals hx l
      · exact nil hx
    · split at hx
      · refine groups_locals hx ?_
        intro g hg y hy
        simp only [List.mem_cons, List.not_mem_nil, or_false] at hg
        rcases hg with rfl | rfl <;> exact doCmd_locals hy l
      · exact nil hx
    · split at hx
      · exact makeRule_locals hx l
      · exact nil hx
    · split at hx
      · exact makeRule_locals hx l
      · split at hx
        · exact makeRule_locals hx l
        · exact nil hx
  · injection h with h; subst h; exact .none (by simp)

theorem final_locals {deps linkDeps : List Str} {ls : List MkLine} (h : finalRule m deps linkDeps = some ls) :
    LocalsIn ls [c!"LD_INPUTS"] := by
  have hld : LocalsIn [ldInputs m linkDeps] [c!"LD_INPUTS"] := by
    intro t n x hx
    simp only [ldInputs, List.mem_singleton, MkLine.setFor.injEq] at hx
    rw [hx.2.1]; simp
  unfold finalRule at h
  dsimp only at h
  split at h
  · split at h
    · cases h
    · rename_i l e
      injection h with h
      subst h
      exact LocalsIn.append (a := [ldInputs m linkDeps]) hld (doCmd_locals e _)
  split at h
  · split at h
    · cases h
    split at h
    · exact makeRule_locals h _
    · exact doCmd_locals h _
  split at h
  · split at h
    · cases h
    · rename_i l e
      injection h with h
      subst h
      refine LocalsIn.append (a := ldInputs m linkDeps :: l)
        (LocalsIn.append (a := [ldInputs m linkDeps]) hld (doCmd_locals e _)) ?_
      split
      · exact rule_locals _ _
      · exact .none (by simp)
  split at h
  · split at h
    · cases h
    · exact doCmd_locals h _
  split at h
  · exact doCmd_locals h _
  · injection h with h; subst h; exact .none (by simp)

end Gyp
