import Verif.Props.MakeOrder
/-
The pattern rules of a makefile: only those for the suffixes.
-/
namespace Gyp
open Spec

variable {m : MkSelf} {t : MkOutputs} {v0 : MakeVars}

def isPattern : MkLine → Bool
  | .pattern _ _ _ _ => true
  | _ => false

/-- There is a pattern rule among the statements. -/
def Pats (ls : List MkLine) : Prop := ∃ l ∈ ls, isPattern l = true

theorem Pats.append {a b : List MkLine} : Pats (a ++ b) ↔ Pats a ∨ Pats b := by
  unfold Pats
  simp only [List.mem_append, or_and_right, exists_or]

theorem pats_rule {a : RuleArgs} : ¬ Pats [.rule a] := by
  rintro ⟨l, hl, he⟩
  simp only [List.mem_cons, List.not_mem_nil, or_false] at hl
  subst hl; cases he

theorem makeRule_pats {a : RuleArgs} {ls : List MkLine} (h : makeRule a = some ls) :
    ¬ Pats ls := by
  rw [makeRule_some h]; exact pats_rule

theorem nil_pats : ¬ Pats [] := by
  rintro ⟨l, hl, -⟩; cases hl

theorem phonyRule_pats {o : Str} {ins : List Str} {c : Str} {ls : List MkLine}
    (h : phonyRule m o ins c = some ls) : ¬ Pats ls := makeRule_pats h

theorem WriteDoCmd_pats {outs ins : List Str} {cmd : Str} {c : Option Str}
    {ls : List MkLine} (h : WriteDoCmd m outs ins cmd c = some ls) : ¬ Pats ls := by
  rw [WriteDoCmd_some h]
  rintro ⟨l, hl, he⟩
  simp only [List.mem_cons, List.not_mem_nil, or_false] at hl
  rcases hl with rfl | rfl <;> cases he

theorem groups_pats {gs : List (Option (List MkLine))} {ls : List MkLine} (h : groups gs = some ls)
    (hn : Pats ls) : ∃ g ∈ gs, ∃ l, g = some l ∧ Pats l := by
  obtain ⟨parts, rfl, rfl⟩ := groups_some h
  obtain ⟨l, hl, he⟩ := hn
  obtain ⟨part, hp, hl⟩ := List.mem_flatten.mp hl
  exact ⟨some part, List.mem_map_of_mem hp, part, rfl, l, hl, he⟩

theorem finalRule_pats {deps linkDeps : List Str} {ls : List MkLine}
    (h : finalRule m deps linkDeps = some ls) : ¬ Pats ls := by
  have hld : ∀ (l : List MkLine), ¬ Pats l → ¬ Pats (ldInputs m linkDeps :: l) := by
    rintro l hl ⟨x, hx, he⟩
    rcases List.mem_cons.mp hx with rfl | hx
    · cases he
    · exact hl ⟨x, hx, he⟩
  unfold finalRule at h
  dsimp only at h
  by_cases h1 : m.spec.type = c!"executable"
  · rw [if_pos h1] at h
    split at h
    · cases h
    · rename_i l hl
      injection h with h
      rw [← h]
      exact hld _ (WriteDoCmd_pats hl)
  rw [if_neg h1] at h
  by_cases h2 : m.spec.type = c!"static_library"
  · rw [if_pos h2] at h
    split at h
    · cases h
    · split at h
      · exact makeRule_pats h
      · exact WriteDoCmd_pats h
  rw [if_neg h2] at h
  by_cases h3 : m.spec.type = c!"shared_library"
  · rw [if_pos h3] at h
    split at h
    · cases h
    · rename_i l hl
      injection h with h
      rw [← h]
      rw [List.cons_append]
      refine hld _ fun hs => ?_
      rcases Pats.append.mp hs with hs | hs
      · exact WriteDoCmd_pats hl hs
      · split at hs
        · exact pats_rule hs
        · exact nil_pats hs
  rw [if_neg h3] at h
  by_cases h4 : m.spec.type = c!"loadable_module"
  · rw [if_pos h4] at h
    split at h
    · cases h
    · exact WriteDoCmd_pats h
  rw [if_neg h4] at h
  by_cases h5 : m.spec.type = c!"none"
  · rw [if_pos h5] at h; exact WriteDoCmd_pats h
  · rw [if_neg h5] at h; injection h with h; rw [← h]; exact nil_pats

theorem aliasRules_pats {ls : List MkLine} (h : aliasRules m = some ls) : ¬ Pats ls := by
  unfold aliasRules at h
  split at h
  · split at h
    · rename_i a b e1 e2
      injection h with h
      rw [← h]
      split
      · rw [Pats.append]
        rintro (hs | hs)
        · exact phonyRule_pats e1 hs
        · exact phonyRule_pats e2 hs
      · exact phonyRule_pats e1
    · cases h
  · injection h with h; rw [← h]; exact nil_pats

theorem installRules_pats {ls : List MkLine} (h : installRules m = some ls) :
    ¬ Pats ls := by
  unfold installRules at h
  split at h
  · dsimp only at h
    intro hs
    obtain ⟨g, hg, l, rfl, hl⟩ := groups_pats h hs
    have nothing : ∀ {c : Prop} [Decidable c] {f : Option (List MkLine)},
        some l = (if c then f else some []) → (∀ l', f = some l' → ¬ Pats l') → False := by
      intro c _ f e hf
      split at e
      · exact hf l e.symm hl
      · injection e with e; subst e; exact nil_pats hl
    simp only [List.mem_cons, List.not_mem_nil, or_false] at hg
    rcases hg with e | e | e | e | e
    · exact phonyRule_pats e.symm hl
    · exact nothing e fun l' h' => WriteDoCmd_pats h'
    · refine nothing e fun l' h' hs' => ?_
      obtain ⟨g, hg, l2, rfl, hl2⟩ := groups_pats h' hs'
      simp only [List.mem_cons, List.not_mem_nil, or_false] at hg
      rcases hg with e | e
      · exact WriteDoCmd_pats e.symm hl2
      · exact WriteDoCmd_pats e.symm hl2
    · exact nothing e fun l' h' => phonyRule_pats h'
    · by_cases hz : m.flavor = c!"zos" ∧ m.spec.type = c!"shared_library"
      · rw [if_pos hz] at e
        exact phonyRule_pats e.symm hl
      · rw [if_neg hz] at e
        exact nothing e fun l' h' => phonyRule_pats h'
  · injection h with h; rw [← h]; exact nil_pats


theorem text_pats {s : Str} : ¬ Pats [.text s] := by
  rintro ⟨l, hl, he⟩
  simp only [List.mem_cons, List.not_mem_nil, or_false] at hl
  subst hl; cases he

theorem WriteTarget_pats {deps linkDeps extra : List Str} {ls : List MkLine}
    (h : WriteTarget m deps linkDeps extra = some ls) : ¬ Pats ls := by
  obtain ⟨q⟩ := target_parts h
  rw [q.split]
  intro hp
  rcases Pats.append.mp hp with hp | hp
  · rcases Pats.append.mp hp with hp | hp
    · rcases Pats.append.mp hp with hp | hp
      · rcases Pats.append.mp hp with ⟨l, hl, he⟩ | ⟨l, hl, he⟩
        · rcases List.mem_cons.mp hl with rfl | hl
          · cases he
          · rcases q.horder with ⟨-, h⟩ | ⟨-, h⟩ <;> rw [h] at hl
            · cases hl
            · simp only [List.mem_cons, List.not_mem_nil, or_false] at hl
              rcases hl with rfl | rfl <;> cases he
        · unfold targetVars at hl
          split at hl
          · cases hl
          · rcases List.mem_append.mp hl with hl | hl
            · obtain ⟨c, -, rfl⟩ := List.mem_map.mp hl
              cases he
            · simp only [List.mem_cons, List.not_mem_nil, or_false] at hl
              rcases hl with rfl | rfl | rfl <;> cases he
      · exact finalRule_pats q.hrule hp
    · exact aliasRules_pats q.hshort hp
  · exact installRules_pats q.hinstall hp

theorem WriteActions_pats {as : List MkAction} {ls : List MkLine}
    (h : WriteActions m as = some ls) : ¬ Pats ls := by
  obtain ⟨parts, h1, rfl⟩ := WriteActions_some h
  intro hp
  rcases Pats.append.mp hp with ⟨l, hl, he⟩ | hp
  · obtain ⟨part, hp, hl⟩ := List.mem_flatten.mp hl
    have : some part ∈ as.map (writeAction m) := by rw [h1]; exact List.mem_map_of_mem hp
    obtain ⟨a, ha, hw⟩ := List.mem_map.mp this
    obtain ⟨first, -, rfl⟩ := writeAction_some hw
    simp only [List.mem_cons, List.not_mem_nil, or_false] at hl
    rcases hl with rfl | rfl | rfl | rfl | rfl | rfl | rfl | rfl | rfl | rfl <;> cases he
  · exact text_pats hp

theorem writeRuleSources_pats {r : MkRule} {count : Nat} {ss : List Str}
    {ls : List MkLine} {o : List Str} (h : writeRuleSources m r count ss = some (ls, o)) :
    ¬ Pats ls := by
  induction ss generalizing count ls o with
  | nil =>
    injection h with h; injection h with h1 h2; subst h1
    exact nil_pats
  | cons s ss ih =>
    unfold writeRuleSources at h
    split at h
    · rename_i a o1 b p e1 e2
      injection h with h
      injection h with h1 h2
      subst h1
      intro hn
      rcases Pats.append.mp hn with ⟨l, hl, he⟩ | hn
      · obtain ⟨outs, action, first, -, -, -, -, rfl⟩ := writeRuleSource_some e1
        simp only [List.mem_cons, List.not_mem_nil, or_false] at hl
        rcases hl with rfl | rfl | rfl | rfl | rfl | rfl | rfl <;> cases he
      · exact ih e2 hn
    · cases h

theorem WriteRules_pats {rs : List MkRule} {ls : List MkLine}
    (h : WriteRules m rs = some ls) : ¬ Pats ls := by
  obtain ⟨parts, h1, rfl⟩ := WriteRules_some h
  intro hp
  rcases Pats.append.mp hp with ⟨l, hl, he⟩ | ⟨l, hl, he⟩
  · obtain ⟨part, hp, hl⟩ := List.mem_flatten.mp hl
    have : some part ∈ rs.map (writeRule m) := by rw [h1]; exact List.mem_map_of_mem hp
    obtain ⟨r, hr, hw⟩ := List.mem_map.mp this
    obtain ⟨l', outputs, e, rfl⟩ := writeRule_some hw
    rcases List.mem_append.mp hl with hl | hl
    · rcases List.mem_append.mp hl with hl | hl
      · simp only [List.mem_cons, List.not_mem_nil, or_false] at hl
        subst hl; cases he
      · exact writeRuleSources_pats e ⟨l, hl, he⟩
    · simp only [List.mem_cons, List.not_mem_nil, or_false] at hl
      rcases hl with rfl | rfl | rfl <;> cases he
  · simp only [List.mem_cons, List.not_mem_nil, or_false] at hl
    rcases hl with rfl | rfl <;> cases he

theorem WriteCopies_pats {cs : List MkCopy} {ls : List MkLine}
    (h : WriteCopies m cs = some ls) : ¬ Pats ls := by
  rw [WriteCopies_some h]
  intro hn
  rcases Pats.append.mp hn with hn | ⟨l, hl, he⟩
  · rcases Pats.append.mp hn with ⟨l, hl, he⟩ | ⟨l, hl, he⟩
    · simp only [List.mem_cons, List.not_mem_nil, or_false] at hl
      subst hl; cases he
    · obtain ⟨e, -, hl⟩ := List.mem_flatMap.mp hl
      simp only [List.mem_cons, List.not_mem_nil, or_false] at hl
      rcases hl with rfl | rfl <;> cases he
  · simp only [List.mem_cons, List.not_mem_nil, or_false] at hl
    rcases hl with rfl | rfl <;> cases he

theorem orderRule_pats {outs ins : List Str} {c : Str} {ls : List MkLine}
    (h : orderRule outs ins c = some ls) : ¬ Pats ls := by
  rcases orderRule_some h with ⟨-, rfl⟩ | rfl
  · exact nil_pats
  · exact pats_rule

theorem WriteSources_pats {deps srcs extra : List Str} {ls : List MkLine}
    (h : WriteSources m deps srcs extra = some ls) : ¬ Pats ls := by
  obtain ⟨r1, r2, e1, e2, -, rfl⟩ := WriteSources_some h
  intro hn
  rcases Pats.append.mp hn with hn | hn
  · rcases Pats.append.mp hn with hn | ⟨l, hl, he⟩
    · rcases Pats.append.mp hn with hn | hn
      · rcases Pats.append.mp hn with hn | hn
        · rcases Pats.append.mp hn with ⟨l, hl, he⟩ | ⟨l, hl, he⟩
          · obtain ⟨c, -, hl⟩ := List.mem_flatMap.mp hl
            simp only [configVars, List.mem_cons, List.not_mem_nil, or_false] at hl
            rcases hl with rfl | rfl | rfl | rfl | rfl | rfl | rfl | rfl <;> cases he
          · simp only [List.mem_cons, List.not_mem_nil, or_false] at hl
            rcases hl with rfl | rfl | rfl | rfl <;> cases he
        · exact orderRule_pats e1 hn
      · exact orderRule_pats e2 hn
    · split at hl
      · cases hl
      · simp only [objectVars, List.mem_cons, List.not_mem_nil, or_false] at hl
        rcases hl with rfl | rfl | rfl | rfl <;> cases he
  · exact text_pats hn

/-- The pattern rules of a makefile. -/
theorem parts_pattern (p : MkParts m t) {l : MkLine} (hl : l ∈ p.lines) (hp : isPattern l = true) :
    l ∈ targetSuffixRules m (m.spec.sources ++ extraSources m.spec) := by
  have hpat : Pats [l] := ⟨l, List.mem_singleton.mpr rfl, hp⟩
  unfold MkParts.lines at hl
  simp only [List.mem_append] at hl
  rcases hl with (((((hl | hl) | hl) | hl) | hl) | hl) | hl
  · simp only [List.mem_cons, List.not_mem_nil, or_false] at hl
    rcases hl with rfl | rfl <;> cases hp
  · rcases p.hactions with ⟨-, h⟩ | h
    · rw [h] at hl; cases hl
    · exact absurd ⟨l, hl, hp⟩ (WriteActions_pats h)
  · rcases p.hrules with ⟨-, h⟩ | h
    · rw [h] at hl; cases hl
    · exact absurd ⟨l, hl, hp⟩ (WriteRules_pats h)
  · rcases p.hcopies with ⟨-, h⟩ | h
    · rw [h] at hl; cases hl
    · exact absurd ⟨l, hl, hp⟩ (WriteCopies_pats h)
  · rcases p.hsources with ⟨-, h⟩ | h
    · rw [h] at hl; cases hl
    · exact absurd ⟨l, hl, hp⟩ (WriteSources_pats h)
  · exact hl
  · exact absurd ⟨l, hl, hp⟩ (WriteTarget_pats p.htarget)

theorem patternsFrom_line {v : MakeVars} {ls : List MkLine} {x : PatternRule}
    (h : x ∈ patternsFrom v ls) : ∃ a b, .pattern a b x.ext x.cmd ∈ ls := by
  induction ls generalizing v with
  | nil => cases h
  | cons l ls ih =>
    have rest : ∀ {v'}, x ∈ patternsFrom v' ls → ∃ a b, .pattern a b x.ext x.cmd ∈ l :: ls := by
      intro v' h
      obtain ⟨a, b, h⟩ := ih h
      exact ⟨a, b, List.mem_cons_of_mem _ h⟩
    cases l with
    | pattern a b e c =>
      rcases List.mem_cons.mp h with rfl | h
      · exact ⟨a, b, List.mem_cons_self ..⟩
      · exact rest h
    | _ => exact rest h

theorem line_pattern {v : MakeVars} {ls : List MkLine} {a b e c : Str}
    (h : .pattern a b e c ∈ ls) :
    ∃ pre, (∀ n, ¬ Sets ls n → ¬ Sets pre n) ∧
      ⟨expand (varsAfter v pre) a, expand (varsAfter v pre) b, e, c⟩ ∈ patternsFrom v ls := by
  obtain ⟨pre, post, rfl⟩ := List.append_of_mem h
  refine ⟨pre, fun n hn hs => hn (Sets.append.mpr (Or.inl hs)), ?_⟩
  rw [patternsFrom_append]
  exact List.mem_append_right _ (List.mem_cons_self ..)

end Gyp
