import Verif.Spec.NinjaGraph
import Verif.Props.MsvsRules
/-
Facts about the graph in ninja files.
-/
namespace Gyp
open Spec

theorem waits_mono {E F : List NEdge} (h : ∀ e ∈ E, e ∈ F) {o x : Str} (w : Waits E o x) : Waits F o x := by
  induction w with
  | refl o => exact .refl o
  | make h1 h2 h3 => exact .make (h _ h1) h2 h3
  | same h1 h2 h3 => exact .same (h _ h1) h2 h3
  | trans _ _ ih1 ih2 => exact .trans ih1 ih2

theorem collapsed_some {x : NinjaCtx} {name : Str} {ts : List Str} {order r : Option Str} {edges : List NEdge}
    (h : collapsed x name ts order = some (r, edges)) :
    (r = none ↔ ts = []) ∧ ∀ E : List NEdge, (∀ e ∈ edges, e ∈ E) → ∀ t ∈ ts ++ order.toList, ∃ p, r = some p ∧ Waits E p t := by
  unfold collapsed at h
  split at h
  · exact nomatch h
  · split at h
    · rename_i h1
      split at h
      · rename_i h2
        cases h
        subst h1 h2
        exact ⟨by simp, by simp⟩
      · exact nomatch h
    · rename_i h1
      split at h
      · rename_i h2
        split at h
        · exact nomatch h
        · rename_i stamp hs
          cases h
          refine ⟨by simp [h1], ?_⟩
          intro E hE t ht
          refine ⟨stamp, rfl, .make (hE _ (List.mem_singleton.mpr rfl)) (List.mem_singleton.mpr rfl) ?_⟩
          simpa using ht
      · rename_i h2
        cases h
        simp only [not_or, Nat.not_lt, ne_eq, not_not] at h2
        obtain ⟨h2, rfl⟩ := h2
        match ts, h1, h2 with
        | [t], _, _ =>
          refine ⟨by simp, ?_⟩
          intro E hE t' ht
          simp only [Option.toList_none, List.append_nil, List.mem_singleton] at ht
          subst ht
          exact ⟨t', rfl, .refl _⟩

/-! ### Steps -/

theorem mapM_mem {α : Type} {f : α → Option Str} {l : List α} {r : List Str} (h : l.mapM f = some r) (o : Str) :
    o ∈ r ↔ ∃ p ∈ l, f p = some o := by
  have h' := mapM_eq_some h
  clear h
  induction h' with
  | nil => simp
  | @cons a b l r hab hlr ih =>
    refine List.mem_cons.trans ((or_congr Iff.rfl ih).trans ?_)
    constructor
    · rintro (rfl | ⟨p, hp, hf⟩)
      · exact ⟨a, by simp, hab⟩
      · exact ⟨p, by simp [hp], hf⟩
    · rintro ⟨p, hp, hf⟩
      rcases List.mem_cons.mp hp with rfl | hp
      · rw [hab] at hf; left; exact (Option.some.inj hf).symm
      · exact Or.inr ⟨p, hp, hf⟩

theorem append_edges (a b : NSteps) : (a.append b).edges = a.edges ++ b.edges := rfl
theorem append_outputs (a b : NSteps) : (a.append b).outputs = a.outputs ++ b.outputs := rfl
theorem append_sources (a b : NSteps) : (a.append b).sources = a.sources ++ b.sources := rfl

/-- Steps that all wait for `pre`. -/
def AllWait (pre : Option Str) (t : NSteps) : Prop :=
  (∀ e ∈ t.edges, ∀ p ∈ pre, p ∈ e.inputs ++ e.implicit ++ e.orderOnly) ∧ ∀ o ∈ t.outputs, ∃ e ∈ t.edges, o ∈ e.outputs

theorem allWait_append {pre : Option Str} {a b : NSteps} (ha : AllWait pre a) (hb : AllWait pre b) :
    AllWait pre (a.append b) := by
  refine ⟨?_, ?_⟩
  · intro e he
    rw [append_edges] at he
    rcases List.mem_append.mp he with he | he
    · exact ha.1 e he
    · exact hb.1 e he
  · intro o ho
    rw [append_outputs] at ho
    rcases List.mem_append.mp ho with ho | ho
    · obtain ⟨e, he, h⟩ := ha.2 o ho
      exact ⟨e, by rw [append_edges]; simp [he], h⟩
    · obtain ⟨e, he, h⟩ := hb.2 o ho
      exact ⟨e, by rw [append_edges]; simp [he], h⟩

theorem ninjaAction_some {x : NinjaCtx} {pre : Option Str} {a : NAction} {t : NSteps} (h : ninjaAction x pre a = some t) :
    (∀ o, o ∈ t.outputs ↔ ∃ p ∈ a.outputs, gypPathToNinja x p = some o) ∧
      (∀ p, p ∈ t.sources ↔ a.asSources = true ∧ p ∈ a.outputs) ∧ AllWait pre t := by
  unfold ninjaAction at h
  split at h
  · rename_i inputs outputs h1 h2
    cases h
    refine ⟨fun o => mapM_mem h2 o, ?_, ?_, ?_⟩
    · intro p
      cases a.asSources <;> simp
    · intro e he p hp
      simp only [List.mem_singleton] at he
      subst he
      simp only [List.mem_append]
      right
      simpa using hp
    · intro o ho
      exact ⟨_, List.mem_singleton.mpr rfl, ho⟩
  · exact nomatch h

theorem ninjaActions_some {x : NinjaCtx} {pre : Option Str} {as : List NAction} {t : NSteps}
    (h : ninjaActions x pre as = some t) :
    (∀ o, o ∈ t.outputs ↔ ∃ a ∈ as, ∃ p ∈ a.outputs, gypPathToNinja x p = some o) ∧
      (∀ p, p ∈ t.sources ↔ ∃ a ∈ as, a.asSources = true ∧ p ∈ a.outputs) ∧ AllWait pre t := by
  induction as generalizing t with
  | nil => unfold ninjaActions at h; cases h; simp [AllWait]
  | cons a as ih =>
    unfold ninjaActions at h
    split at h
    · rename_i s u hs hu
      cases h
      obtain ⟨h1, h2, h3⟩ := ninjaAction_some hs
      obtain ⟨h4, h5, h6⟩ := ih hu
      refine ⟨?_, ?_, allWait_append h3 h6⟩
      · intro o
        rw [append_outputs, List.mem_append, h1, h4]
        simp only [List.mem_cons, exists_eq_or_imp]
      · intro p
        rw [append_sources, List.mem_append, h2, h5]
        simp only [List.mem_cons, exists_eq_or_imp]
    · exact nomatch h

theorem ninjaCopies_some {x : NinjaCtx} {pre : Option Str} {cs : List (Str × Str)} {t : NSteps}
    (h : ninjaCopies x pre cs = some t) :
    (∀ o, o ∈ t.outputs ↔ ∃ c ∈ cs, gypPathToNinja x (pathJoin c.1 (basename (normpath c.2))) = some o) ∧
      t.sources = [] ∧ AllWait pre t := by
  induction cs generalizing t with
  | nil => unfold ninjaCopies at h; cases h; simp [AllWait]
  | cons c cs ih =>
    obtain ⟨d, f⟩ := c
    unfold ninjaCopies at h
    split at h
    · rename_i s u hs hu
      cases h
      obtain ⟨h4, h5, h6⟩ := ih hu
      unfold ninjaCopy at hs
      simp only at hs
      split at hs
      · rename_i src dst h1 h2
        cases hs
        refine ⟨?_, ?_, allWait_append ⟨?_, ?_⟩ h6⟩
        · intro o
          rw [append_outputs, List.mem_append, h4]
          simp only [List.mem_cons, exists_eq_or_imp, List.not_mem_nil, or_false, h2]
          rw [Option.some.injEq, eq_comm]
        · rw [append_sources, h5]; rfl
        · intro e he p hp
          simp only [List.mem_singleton] at he
          subst he
          simp only [List.mem_append]
          right
          simpa using hp
        · intro o ho
          exact ⟨_, List.mem_singleton.mpr rfl, ho⟩
      · exact nomatch hs
    · exact nomatch h

theorem ninjaRuleSources_some {x : NinjaCtx} {r : NRule} {args implicit : List Str} {pre : Option Str} {ss : List Str}
    {t : NSteps} (h : ninjaRuleSources x r args implicit pre ss = some t) :
    (∀ o, o ∈ t.outputs ↔ ∃ src ∈ ss, ∃ p ∈ ruleOutputsFor r src, gypPathToNinja x p = some o) ∧
      (∀ p, p ∈ t.sources ↔ ∃ src ∈ ss, r.asSources = true ∧ p ∈ ruleOutputsFor r src) ∧
      (∀ e ∈ t.edges, e.implicit = implicit ∧ e.orderOnly = pre.toList) ∧
      (∀ o ∈ t.outputs, ∃ e ∈ t.edges, o ∈ e.outputs) ∧ (ss ≠ [] → r.outputs ≠ [] → t.outputs ≠ []) := by
  induction ss generalizing t with
  | nil => unfold ninjaRuleSources at h; cases h; simp
  | cons src ss ih =>
    unfold ninjaRuleSources at h
    split at h
    · rename_i s u hs hu
      cases h
      obtain ⟨h4, h5, h6, h7, h8⟩ := ih hu
      unfold ninjaRuleSource at hs
      split at hs
      · rename_i outputs input h1 h2
        cases hs
        refine ⟨?_, ?_, ?_, ?_, ?_⟩
        · intro o
          rw [append_outputs, List.mem_append, h4, mapM_mem h1]
          simp only [List.mem_cons, exists_eq_or_imp]
        · intro p
          rw [append_sources, List.mem_append, h5]
          simp only [List.mem_cons, exists_eq_or_imp]
          cases r.asSources <;> simp
        · intro e he
          rw [append_edges] at he
          rcases List.mem_append.mp he with he | he
          · simp only [List.mem_singleton] at he
            subst he
            exact ⟨rfl, rfl⟩
          · exact h6 e he
        · intro o ho
          rw [append_outputs] at ho
          rcases List.mem_append.mp ho with ho | ho
          · exact ⟨_, by rw [append_edges]; exact List.mem_append_left _ (List.mem_singleton.mpr rfl), ho⟩
          · obtain ⟨e, he, h⟩ := h7 o ho
            exact ⟨e, by rw [append_edges]; exact List.mem_append_right _ he, h⟩
        · intro _ hne
          rw [append_outputs]
          intro hnil
          have hl := (mapM_eq_some h1).length_eq
          have hn1 : outputs = [] := (List.append_eq_nil_iff.mp hnil).1
          rw [hn1] at hl
          simp only [ruleOutputsFor, List.length_map, List.length_nil] at hl
          exact hne (List.length_eq_zero_iff.mp hl)
      · exact nomatch hs
    · exact nomatch h

theorem ninjaRule_some {x : NinjaCtx} {pre pre' : Option Str} {r : NRule} {t : NSteps}
    (h : ninjaRule x pre r = some (t, pre')) :
    (∀ o, o ∈ t.outputs ↔ ∃ src ∈ r.sources, ∃ p ∈ ruleOutputsFor r src, gypPathToNinja x p = some o) ∧
      (∀ p, p ∈ t.sources ↔ ∃ src ∈ r.sources, r.asSources = true ∧ p ∈ ruleOutputsFor r src) ∧
      (∀ E : List NEdge, (∀ e ∈ t.edges, e ∈ E) → ∀ p ∈ pre,
        (∀ e ∈ t.edges, RunsAfter E e p) ∧ ∀ o ∈ t.outputs, Waits E o p) ∧
      (pre' = pre ∨ pre' = none ∧ 2 ≤ r.inputs.length ∧ 3 ≤ r.sources.length ∧ (r.outputs ≠ [] → t.outputs ≠ [])) := by
  unfold ninjaRule at h
  split at h
  · rename_i h0
    cases h
    simp [h0.2]
  · split at h
    · rename_i action inputs ha hi
      simp only at h
      have hlen : r.inputs.length = inputs.length := (mapM_eq_some hi).length_eq
      split at h
      · rename_i hcol
        have hcol : 2 < r.inputs.length + pre.toList.length ∧ 2 < r.sources.length := by
          simpa [ruleCollapses] using hcol
        split at h
        · exact nomatch h
        · rename_i stamp edges hc
          split at h
          · exact nomatch h
          · rename_i s hs
            cases h
            obtain ⟨h1, h2, h3, h4, h5⟩ := ninjaRuleSources_some hs
            have hpl : pre.toList.length ≤ 1 := by cases pre <;> simp
            have hne : r.sources ≠ [] := by intro h; rw [h] at hcol; simp at hcol
            refine ⟨by simpa [append_outputs] using h1, by simpa [append_sources] using h2, ?_,
              Or.inr ⟨rfl, by omega, by omega, fun h => by simpa [append_outputs] using h5 hne h⟩⟩
            intro E hE p hp
            obtain ⟨c1, c2⟩ := collapsed_some hc
            obtain ⟨st, hst, hw⟩ := c2 E (fun e he => hE e (by simp [append_edges, he])) p
              (by simp only [List.mem_append]; right; simpa using hp)
            subst hst
            have hrun : ∀ e ∈ (NSteps.append ⟨edges, [], []⟩ s).edges, RunsAfter E e p := by
              intro e he
              rw [append_edges] at he
              rcases List.mem_append.mp he with he | he
              · unfold collapsed at hc
                split at hc
                · exact nomatch hc
                · split at hc
                  · split at hc
                    · exact nomatch hc
                    · exact nomatch hc
                  · split at hc
                    · split at hc
                      · exact nomatch hc
                      · cases hc
                        simp only [List.mem_singleton] at he
                        subst he
                        exact ⟨p, by simp only [List.mem_append]; right; simpa using hp, .refl _⟩
                    · injection hc with hc
                      injection hc with _ hc
                      rw [← hc] at he
                      simp at he
              · refine ⟨st, ?_, hw⟩
                simp [(h3 e he).1]
            refine ⟨hrun, ?_⟩
            intro o ho
            obtain ⟨e, he, hoe⟩ := h4 o (by simpa [append_outputs] using ho)
            have he' : e ∈ (NSteps.append ⟨edges, [], []⟩ s).edges := by simp [append_edges, he]
            obtain ⟨m, hm, hmp⟩ := hrun e he'
            exact .trans (.make (hE e he') hoe hm) hmp
      · split at h
        · exact nomatch h
        · rename_i s hs
          cases h
          obtain ⟨h1, h2, h3, h4, h5⟩ := ninjaRuleSources_some hs
          refine ⟨h1, h2, ?_, Or.inl rfl⟩
          intro E hE p hp
          have hmem : ∀ e ∈ t.edges, p ∈ e.inputs ++ e.implicit ++ e.orderOnly := by
            intro e he
            rw [(h3 e he).2]
            simp only [List.mem_append]
            right
            simpa using hp
          refine ⟨fun e he => ⟨p, hmem e he, .refl _⟩, ?_⟩
          intro o ho
          obtain ⟨e, he, hoe⟩ := h4 o ho
          exact .make (hE e he) hoe (hmem e he)
    · exact nomatch h

theorem ninjaRules_some {x : NinjaCtx} {pre : Option Str} {rs : List NRule} {t : NSteps}
    (h : ninjaRules x pre rs = some t) :
    (∀ o, o ∈ t.outputs ↔ ∃ r ∈ rs, ∃ src ∈ r.sources, ∃ p ∈ ruleOutputsFor r src, gypPathToNinja x p = some o) ∧
      (∀ p, p ∈ t.sources ↔ ∃ r ∈ rs, ∃ src ∈ r.sources, r.asSources = true ∧ p ∈ ruleOutputsFor r src) ∧
      (∀ E : List NEdge, (∀ e ∈ t.edges, e ∈ E) → ∀ p ∈ pre,
        ((∀ a r b, rs = a ++ r :: b → b ≠ [] → r.inputs.length < 2 ∨ r.sources.length < 3) →
          ∀ e ∈ t.edges, RunsAfter E e p) ∧
        ((∀ r ∈ rs, r.outputs ≠ []) → t.outputs ≠ [] → ∃ o ∈ t.outputs, Waits E o p)) := by
  induction rs generalizing pre t with
  | nil => unfold ninjaRules at h; cases h; simp
  | cons r rs ih =>
    unfold ninjaRules at h
    split at h
    · exact nomatch h
    · rename_i s pre' hs
      split at h
      · exact nomatch h
      · rename_i u hu
        cases h
        obtain ⟨h1, h2, h3, h4⟩ := ninjaRule_some hs
        obtain ⟨h5, h6, h7⟩ := ih hu
        refine ⟨?_, ?_, ?_⟩
        · intro o
          rw [append_outputs, List.mem_append, h1, h5]
          simp only [List.mem_cons, exists_eq_or_imp]
        · intro p
          rw [append_sources, List.mem_append, h2, h6]
          simp only [List.mem_cons, exists_eq_or_imp]
        · intro E hE p hp
          have hE1 : ∀ e ∈ s.edges, e ∈ E := fun e he => hE e (by simp [append_edges, he])
          have hE2 : ∀ e ∈ u.edges, e ∈ E := fun e he => hE e (by simp [append_edges, he])
          obtain ⟨k1, k2⟩ := h3 E hE1 p hp
          refine ⟨?_, ?_⟩
          · intro hfew e he
            rw [append_edges] at he
            rcases List.mem_append.mp he with he | he
            · exact k1 e he
            · cases rs with
              | nil => unfold ninjaRules at hu; cases hu; simp at he
              | cons r' rs =>
                have hp' : pre' = pre := by
                  rcases h4 with h4 | ⟨-, h8, h9, -⟩
                  · exact h4
                  · rcases hfew [] r (r' :: rs) rfl (by simp) with h | h <;> omega
                rw [hp'] at h7
                refine (h7 E hE2 p hp).1 ?_ e he
                intro a r0 b hab hb
                exact hfew (r :: a) r0 b (by rw [hab]; rfl) hb
          · intro hmk hne
            by_cases hso : s.outputs = []
            · have hp' : pre' = pre := by
                rcases h4 with h4 | ⟨-, -, -, h8⟩
                · exact h4
                · exact absurd hso (h8 (hmk r (by simp)))
              rw [hp'] at h7
              obtain ⟨o, ho, hw⟩ := (h7 E hE2 p hp).2 (fun r' hr' => hmk r' (by simp [hr'])) (by
                intro h; apply hne; rw [append_outputs, hso, h]; rfl)
              exact ⟨o, by rw [append_outputs]; simp [ho], hw⟩
            · obtain ⟨o, ho⟩ := List.exists_mem_of_ne_nil _ hso
              exact ⟨o, by rw [append_outputs]; simp [ho], k2 o ho⟩

theorem copyPairs_mem {cs : List NCopy} {c : Str × Str} :
    c ∈ copyPairs cs ↔ ∃ k ∈ cs, ∃ f ∈ k.files, c = (k.destination, f) := by
  unfold copyPairs
  simp only [List.mem_flatMap, List.mem_map]
  constructor
  · rintro ⟨k, hk, f, hf, rfl⟩; exact ⟨k, hk, f, hf, rfl⟩
  · rintro ⟨k, hk, f, hf, rfl⟩; exact ⟨k, hk, f, hf, rfl⟩

theorem ninjaSteps_some {x : NinjaCtx} {pre : Option Str} {s : NSpec} {t : NSteps} (h : ninjaSteps x pre s = some t) :
    (∀ o, o ∈ t.outputs ↔ StepOutput x s o) ∧
      (∀ p, p ∈ t.sources ++ s.sources ↔ SourceOf s p) ∧
      (∀ E : List NEdge, (∀ e ∈ t.edges, e ∈ E) → ∀ p ∈ pre,
        (FewInputs s → ∀ e ∈ t.edges, RunsAfter E e p) ∧
        (RulesMake s → t.outputs ≠ [] → ∃ o ∈ t.outputs, Waits E o p)) := by
  unfold ninjaSteps at h
  split at h
  · rename_i a r c ha hr hc
    cases h
    obtain ⟨a1, a2, a3⟩ := ninjaActions_some ha
    obtain ⟨r1, r2, r3⟩ := ninjaRules_some hr
    obtain ⟨c1, c2, c3⟩ := ninjaCopies_some hc
    refine ⟨?_, ?_, ?_⟩
    · intro o
      rw [append_outputs, append_outputs, List.mem_append, List.mem_append, a1, r1, c1]
      constructor
      · rintro ((⟨a, ha, p, hp, h⟩ | ⟨r, hr, src, hsrc, p, hp, h⟩) | ⟨c, hc, h⟩)
        · exact .action a p ha hp h
        · exact .rule r src p hr hsrc hp h
        · obtain ⟨k, hk, f, hf, rfl⟩ := copyPairs_mem.mp hc
          exact .copy k f hk hf h
      · rintro (⟨a, p, ha, hp, h⟩ | ⟨r, src, p, hr, hsrc, hp, h⟩ | ⟨k, f, hk, hf, h⟩)
        · exact Or.inl (Or.inl ⟨a, ha, p, hp, h⟩)
        · exact Or.inl (Or.inr ⟨r, hr, src, hsrc, p, hp, h⟩)
        · exact Or.inr ⟨_, copyPairs_mem.mpr ⟨k, hk, f, hf, rfl⟩, h⟩
    · intro p
      rw [append_sources, append_sources, c2, List.append_nil, List.mem_append, List.mem_append, a2, r2]
      constructor
      · rintro ((⟨a, ha, h1, h2⟩ | ⟨r, hr, src, hsrc, h1, h2⟩) | h)
        · exact .action a ha h1 h2
        · exact .rule r src hr h1 hsrc h2
        · exact .own h
      · rintro (h | ⟨a, ha, h1, h2⟩ | ⟨r, src, hr, h1, hsrc, h2⟩)
        · exact Or.inr h
        · exact Or.inl (Or.inl ⟨a, ha, h1, h2⟩)
        · exact Or.inl (Or.inr ⟨r, hr, src, hsrc, h1, h2⟩)
    · intro E hE p hp
      have hEa : ∀ e ∈ a.edges, e ∈ E := fun e he => hE e (by simp [append_edges, he])
      have hEr : ∀ e ∈ r.edges, e ∈ E := fun e he => hE e (by simp [append_edges, he])
      have hEc : ∀ e ∈ c.edges, e ∈ E := fun e he => hE e (by simp [append_edges, he])
      refine ⟨?_, ?_⟩
      · intro hfew e he
        rw [append_edges, append_edges] at he
        rcases List.mem_append.mp he with he | he
        · rcases List.mem_append.mp he with he | he
          · exact ⟨p, a3.1 e he p hp, .refl _⟩
          · exact (r3 E hEr p hp).1 hfew e he
        · exact ⟨p, c3.1 e he p hp, .refl _⟩
      · intro hmk hne
        have one : ∀ {u : NSteps}, AllWait pre u → (∀ e ∈ u.edges, e ∈ E) → ∀ o ∈ u.outputs, Waits E o p := by
          intro u hu hEu o ho
          obtain ⟨e, he, hoe⟩ := hu.2 o ho
          exact .make (hEu e he) hoe (hu.1 e he p hp)
        by_cases ha0 : a.outputs = []
        · by_cases hr0 : r.outputs = []
          · have hc0 : c.outputs ≠ [] := by
              intro h; apply hne; rw [append_outputs, append_outputs, ha0, hr0, h]; rfl
            obtain ⟨o, ho⟩ := List.exists_mem_of_ne_nil _ hc0
            exact ⟨o, by simp [append_outputs, ho], one c3 hEc o ho⟩
          · obtain ⟨o, ho, hw⟩ := (r3 E hEr p hp).2 hmk hr0
            exact ⟨o, by simp [append_outputs, ho], hw⟩
        · obtain ⟨o, ho⟩ := List.exists_mem_of_ne_nil _ ha0
          exact ⟨o, by simp [append_outputs, ho], one a3 hEa o ho⟩
  · exact nomatch h

/-! ### One target -/

theorem ninjaCompiles_some {x : NinjaCtx} {pre : Option Str} {ss : List Str} {es : List NEdge}
    (h : ninjaCompiles x pre ss = some es) :
    (∀ e ∈ es, ∃ p ∈ ss, ∃ i o, ninjaCommand p = some e.command ∧ gypPathToNinja x p = some i ∧
        gypPathToUniqueOutput x ((splitext p).1 ++ c!".o") true = some o ∧
        e = { outputs := [o], command := e.command, inputs := [i], orderOnly := pre.toList }) ∧
      (∀ p ∈ ss, ∀ c, ninjaCommand p = some c → ∃ e ∈ es, e.command = c ∧ ∃ i o, gypPathToNinja x p = some i ∧
        gypPathToUniqueOutput x ((splitext p).1 ++ c!".o") true = some o ∧ e.inputs = [i] ∧ e.outputs = [o]) := by
  induction ss generalizing es with
  | nil => unfold ninjaCompiles at h; cases h; simp
  | cons p ss ih =>
    unfold ninjaCompiles at h
    split at h
    · rename_i hc
      obtain ⟨h1, h2⟩ := ih h
      refine ⟨?_, ?_⟩
      · intro e he
        obtain ⟨p', hp', h⟩ := h1 e he
        exact ⟨p', by simp [hp'], h⟩
      · intro p' hp' c hc'
        rcases List.mem_cons.mp hp' with rfl | hp'
        · rw [hc] at hc'; exact nomatch hc'
        · exact h2 p' hp' c hc'
    · rename_i command hc
      split at h
      · rename_i input output rest hi ho hr
        cases h
        obtain ⟨h1, h2⟩ := ih hr
        refine ⟨?_, ?_⟩
        · intro e he
          rcases List.mem_cons.mp he with rfl | he
          · exact ⟨p, by simp, input, output, hc, hi, ho, rfl⟩
          · obtain ⟨p', hp', h⟩ := h1 e he
            exact ⟨p', by simp [hp'], h⟩
        · intro p' hp' c hc'
          rcases List.mem_cons.mp hp' with rfl | hp'
          · rw [hc] at hc'
            cases hc'
            exact ⟨_, List.mem_cons_self, rfl, input, output, hi, ho, rfl, rfl⟩
          · obtain ⟨e, he, h⟩ := h2 p' hp' c hc'
            exact ⟨e, by simp [he], h⟩
      · exact nomatch h

/-- The parts of what is written for a target. -/
structure SpecOf (x : NinjaCtx) (outs : List (Str × NTarget)) (s : NSpec) (w : NWritten) where
  actionsDepends : Option Str
  compileDepends : Option Str
  actionsStamp : Option Str
  e1 : List NEdge
  e2 : List NEdge
  objects : List Str
  type : Str
  binary : Option Str
  hactions : collapsed x c!"actions_depends"
    ((s.dependencies.filterMap (aget outs)).filterMap NTarget.preActionInput) none = some (actionsDepends, e1)
  hcompile : collapsed x c!"compile_depends"
    ((s.dependencies.filterMap (aget outs)).filterMap NTarget.preCompileInput) none = some (compileDepends, e2)
  hsteps : ninjaSteps x actionsDepends s = some w.steps
  hstamp : collapsed x c!"actions_rules_copies" w.steps.outputs none = some (actionsStamp, w.stamp)
  hcompiles : ninjaCompiles x (actionsStamp.or compileDepends) (w.steps.sources ++ s.sources) = some w.compiles
  hobjects : ((w.steps.sources ++ s.sources).filter (endsWith · c!".o")).mapM (gypPathToNinja x) = some objects
  hbefore : w.before = e1 ++ e2
  hend : (w.compiles.flatMap NEdge.outputs ++ objects = [] ∧ actionsStamp = none ∧ actionsDepends = none ∧
      w.link = [] ∧ w.target = none) ∨
    (ninjaWriteTarget x s outs ((s.dependencies.filterMap (aget outs)).any NTarget.usesCpp ||
        w.compiles.any (·.command = c!"cxx")) (w.compiles.flatMap NEdge.outputs ++ objects)
        (actionsStamp.or actionsDepends) = some (type, binary, w.link) ∧
      w.target = if binary = none then none else
        some ⟨type, actionsDepends, compileDepends, actionsStamp, binary,
          (s.dependencies.filterMap (aget outs)).any NTarget.usesCpp || w.compiles.any (·.command = c!"cxx")⟩)

theorem ninjaSpec_some {x : NinjaCtx} {outs : List (Str × NTarget)} {s : NSpec} {w : NWritten}
    (h : ninjaSpec x outs s = some w) : Nonempty (SpecOf x outs s w) := by
  unfold ninjaSpec at h
  simp only at h
  split at h
  · rename_i ad e1 cd e2 h1 h2
    split at h
    · exact nomatch h
    · rename_i steps h3
      split at h
      · exact nomatch h
      · rename_i stamp e3 h4
        split at h
        · rename_i compiles objects h5 h6
          split at h
          · rename_i h7
            cases h
            exact ⟨{ actionsDepends := ad, compileDepends := cd, actionsStamp := stamp, e1 := e1, e2 := e2,
                     objects := objects, type := [], binary := none, hactions := h1, hcompile := h2, hsteps := h3,
                     hstamp := h4, hcompiles := h5, hobjects := h6, hbefore := rfl,
                     hend := Or.inl ⟨h7.1, h7.2.1, h7.2.2, rfl, rfl⟩ }⟩
          · split at h
            · exact nomatch h
            · rename_i type binary e4 h7
              cases h
              exact ⟨{ actionsDepends := ad, compileDepends := cd, actionsStamp := stamp, e1 := e1, e2 := e2,
                       objects := objects, type := type, binary := binary, hactions := h1, hcompile := h2, hsteps := h3,
                       hstamp := h4, hcompiles := h5, hobjects := h6, hbefore := rfl,
                       hend := Or.inr ⟨h7, rfl⟩ }⟩
        · exact nomatch h
  · exact nomatch h

/-! ### All targets -/

theorem filterMap_aget_congr {outs outs' : List (Str × NTarget)} {ds : List Str}
    (h : ∀ d ∈ ds, aget outs d = aget outs' d) : ds.filterMap (aget outs) = ds.filterMap (aget outs') :=
  List.filterMap_congr h

theorem ninjaSpec_congr {x : NinjaCtx} {outs outs' : List (Str × NTarget)} {s : NSpec}
    (h : ∀ d ∈ s.dependencies, aget outs d = aget outs' d) : ninjaSpec x outs s = ninjaSpec x outs' s := by
  have e := filterMap_aget_congr h
  have e2 : linkDepsOf outs s.dependencies = linkDepsOf outs' s.dependencies := by
    unfold linkDepsOf; rw [e]
  have e3 : ∀ a b c, ninjaLink x s outs a b c = ninjaLink x s outs' a b c := by
    intro a b c; unfold ninjaLink; rw [e2]
  have e4 : ∀ a b c, ninjaWriteTarget x s outs a b c = ninjaWriteTarget x s outs' a b c := by
    intro a b c; unfold ninjaWriteTarget; rw [e, e3]
  unfold ninjaSpec
  simp only [e, e4]

/-- What is written for all targets: each is written with the targets that are recorded in the end. -/
theorem ninjaTargets_some {ctx : Str → NinjaCtx} {ts : List (Str × NSpec)} {ws : List (Str × NWritten)}
    {outs : List (Str × NTarget)} (ho : InOrder ts) (h : ninjaTargets ctx ts [] = some (ws, outs)) :
    (∀ q s, (q, s) ∈ ts → ∃ w, (q, w) ∈ ws ∧ ninjaSpec (ctx q) outs s = some w ∧ aget outs q = w.target) ∧
      (∀ q w, (q, w) ∈ ws → ∃ s, (q, s) ∈ ts ∧ ninjaSpec (ctx q) outs s = some w) ∧
      (∀ q t, aget outs q = some t → q ∈ ts.map Prod.fst) := by
  have key : ∀ (rest done : List (Str × NSpec)) (o : List (Str × NTarget)) (ws : List (Str × NWritten))
      (outs : List (Str × NTarget)), ts = done ++ rest → (∀ q t, aget o q = some t → q ∈ done.map Prod.fst) →
      ninjaTargets ctx rest o = some (ws, outs) →
      (∀ q, q ∉ rest.map Prod.fst → aget outs q = aget o q) ∧
      (∀ q s, (q, s) ∈ rest → ∃ w, (q, w) ∈ ws ∧ ninjaSpec (ctx q) outs s = some w ∧ aget outs q = w.target) ∧
      (∀ q w, (q, w) ∈ ws → ∃ s, (q, s) ∈ rest ∧ ninjaSpec (ctx q) outs s = some w) := by
    intro rest
    induction rest with
    | nil =>
      intro done o ws outs _ _ h
      unfold ninjaTargets at h
      cases h
      simp
    | cons r rest ih =>
      obtain ⟨q, s⟩ := r
      intro done o ws outs hts hdone h
      unfold ninjaTargets at h
      split at h
      · exact nomatch h
      · rename_i w hw
        simp only at h
        split at h
        · exact nomatch h
        · rename_i ws' outs' hrest
          cases h
          obtain ⟨hq, hdeps⟩ := ho done q s rest hts
          -- keys of the rest are not among those before
          have hqr : q ∉ rest.map Prod.fst := by
            intro hm
            obtain ⟨⟨q', s'⟩, hm', rfl⟩ := List.mem_map.mp hm
            obtain ⟨a, b, hab⟩ := List.append_of_mem hm'
            have := (ho (done ++ (q', s) :: a) q' s' b (by rw [hts, hab]; simp)).1
            exact this (by simp)
          obtain ⟨k1, k2, k3⟩ := ih (done ++ [(q, s)])
            (match w.target with | some t => aset o q t | none => o) ws' outs (by rw [hts]; simp) (by
              intro q' t' h'
              cases hwt : w.target with
              | none =>
                rw [hwt] at h'
                have := hdone q' t' h'
                simp [this]
              | some t =>
                rw [hwt] at h'
                simp only [aget_aset] at h'
                split at h'
                · rename_i e
                  subst e
                  simp
                · have := hdone q' t' h'
                  simp [this]) hrest
          have hoq : aget o q = none := by
            cases e : aget o q with
            | none => rfl
            | some t => exact absurd (hdone q t e) hq
          have hother : ∀ k, k ≠ q → aget (match w.target with | some t => aset o q t | none => o) k = aget o k := by
            intro k hk
            cases w.target with
            | none => rfl
            | some t => simp only [aget_aset]; rw [if_neg (by simpa [eq_comm] using hk)]
          have hself : aget outs q = w.target := by
            rw [k1 q hqr]
            cases hwt : w.target with
            | none => exact hoq
            | some t => simp only [aget_aset, if_true]
          have hspec : ninjaSpec (ctx q) outs s = some w := by
            rw [← hw]
            apply ninjaSpec_congr
            intro d hd
            by_cases hk : d ∈ ts.map Prod.fst
            · have hdd := hdeps d hd hk
              have hdq : d ≠ q := fun e => hq (e ▸ hdd)
              have hdr : d ∉ rest.map Prod.fst := by
                intro hm
                obtain ⟨⟨d', s'⟩, hm', rfl⟩ := List.mem_map.mp hm
                obtain ⟨a, b, hab⟩ := List.append_of_mem hm'
                have := (ho (done ++ (q, s) :: a) d' s' b (by rw [hts, hab]; simp)).1
                exact this (by simp only [List.map_append, List.mem_append]; exact Or.inl hdd)
              rw [k1 d hdr, hother d hdq]
            · have hdr : d ∉ rest.map Prod.fst := fun hm => hk (by rw [hts]; simp at hm ⊢; exact Or.inr (Or.inr hm))
              have hdq : d ≠ q := fun e => hk (by rw [hts, e]; simp)
              rw [k1 d hdr, hother d hdq]
          refine ⟨?_, ?_, ?_⟩
          · intro k hk
            simp only [List.map_cons, List.mem_cons, not_or] at hk
            rw [k1 k hk.2, hother k hk.1]
          · intro q' s' hm
            rcases List.mem_cons.mp hm with hm | hm
            · cases hm
              exact ⟨w, by simp, hspec, hself⟩
            · obtain ⟨w', h1, h2⟩ := k2 q' s' hm
              exact ⟨w', by simp [h1], h2⟩
          · intro q' w' hm
            rcases List.mem_cons.mp hm with hm | hm
            · cases hm
              exact ⟨s, by simp, hspec⟩
            · obtain ⟨s', h1, h2⟩ := k3 q' w' hm
              exact ⟨s', by simp [h1], h2⟩
  obtain ⟨k1, k2, k3⟩ := key ts [] [] ws outs rfl (by intro q t h; simp [aget] at h) h
  refine ⟨k2, k3, ?_⟩
  intro q t hq
  by_contra hn
  rw [k1 q hn] at hq
  simp [aget] at hq

end Gyp
