import Verif.Model.TargetFile
import Verif.Spec.TargetFile
import Verif.Props.Includes
import Verif.Props.Targets
import Verif.Props.MergeLists
/-
C68: targets per toolset, defaults of targets, and the other steps of loading a build file.
-/
namespace Gyp
open Spec

theorem toolsetsOf_asked {multi : Bool} {t : Dict} {l : List Val} (h : toolsetsOf multi t = .ok l) :
    AskedToolsets multi t l := by
  unfold toolsetsOf at h
  cases multi with
  | false => cases h; exact .single rfl
  | true =>
    simp only [if_true] at h
    cases e : Dict.get? t c!"toolsets" with
    | none => rw [e] at h; cases h; exact .unsaid rfl e
    | some v =>
      rw [e] at h
      cases v with
      | list l' => cases h; exact .listed _ rfl e
      | str s => cases h; exact .letters _ rfl e
      | int i => cases h
      | dict d => cases h
      | other => cases h

theorem ownToolset_iff {t : Dict} :
    (c!"toolset" ∈ t.map Prod.fst ∧ c!"toolsets" ∉ t.map Prod.fst) ↔ OwnToolset t := by
  unfold OwnToolset
  rw [Dict.get?_isSome, Dict.get?_eq_none]
  rfl

theorem variant_set (t : Dict) (b : Val) :
    VariantFor t b ((t.del c!"toolsets").set c!"toolset" b) where
  toolset := Dict.get?_set_self _ _ _
  toolsets := by
    rw [Dict.get?_set_ne _ _ (by decide)]
    exact Dict.get?_del_self _ _
  rest k h1 h2 := by
    rw [Dict.get?_set_ne _ _ h1, Dict.get?_del_ne _ h2]

theorem expandTarget_built {multi : Bool} {v : Val} {out : List Val}
    (h : expandTarget multi v = .ok out) :
    ∃ t ds, v = .dict t ∧ out = ds.map .dict ∧ BuiltFor multi t ds := by
  cases v with
  | dict t =>
    unfold expandTarget at h
    dsimp only at h
    by_cases hf : c!"toolset" ∈ t.map Prod.fst ∧ c!"toolsets" ∉ t.map Prod.fst
    · rw [if_pos hf] at h; cases h
      exact ⟨t, [t], rfl, rfl, .fixed (ownToolset_iff.mp hf)⟩
    · rw [if_neg hf] at h
      have hf' : ¬ OwnToolset t := fun h => hf (ownToolset_iff.mpr h)
      cases e : toolsetsOf multi t with
      | error e' => rw [e] at h; cases h
      | ok l =>
        rw [e] at h
        cases l with
        | nil => cases h; exact ⟨t, [], rfl, rfl, .nowhere hf' (toolsetsOf_asked e)⟩
        | cons b bs =>
          cases h
          refine ⟨t, bs.map (fun b => (Dict.del t c!"toolsets").set c!"toolset" b) ++
            [(Dict.del t c!"toolsets").set c!"toolset" b], rfl, by simp [Function.comp_def], ?_⟩
          refine .each hf' (toolsetsOf_asked e) ?_ (variant_set t b)
          clear e hf hf'
          induction bs with
          | nil => exact .nil
          | cons b' bs ih => exact .cons (variant_set t b') ih
  | str s => cases h
  | int i => cases h
  | list l => cases h
  | other => cases h

theorem expandTargets_built {multi : Bool} {l out : List Val}
    (h : expandTargets multi l = .ok out) :
    ∃ (ts : List Dict) (dss : List (List Dict)), l = ts.map .dict ∧ out = dss.flatten.map .dict ∧
      List.Forall₂ (BuiltFor multi) ts dss := by
  induction l generalizing out with
  | nil => cases h; exact ⟨[], [], rfl, rfl, .nil⟩
  | cons t rest ih =>
    unfold expandTargets at h
    cases e : expandTarget multi t with
    | error e' => rw [e] at h; cases h
    | ok a =>
      rw [e] at h
      cases e2 : expandTargets multi rest with
      | error e' => rw [e2] at h; cases h
      | ok b =>
        rw [e2] at h; cases h
        obtain ⟨t', ds, rfl, rfl, hb⟩ := expandTarget_built e
        obtain ⟨ts, dss, rfl, rfl, hbs⟩ := ih e2
        exact ⟨t' :: ts, ds :: dss, rfl, by simp, .cons hb hbs⟩

/-- The effect on a dictionary is entry by entry. -/
theorem process_entry {multi : Bool} {d d' : Dict} (h : ProcessToolsetsInDict multi d = .ok d')
    (k : Str) :
    match d.get? k with
    | none => d'.get? k = none
    | some v => ∃ v', toolsetsEntry multi k v = .ok v' ∧ d'.get? k = some v' := by
  induction d generalizing d' with
  | nil => unfold ProcessToolsetsInDict at h; cases h; rfl
  | cons e d ih =>
    obtain ⟨k1, v1⟩ := e
    unfold ProcessToolsetsInDict at h
    cases e1 : toolsetsEntry multi k1 v1 with
    | error _ => rw [e1] at h; cases h
    | ok v1' =>
      rw [e1] at h
      simp only at h
      cases e2 : ProcessToolsetsInDict multi d with
      | error _ => rw [e2] at h; cases h
      | ok r =>
        rw [e2] at h; cases h
        simp only [Dict.get?]
        by_cases hk : k1 = k
        · subst hk
          simp only [if_true]
          exact ⟨v1', e1, rfl⟩
        · simp only [if_neg hk]
          exact ih e2

theorem process_keys {multi : Bool} {d d' : Dict} (h : ProcessToolsetsInDict multi d = .ok d') :
    d'.keys = d.keys := by
  induction d generalizing d' with
  | nil => unfold ProcessToolsetsInDict at h; cases h; rfl
  | cons e d ih =>
    obtain ⟨k1, v1⟩ := e
    unfold ProcessToolsetsInDict at h
    cases e1 : toolsetsEntry multi k1 v1 with
    | error _ => rw [e1] at h; cases h
    | ok v1' =>
      rw [e1] at h
      simp only at h
      cases e2 : ProcessToolsetsInDict multi d with
      | error _ => rw [e2] at h; cases h
      | ok r =>
        rw [e2] at h; cases h
        have := ih e2
        simp only [Dict.keys, List.map_cons] at this ⊢
        rw [this]

/-- C68: each target of a dictionary is replaced, in place, by one variant for each of its
toolsets, which says so and is otherwise the same. -/
theorem C68_targets (multi : Bool) (d d' : Dict) (h : ProcessToolsetsInDict multi d = .ok d')
    (v : Val) (hv : d.get? c!"targets" = some v) :
    ∃ (ts : List Dict) (variants : List (List Dict)), v = .list (ts.map .dict) ∧
      List.Forall₂ (BuiltFor multi) ts variants ∧
      d'.get? c!"targets" = some (.list (variants.flatten.map .dict)) := by
  have := process_entry h c!"targets"
  rw [hv] at this
  obtain ⟨v', e, hd⟩ := this
  cases v with
  | list l =>
    simp only [toolsetsEntry, if_true] at e
    cases e2 : expandTargets multi l with
    | error _ => rw [e2] at e; cases e
    | ok out =>
      rw [e2] at e; cases e
      obtain ⟨ts, dss, rfl, rfl, hb⟩ := expandTargets_built e2
      exact ⟨ts, dss, rfl, hb, hd⟩
  | str s => simp [toolsetsEntry] at e
  | int i => simp [toolsetsEntry] at e
  | dict t => simp [toolsetsEntry] at e
  | other => simp [toolsetsEntry] at e

/-- C68: nothing else changes, apart from conditions. -/
theorem C68_others (multi : Bool) (d d' : Dict) (h : ProcessToolsetsInDict multi d = .ok d') :
    d'.keys = d.keys ∧
    ∀ k, k ≠ c!"targets" → k ≠ c!"conditions" → d'.get? k = d.get? k := by
  refine ⟨process_keys h, fun k h1 h2 => ?_⟩
  have := process_entry h k
  cases e : Dict.get? d k with
  | none => rw [e] at this; exact this
  | some v =>
    rw [e] at this
    obtain ⟨v', e', hd⟩ := this
    rw [hd]
    cases v <;> simp [toolsetsEntry, h1, h2] at e' <;> rw [e']

theorem branches_rel {multi : Bool} {l l' : List Val} (h : toolsetsBranches multi l = .ok l') :
    List.Forall₂ (fun b b' => ((∀ e, b ≠ .dict e) ∧ b' = b) ∨
      ∃ e e', b = .dict e ∧ b' = .dict e' ∧ ProcessToolsetsInDict multi e = .ok e') l l' := by
  induction l generalizing l' with
  | nil => unfold toolsetsBranches at h; cases h; exact .nil
  | cons v rest ih =>
    cases v with
    | dict d =>
      unfold toolsetsBranches at h
      cases e1 : ProcessToolsetsInDict multi d with
      | error _ => rw [e1] at h; cases h
      | ok d2 =>
        rw [e1] at h
        cases e2 : toolsetsBranches multi rest with
        | error _ => rw [e2] at h; cases h
        | ok r => rw [e2] at h; cases h; exact .cons (Or.inr ⟨d, d2, rfl, rfl, e1⟩) (ih e2)
    | str s =>
      unfold toolsetsBranches at h
      cases e2 : toolsetsBranches multi rest with
      | error _ => rw [e2] at h; cases h
      | ok r => rw [e2] at h; cases h; exact .cons (Or.inl ⟨by simp, rfl⟩) (ih e2)
    | int s =>
      unfold toolsetsBranches at h
      cases e2 : toolsetsBranches multi rest with
      | error _ => rw [e2] at h; cases h
      | ok r => rw [e2] at h; cases h; exact .cons (Or.inl ⟨by simp, rfl⟩) (ih e2)
    | list s =>
      unfold toolsetsBranches at h
      cases e2 : toolsetsBranches multi rest with
      | error _ => rw [e2] at h; cases h
      | ok r => rw [e2] at h; cases h; exact .cons (Or.inl ⟨by simp, rfl⟩) (ih e2)
    | other =>
      unfold toolsetsBranches at h
      cases e2 : toolsetsBranches multi rest with
      | error _ => rw [e2] at h; cases h
      | ok r => rw [e2] at h; cases h; exact .cons (Or.inl ⟨by simp, rfl⟩) (ih e2)

/-- One condition: the expression stays, each dictionary after it is processed. -/
def ConditionSpread (multi : Bool) (c c' : Val) : Prop :=
  ((∀ h t, c ≠ .list (h :: t)) ∧ c' = c) ∨
  ∃ h t t', c = .list (h :: t) ∧ c' = .list (h :: t') ∧
    List.Forall₂ (fun b b' => ((∀ e, b ≠ .dict e) ∧ b' = b) ∨
      ∃ e e', b = .dict e ∧ b' = .dict e' ∧ ProcessToolsetsInDict multi e = .ok e') t t'

theorem conditions_rel {multi : Bool} {l l' : List Val}
    (h : toolsetsConditions multi l = .ok l') :
    List.Forall₂ (ConditionSpread multi) l l' := by
  induction l generalizing l' with
  | nil => unfold toolsetsConditions at h; cases h; exact .nil
  | cons v rest ih =>
    have plain : ∀ (hv : ∀ h t, v ≠ .list (h :: t)),
        (match toolsetsConditions multi rest with
          | .error e => .error e
          | .ok rest' => .ok (v :: rest')) = (.ok l' : Except TFErr (List Val)) →
        List.Forall₂ (ConditionSpread multi) (v :: rest) l' := by
      intro hv h
      cases e2 : toolsetsConditions multi rest with
      | error _ => rw [e2] at h; cases h
      | ok r => rw [e2] at h; cases h; exact .cons (Or.inl ⟨hv, rfl⟩) (ih e2)
    cases v with
    | list c =>
      cases c with
      | nil => unfold toolsetsConditions at h; exact plain (by simp) h
      | cons hd t =>
        unfold toolsetsConditions at h
        cases e1 : toolsetsBranches multi t with
        | error _ => rw [e1] at h; cases h
        | ok t2 =>
          rw [e1] at h
          simp only at h
          cases e2 : toolsetsConditions multi rest with
          | error _ => rw [e2] at h; cases h
          | ok r =>
            rw [e2] at h; cases h
            exact .cons (Or.inr ⟨hd, t, t2, rfl, rfl, branches_rel e1⟩) (ih e2)
    | str s => unfold toolsetsConditions at h; exact plain (by simp) h
    | int s => unfold toolsetsConditions at h; exact plain (by simp) h
    | dict s => unfold toolsetsConditions at h; exact plain (by simp) h
    | other => unfold toolsetsConditions at h; exact plain (by simp) h

/-- C68: the same holds for the targets inside conditions, to any depth. -/
theorem C68_conditions (multi : Bool) (d d' : Dict) (h : ProcessToolsetsInDict multi d = .ok d')
    (cs : List Val) (hv : d.get? c!"conditions" = some (.list cs)) :
    ∃ cs', d'.get? c!"conditions" = some (.list cs') ∧
      List.Forall₂ (ConditionSpread multi) cs cs' := by
  have := process_entry h c!"conditions"
  rw [hv] at this
  obtain ⟨v', e, hd⟩ := this
  simp only [toolsetsEntry, if_true] at e
  rw [if_neg (by decide)] at e
  cases e2 : toolsetsConditions multi cs with
  | error _ => rw [e2] at e; cases e
  | ok out => rw [e2] at e; cases e; exact ⟨out, hd, conditions_rel e2⟩

/-! ### Doing it again -/

theorem expandTargets_append {multi : Bool} (a b : List Val) :
    expandTargets multi (a ++ b) =
      match expandTargets multi a with
      | .error e => .error e
      | .ok x => match expandTargets multi b with
        | .error e => .error e
        | .ok y => .ok (x ++ y) := by
  induction a with
  | nil =>
    simp only [List.nil_append, expandTargets]
    cases expandTargets multi b <;> rfl
  | cons t a ih =>
    simp only [List.cons_append, expandTargets]
    cases expandTarget multi t with
    | error _ => rfl
    | ok x =>
      simp only [ih]
      cases expandTargets multi a with
      | error _ => rfl
      | ok y =>
        simp only
        cases expandTargets multi b with
        | error _ => rfl
        | ok z => simp

theorem expand_fixed {multi : Bool} {t : Dict} (h : OwnToolset t) :
    expandTarget multi (.dict t) = .ok [.dict t] := by
  unfold expandTarget
  dsimp only
  rw [if_pos (ownToolset_iff.mpr h)]

theorem built_fixed {multi : Bool} {t : Dict} {ds : List Dict} (h : BuiltFor multi t ds) :
    ∀ x ∈ ds, OwnToolset x := by
  have key : ∀ {b v}, VariantFor t b v → OwnToolset v := fun hv =>
    ⟨by rw [hv.toolset]; rfl, hv.toolsets⟩
  cases h with
  | fixed hf => simpa using hf
  | nowhere _ _ => simp
  | @each b bs vs v _ _ h1 h2 =>
    have all : ∀ {bs vs}, List.Forall₂ (VariantFor t) bs vs → ∀ x ∈ vs, OwnToolset x := by
      intro bs vs h
      induction h with
      | nil => simp
      | cons h _ ih =>
        intro x hx
        rcases List.mem_cons.mp hx with rfl | hx
        · exact key h
        · exact ih x hx
    intro x hx
    rcases List.mem_append.mp hx with hx | hx
    · exact all h1 x hx
    · rw [List.mem_singleton] at hx; subst hx; exact key h2

theorem expandTargets_fixed {multi : Bool} {ds : List Dict} (h : ∀ x ∈ ds, OwnToolset x) :
    expandTargets multi (ds.map .dict) = .ok (ds.map .dict) := by
  induction ds with
  | nil => rfl
  | cons t ds ih =>
    simp only [List.map_cons, expandTargets]
    rw [expand_fixed (h t (by simp)), ih fun x hx => h x (List.mem_cons_of_mem _ hx)]
    rfl

theorem expandTargets_again {multi : Bool} {l out : List Val}
    (h : expandTargets multi l = .ok out) : expandTargets multi out = .ok out := by
  obtain ⟨ts, dss, rfl, rfl, hb⟩ := expandTargets_built h
  apply expandTargets_fixed
  intro x hx
  rw [List.mem_flatten] at hx
  obtain ⟨ds, hds, hx⟩ := hx
  clear h
  induction hb with
  | nil => cases hds
  | cons h1 _ ih =>
    rcases List.mem_cons.mp hds with rfl | hds
    · exact built_fixed h1 x hx
    · exact ih hds

mutual

theorem process_again (multi : Bool) : ∀ (d d' : Dict), ProcessToolsetsInDict multi d = .ok d' →
    ProcessToolsetsInDict multi d' = .ok d'
  | [], d', h => by unfold ProcessToolsetsInDict at h; cases h; unfold ProcessToolsetsInDict; rfl
  | (k, v) :: rest, d', h => by
    unfold ProcessToolsetsInDict at h
    cases e1 : toolsetsEntry multi k v with
    | error _ => rw [e1] at h; cases h
    | ok v' =>
      rw [e1] at h
      simp only at h
      cases e2 : ProcessToolsetsInDict multi rest with
      | error _ => rw [e2] at h; cases h
      | ok r =>
        rw [e2] at h; cases h
        unfold ProcessToolsetsInDict
        rw [entry_again multi k v v' e1, process_again multi rest r e2]

theorem entry_again (multi : Bool) (k : Str) : ∀ (v v' : Val), toolsetsEntry multi k v = .ok v' →
    toolsetsEntry multi k v' = .ok v'
  | .list l, v', h => by
    unfold toolsetsEntry at h
    by_cases h1 : k = c!"targets"
    · rw [if_pos h1] at h
      cases e : expandTargets multi l with
      | error _ => rw [e] at h; cases h
      | ok out =>
        rw [e] at h; cases h
        unfold toolsetsEntry
        rw [if_pos h1, expandTargets_again e]; rfl
    · rw [if_neg h1] at h
      by_cases h2 : k = c!"conditions"
      · rw [if_pos h2] at h
        cases e : toolsetsConditions multi l with
        | error _ => rw [e] at h; cases h
        | ok out =>
          rw [e] at h; cases h
          unfold toolsetsEntry
          rw [if_neg h1, if_pos h2, conditions_again multi l out e]; rfl
      · rw [if_neg h2] at h; cases h
        unfold toolsetsEntry
        rw [if_neg h1, if_neg h2]
  | .str s, v', h => by
    have : v' = .str s := by
      unfold toolsetsEntry at h
      split at h <;> cases h; rfl
    rw [this] at h ⊢; exact h
  | .dict s, v', h => by
    have : v' = .dict s := by
      unfold toolsetsEntry at h
      split at h <;> cases h; rfl
    rw [this] at h ⊢; exact h
  | .int s, v', h => by
    have : v' = .int s := by
      unfold toolsetsEntry at h
      by_cases h1 : k = c!"targets"
      · rw [if_pos h1] at h; cases h
      · rw [if_neg h1] at h
        by_cases h2 : k = c!"conditions"
        · rw [if_pos h2] at h; cases h
        · rw [if_neg h2] at h; cases h; rfl
    rw [this] at h ⊢; exact h
  | .other, v', h => by
    have : v' = .other := by
      unfold toolsetsEntry at h
      by_cases h1 : k = c!"targets"
      · rw [if_pos h1] at h; cases h
      · rw [if_neg h1] at h
        by_cases h2 : k = c!"conditions"
        · rw [if_pos h2] at h; cases h
        · rw [if_neg h2] at h; cases h; rfl
    rw [this] at h ⊢; exact h

theorem conditions_again (multi : Bool) : ∀ (l l' : List Val),
    toolsetsConditions multi l = .ok l' → toolsetsConditions multi l' = .ok l'
  | [], l', h => by unfold toolsetsConditions at h; cases h; unfold toolsetsConditions; rfl
  | .list (hd :: t) :: rest, l', h => by
    unfold toolsetsConditions at h
    cases e1 : toolsetsBranches multi t with
    | error _ => rw [e1] at h; cases h
    | ok t' =>
      rw [e1] at h
      simp only at h
      cases e2 : toolsetsConditions multi rest with
      | error _ => rw [e2] at h; cases h
      | ok r =>
        rw [e2] at h; cases h
        unfold toolsetsConditions
        rw [branches_again multi t t' e1, conditions_again multi rest r e2]
  | .list [] :: rest, l', h => by
    unfold toolsetsConditions at h
    cases e2 : toolsetsConditions multi rest with
    | error _ => rw [e2] at h; cases h
    | ok r => rw [e2] at h; cases h; unfold toolsetsConditions; rw [conditions_again multi rest r e2]
  | .str s :: rest, l', h => by
    unfold toolsetsConditions at h
    cases e2 : toolsetsConditions multi rest with
    | error _ => rw [e2] at h; cases h
    | ok r => rw [e2] at h; cases h; unfold toolsetsConditions; rw [conditions_again multi rest r e2]
  | .int s :: rest, l', h => by
    unfold toolsetsConditions at h
    cases e2 : toolsetsConditions multi rest with
    | error _ => rw [e2] at h; cases h
    | ok r => rw [e2] at h; cases h; unfold toolsetsConditions; rw [conditions_again multi rest r e2]
  | .dict s :: rest, l', h => by
    unfold toolsetsConditions at h
    cases e2 : toolsetsConditions multi rest with
    | error _ => rw [e2] at h; cases h
    | ok r => rw [e2] at h; cases h; unfold toolsetsConditions; rw [conditions_again multi rest r e2]
  | .other :: rest, l', h => by
    unfold toolsetsConditions at h
    cases e2 : toolsetsConditions multi rest with
    | error _ => rw [e2] at h; cases h
    | ok r => rw [e2] at h; cases h; unfold toolsetsConditions; rw [conditions_again multi rest r e2]

theorem branches_again (multi : Bool) : ∀ (l l' : List Val),
    toolsetsBranches multi l = .ok l' → toolsetsBranches multi l' = .ok l'
  | [], l', h => by unfold toolsetsBranches at h; cases h; unfold toolsetsBranches; rfl
  | .dict d :: rest, l', h => by
    unfold toolsetsBranches at h
    cases e1 : ProcessToolsetsInDict multi d with
    | error _ => rw [e1] at h; cases h
    | ok t' =>
      rw [e1] at h
      simp only at h
      cases e2 : toolsetsBranches multi rest with
      | error _ => rw [e2] at h; cases h
      | ok r =>
        rw [e2] at h; cases h
        unfold toolsetsBranches
        rw [process_again multi d t' e1, branches_again multi rest r e2]
  | .list s :: rest, l', h => by
    unfold toolsetsBranches at h
    cases e2 : toolsetsBranches multi rest with
    | error _ => rw [e2] at h; cases h
    | ok r => rw [e2] at h; cases h; unfold toolsetsBranches; rw [branches_again multi rest r e2]
  | .str s :: rest, l', h => by
    unfold toolsetsBranches at h
    cases e2 : toolsetsBranches multi rest with
    | error _ => rw [e2] at h; cases h
    | ok r => rw [e2] at h; cases h; unfold toolsetsBranches; rw [branches_again multi rest r e2]
  | .int s :: rest, l', h => by
    unfold toolsetsBranches at h
    cases e2 : toolsetsBranches multi rest with
    | error _ => rw [e2] at h; cases h
    | ok r => rw [e2] at h; cases h; unfold toolsetsBranches; rw [branches_again multi rest r e2]
  | .other :: rest, l', h => by
    unfold toolsetsBranches at h
    cases e2 : toolsetsBranches multi rest with
    | error _ => rw [e2] at h; cases h
    | ok r => rw [e2] at h; cases h; unfold toolsetsBranches; rw [branches_again multi rest r e2]

end

/-- C68: the second round of the expansion (after conditions) leaves alone what the first round
has done. -/
theorem C68_again (multi : Bool) (d d' : Dict) (h : ProcessToolsetsInDict multi d = .ok d') :
    ProcessToolsetsInDict multi d' = .ok d' := process_again multi d d' h

/-! ### Defaults -/

theorem mergeDefaults_rel {c : MergeCtx} {v : Val} {l l' : List Val}
    (h : mergeDefaults c v l = .ok l') :
    List.Forall₂ (fun t t' => ∃ d e e', v = .dict d ∧ t = .dict e ∧ t' = .dict e' ∧
      MergeDicts c d e = .ok e') l l' := by
  induction l generalizing l' with
  | nil => cases h; exact .nil
  | cons t rest ih =>
    unfold mergeDefaults at h
    cases e1 : mergeDefault c v t with
    | error _ => rw [e1] at h; cases h
    | ok a =>
      rw [e1] at h
      simp only at h
      cases e2 : mergeDefaults c v rest with
      | error _ => rw [e2] at h; cases h
      | ok b =>
        rw [e2] at h; cases h
        refine .cons ?_ (ih e2)
        cases t with
        | dict e =>
          cases v with
          | dict d =>
            simp only [mergeDefault] at e1
            cases e3 : MergeDicts c d e with
            | error _ => rw [e3] at e1; cases e1
            | ok r => rw [e3] at e1; cases e1; exact ⟨d, e, r, rfl, rfl, rfl, e3⟩
          | str s => cases e1
          | int s => cases e1
          | list s => cases e1
          | other => cases e1
        | str s => cases e1
        | int s => cases e1
        | list s => cases e1
        | other => cases e1

/-- C68: with `target_defaults` every target is merged into the defaults, in place; the section
disappears and nothing else changes. -/
theorem C68_defaults (cwd ps : List Str) (path : Str) (d d' : Dict) (v : Val)
    (h : applyTargetDefaults cwd ps path d = .ok d') (hv : d.get? c!"target_defaults" = some v) :
    ∃ ts ts', d.get? c!"targets" = some (.list ts) ∧ d'.get? c!"targets" = some (.list ts') ∧
      d'.get? c!"target_defaults" = none ∧
      (∀ k, k ≠ c!"targets" → k ≠ c!"target_defaults" → d'.get? k = d.get? k) ∧
      List.Forall₂ (fun t t' => ∃ dflt own all, v = .dict dflt ∧ t = .dict own ∧ t' = .dict all ∧
        MergeDicts ⟨cwd, ps, path, path⟩ dflt own = .ok all) ts ts' := by
  unfold applyTargetDefaults at h
  rw [hv] at h
  dsimp only at h
  cases ht : Dict.get? d c!"targets" with
  | none => rw [ht] at h; cases h
  | some w =>
    rw [ht] at h
    cases w with
    | list ts =>
      dsimp only at h
      cases e : mergeDefaults ⟨cwd, ps, path, path⟩ v ts with
      | error _ => rw [e] at h; cases h
      | ok ts' =>
        rw [e] at h; cases h
        refine ⟨ts, ts', rfl, ?_, Dict.get?_del_self _ _, ?_, mergeDefaults_rel e⟩
        · rw [Dict.get?_del_ne _ (by decide), Dict.get?_set_self]
        · intro k h1 h2
          rw [Dict.get?_del_ne _ h2, Dict.get?_set_ne _ _ h1]
    | str s => cases h
    | int s => cases h
    | dict s => cases h
    | other => cases h

/-- C68: without the section nothing happens; with it a file without targets is refused. -/
theorem C68_no_defaults (cwd ps : List Str) (path : Str) (d : Dict) :
    (d.get? c!"target_defaults" = none → applyTargetDefaults cwd ps path d = .ok d) ∧
    (∀ v, d.get? c!"target_defaults" = some v → d.get? c!"targets" = none →
      applyTargetDefaults cwd ps path d = .error (.noTargets path)) := by
  constructor
  · intro h; unfold applyTargetDefaults; rw [h]
  · intro v h1 h2; unfold applyTargetDefaults; rw [h1, h2]

/-- C68: a target's own texts and numbers win over the defaults, the defaults hold for
everything the target does not mention, and lists of the target are appended to those of the
defaults. -/
theorem C68_precedence (cwd ps : List Str) (path : Str) (dflt own all : Dict)
    (hn : own.keys.Nodup) (h : MergeDicts ⟨cwd, ps, path, path⟩ dflt own = .ok all) (k : Str) :
    (∀ v, v.isScalar = true → (k, v) ∈ own → all.get? k = some v) ∧
    (Silent k own → all.get? k = dflt.get? k) ∧
    (∀ l, (k, .list l) ∈ own → (∀ b, k ≠ b ++ c!"=" ∧ k ≠ b ++ c!"+" ∧ k ≠ b ++ c!"?") →
      k ++ c!"+" ∉ own.keys →
      ∃ old new, (dflt.get? k = none ∧ old = [] ∨ dflt.get? k = some (.list old)) ∧
        MergeLists ⟨cwd, ps, path, path⟩ old l (IsPathSection ps k) true = .ok new ∧
        all.get? k = some (.list new)) := by
  refine ⟨?_, ?_, ?_⟩
  · intro v hv hm
    rw [(C22_scalar _ _ _ _ hn h k v hv hm).1]
    cases v with
    | str s =>
      simp only [scalarUnder, Option.some.injEq, Val.str.injEq]
      split
      · unfold MakePathRelative; rw [if_pos (Or.inl rfl)]
      · rfl
    | int i => rfl
    | list l => cases hv
    | dict l => cases hv
    | other => cases hv
  · intro hs
    exact C22_untouched _ _ _ _ h k hs.1 hs.2
  · intro l hm hp ha
    exact C22_append _ _ _ _ hn h k l hm hp ha

/-! ### The rest of the file -/

theorem replaceChar_none {c : Char} {r s : Str} (h : c ∉ s) : replaceChar c r s = s := by
  unfold replaceChar
  induction s with
  | nil => rfl
  | cons x s ih =>
    simp only [List.mem_cons, not_or] at h
    simp [Ne.symm h.1, ih h.2]

/-- C68: the variable `DEPTH` leads from the directory of the build file to the depth
directory. -/
theorem C68_depth (cwd : List Str) (hc : ∀ c ∈ cwd, validName c) (depth path : Str)
    (hb : '\\' ∉ RelativePath cwd depth (dirname path)) :
    walk (walk cwd.reverse (dirname path)) (depthVariable cwd depth path) =
      walk cwd.reverse depth := by
  unfold depthVariable
  dsimp only
  have hw := walk_RelativePath hc depth (dirname path)
  by_cases h : RelativePath cwd depth (dirname path) = []
  · rw [if_pos h]
    rw [h] at hw
    rw [← hw]
    rfl
  · rw [if_neg h, replaceChar_none hb]
    exact hw

/-- C68: the list of included files handed to the generators names, from the directory of the
build file, the files that contributed to it. -/
theorem C68_included_files (w : IncWorld) (hc : ∀ c ∈ w.cwd, validName c)
    (T : List (Str × Dict)) (st st1 : IncState) (n fuel : Nat) (path depth : Str)
    (extra : List Str) (d : Dict) (hst : Loaded w T st) (hd : aget st.data path = none)
    (h : LoadOneBuildFile w n st path extra = .ok (st1, d))
    (hT : ∀ x, Contributes (sourcesOf w T) path extra x → aget T x = none)
    (hfuel : st1.data.length + 1 < fuel) :
    ∃ files names, GetIncludedBuildFiles (aget st1.aux) fuel [] path = .ok files ∧
      (∀ x, x ∈ files ↔ Contributes (sourcesOf w T) path extra x) ∧
      (markLoaded w.cwd depth path files d).get? c!"included_files" =
        some (.list (names.map .str)) ∧
      List.Forall₂ (fun f name => walk (walk w.cwd.reverse (dirname path)) name =
        walk w.cwd.reverse f) files names := by
  obtain ⟨l, h1, -, h2⟩ := C67_contributors w T st st1 n path extra d hst hd h hT fuel hfuel
  refine ⟨path :: l, (path :: l).map fun f => RelativePath w.cwd f (dirname path), h1, h2, ?_, ?_⟩
  · unfold markLoaded
    rw [Dict.get?_set_self, List.map_map]; rfl
  · generalize path :: l = fs
    induction fs with
    | nil => exact .nil
    | cons f fs ih => exact .cons (walk_RelativePath hc f (dirname path)) ih

theorem fileDependencies_mem {cwd : List Str} {path : Str} {ts : List Val} {deps : List Str}
    (h : fileDependencies cwd path ts = .ok deps) (f : Str) :
    f ∈ deps ↔ ∃ t names dep, .dict t ∈ ts ∧
      Dict.get? t c!"dependencies" = some (.list names) ∧
      .str dep ∈ names ∧ f = (ResolveTarget cwd path dep none).1 := by
  induction ts generalizing deps with
  | nil => cases h; simp
  | cons t rest ih =>
    unfold fileDependencies at h
    cases e1 : targetDependencies cwd path t with
    | error _ => rw [e1] at h; cases h
    | ok a =>
      rw [e1] at h
      dsimp only at h
      cases e2 : fileDependencies cwd path rest with
      | error _ => rw [e2] at h; cases h
      | ok b =>
        rw [e2] at h; cases h
        rw [List.mem_append, ih e2]
        have ha : f ∈ a ↔ ∃ e names dep, .dict e = t ∧
            Dict.get? e c!"dependencies" = some (.list names) ∧
            .str dep ∈ names ∧ f = (ResolveTarget cwd path dep none).1 := by
          cases t with
          | dict e =>
            simp only [targetDependencies] at e1
            cases e3 : Dict.get? e c!"dependencies" with
            | none => rw [e3] at e1; cases e1; simp [e3]
            | some v =>
              rw [e3] at e1
              cases v with
              | list names =>
                dsimp only at e1
                cases e4 : strItems names with
                | none => rw [e4] at e1; cases e1
                | some ns =>
                  rw [e4] at e1; cases e1
                  constructor
                  · intro hf
                    obtain ⟨dep, hdep, rfl⟩ := List.mem_map.mp hf
                    exact ⟨e, names, dep, rfl, e3, by rw [strItems_some e4]; exact List.mem_map.mpr ⟨dep, hdep, rfl⟩, rfl⟩
                  · rintro ⟨e', names', dep, he, h3, h4, rfl⟩
                    cases he
                    rw [e3] at h3; cases h3
                    rw [strItems_some e4] at h4
                    obtain ⟨x, hx, hx'⟩ := List.mem_map.mp h4
                    cases hx'
                    exact List.mem_map.mpr ⟨_, hx, rfl⟩
              | str s => cases e1
              | int s => cases e1
              | dict s => cases e1
              | other => cases e1
          | str s => cases e1
          | int s => cases e1
          | list s => cases e1
          | other => cases e1
        rw [ha]
        constructor
        · rintro (⟨e, names, dep, rfl, h3⟩ | ⟨e, names, dep, h3, h4⟩)
          · exact ⟨e, names, dep, by simp, h3⟩
          · exact ⟨e, names, dep, List.mem_cons_of_mem _ h3, h4⟩
        · rintro ⟨e, names, dep, h3, h4⟩
          rcases List.mem_cons.mp h3 with h3 | h3
          · exact Or.inl ⟨e, names, dep, h3, h4⟩
          · exact Or.inr ⟨e, names, dep, h3, h4⟩

/-- C68: a build file that loads asks for exactly the build files that its finished targets
depend on, and leaves the loader in a state from which C67 holds for the next file. -/
theorem C68_load (w : IncWorld) (multi : Bool) (early : Dict → Option Dict) (depth : Str)
    (fuel fuel2 : Nat) (T : List (Str × Dict)) (st st' : IncState) (path : Str)
    (includes : List Str) (d : Dict) (deps : List Str) (hst : Loaded w T st)
    (hd : aget st.data path = none)
    (h : LoadTargetBuildFile w multi early depth fuel fuel2 st path includes =
      .ok (st', d, deps)) :
    (∀ f, f ∈ deps ↔ ∃ ts t names dep, d.get? c!"targets" = some (.list ts) ∧ .dict t ∈ ts ∧
      Dict.get? t c!"dependencies" = some (.list names) ∧ .str dep ∈ names ∧
      f = (ResolveTarget w.cwd path dep none).1) ∧
    aget st'.data path = some d ∧ Loaded w (aset T path d) st' := by
  unfold LoadTargetBuildFile at h
  split at h
  · cases h
  · rename_i st1 d1 e1
    split at h
    · cases h
    · split at h
      · cases h
      · rename_i files e2
        split at h
        · cases h
        · rename_i d2 e3
          split at h
          · cases h
          · rename_i deps' e4
            cases h
            refine ⟨?_, by dsimp only; rw [aget_aset, if_pos rfl], .next hst hd e1⟩
            intro f
            unfold dependenciesOf at e4
            cases e5 : Dict.get? d c!"targets" with
            | none => rw [e5] at e4; cases e4; simp
            | some v =>
              rw [e5] at e4
              cases v with
              | list ts =>
                dsimp only at e4
                rw [fileDependencies_mem e4]
                constructor
                · rintro ⟨t, names, dep, h⟩; exact ⟨ts, t, names, dep, rfl, h⟩
                · rintro ⟨ts', t, names, dep, he, h⟩; cases he; exact ⟨t, names, dep, h⟩
              | str s => cases e4
              | int s => cases e4
              | dict s => cases e4
              | other => cases e4

/-- C68: the stages of loading a build file: the file completed by its includes gets the depth,
its targets are spread over the toolsets, variables and conditions are processed, the targets
that come from conditions are spread too, and the defaults, if any, are applied. -/
theorem C68_stages (w : IncWorld) (multi : Bool) (early : Dict → Option Dict) (depth : Str)
    (fuel fuel2 : Nat) (st st' : IncState) (path : Str)
    (includes : List Str) (d : Dict) (deps : List Str)
    (h : LoadTargetBuildFile w multi early depth fuel fuel2 st path includes =
      .ok (st', d, deps)) :
    ∃ st1 d0 d1 d2 d3 d4, LoadOneBuildFile w fuel st path includes = .ok (st1, d0) ∧
      d1.get? c!"_DEPTH" = some (.str depth) ∧
      (∀ k, k ≠ c!"_DEPTH" → k ≠ c!"included_files" → d1.get? k = d0.get? k) ∧
      SpreadOver multi d1 d2 ∧ early d2 = some d3 ∧ SpreadOver multi d3 d4 ∧
      (d4.get? c!"target_defaults" = none → d = d4) ∧
      (∀ v, d4.get? c!"target_defaults" = some v →
        ∃ ts ts', d4.get? c!"targets" = some (.list ts) ∧
          d.get? c!"targets" = some (.list ts') ∧ d.get? c!"target_defaults" = none ∧
          (∀ k, k ≠ c!"targets" → k ≠ c!"target_defaults" → d.get? k = d4.get? k) ∧
          List.Forall₂ (fun t t' => ∃ dflt own all, v = .dict dflt ∧ t = .dict own ∧
            t' = .dict all ∧
            MergeDicts ⟨w.cwd, w.pathSections, path, path⟩ dflt own = .ok all) ts ts') := by
  have spread : ∀ {a b}, ProcessToolsetsInDict multi a = .ok b → SpreadOver multi a b :=
    fun {a b} h => ⟨(C68_others multi a b h).1, (C68_others multi a b h).2,
      C68_targets multi a b h⟩
  unfold LoadTargetBuildFile at h
  split at h
  · cases h
  · rename_i st1 d0 e1
    split at h
    · cases h
    · split at h
      · cases h
      · rename_i files e2
        split at h
        · cases h
        · rename_i d2 e3
          split at h
          · cases h
          · cases h
            unfold finishTargetFile at e3
            split at e3
            · cases e3
            · rename_i a ea
              split at e3
              · cases e3
              · rename_i b eb
                split at e3
                · cases e3
                · rename_i c ec
                  refine ⟨st1, d0, _, a, b, c, e1, ?_, ?_, spread ea, eb, spread ec, ?_, ?_⟩
                  · unfold markLoaded
                    rw [Dict.get?_set_ne _ _ (by decide), Dict.get?_set_self]
                  · intro k h1 h2
                    unfold markLoaded
                    rw [Dict.get?_set_ne _ _ h2, Dict.get?_set_ne _ _ h1]
                  · intro hn
                    rw [(C68_no_defaults _ _ _ _).1 hn] at e3
                    cases e3; rfl
                  · intro v hv
                    exact C68_defaults _ _ _ _ _ v e3 hv

/-- C68: `included_files` is reserved. -/
theorem C68_reserved (w : IncWorld) (multi : Bool) (early : Dict → Option Dict) (depth : Str)
    (fuel fuel2 : Nat) (st st1 : IncState) (path : Str) (includes : List Str) (d : Dict)
    (h : LoadOneBuildFile w fuel st path includes = .ok (st1, d))
    (hk : c!"included_files" ∈ d.keys) :
    LoadTargetBuildFile w multi early depth fuel fuel2 st path includes =
      .error (.includedFiles path) := by
  unfold LoadTargetBuildFile
  rw [h]
  dsimp only
  rw [if_pos hk]

/-! ### A sample -/

def twoToolsets : Dict :=
  [(c!"target_name", .str c!"a"), (c!"toolsets", .list [.str c!"host", .str c!"target"])]

/-- Two toolsets give two variants; the first of the list comes last. -/
example : (ProcessToolsetsInDict true [(c!"targets", .list [.dict twoToolsets])]).toOption.map
    (fun d => match d with
      | [(_, .list l)] => l.map fun v => match v with
        | .dict t => (Dict.keys t, (Dict.get? t c!"toolset").map (Val.scalarEq (.str c!"target")))
        | _ => ([], none)
      | _ => []) =
    some [([c!"target_name", c!"toolset"], some true), ([c!"target_name", c!"toolset"], some false)] := by
  decide +kernel

/-- C68: without support for several toolsets the list is ignored, and an empty list, which
otherwise removes the target, too. -/
theorem C68_empty_list :
    (expandTargets true [.dict [(c!"toolsets", .list [])]]).toOption.map List.length = some 0 ∧
    (expandTargets false [.dict [(c!"toolsets", .list [])]]).toOption.map List.length = some 1 := by
  decide +kernel

/-- The hypotheses of `C68_load` are met. -/
example : okAnd (LoadTargetBuildFile
    { incWorld with read := fun p => if p = c!"d/x.gyp" then some (some (.dict
        [(c!"targets", .list [.dict [(c!"target_name", .str c!"a"),
            (c!"dependencies", .list [.str c!"../e/y.gyp:b", .str c!"c"])]]),
         (c!"target_defaults", .dict [(c!"type", .str c!"none")])])) else none }
    true some c!"." 30 30 ⟨[], [], []⟩ c!"d/x.gyp" [])
    (fun r => r.2.2 == [c!"e/y.gyp", c!"d/x.gyp"] &&
      r.2.1.keys == [c!"targets", c!"_DEPTH", c!"included_files"]) = true := by
  decide +kernel

end Gyp
