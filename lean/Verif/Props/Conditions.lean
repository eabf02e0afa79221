import Verif.Model.Expand
import Verif.Spec.Conditions
import Mathlib.Data.List.Forall2
import Mathlib.Data.List.Induction
/-
C31 (conditions) and C32 (variables of a dictionary).
-/
namespace Gyp
open Spec

/-! ### C31 -/

/-- The expression, with its variables expanded, evaluates to `b`. -/
def CondIs (env : ExpEnv) (fuel : Nat) (vars : Dict) (e : Val) (b : Bool) : Prop :=
  ∃ s, ExpandVariables env fuel e vars = .ok (.str s) ∧ env.evalCond s vars = .ok b

theorem single_iff {env : ExpEnv} {fuel : Nat} {vars : Dict} {e : Val} {t : Dict}
    {f r : Option Dict} :
    EvalSingleCondition env (recs env fuel) vars e t f = .ok r ↔
      (CondIs env fuel vars e true ∧ r = some t) ∨ (CondIs env fuel vars e false ∧ r = f) := by
  unfold EvalSingleCondition CondIs ExpandVariables
  cases h : (recs env fuel).expand e vars with
  | error e => simp
  | ok v =>
    cases v with
    | str s =>
      simp only
      cases h2 : env.evalCond s vars with
      | error e => simp [h2]
      | ok b => cases b <;> simp [h2, eq_comm]
    | _ => simp

theorem single_true {env : ExpEnv} {fuel : Nat} {vars : Dict} {e : Val} {t : Dict}
    {f : Option Dict} (h : CondIs env fuel vars e true) :
    EvalSingleCondition env (recs env fuel) vars e t f = .ok (some t) :=
  single_iff.mpr (.inl ⟨h, rfl⟩)

theorem single_false {env : ExpEnv} {fuel : Nat} {vars : Dict} {e : Val} {t : Dict}
    {f : Option Dict} (h : CondIs env fuel vars e false) :
    EvalSingleCondition env (recs env fuel) vars e t f = .ok f :=
  single_iff.mpr (.inr ⟨h, rfl⟩)

/-- The text of a condition entry. -/
def entryList (branches : List (Val × Dict)) (dflt : Option Dict) : List Val :=
  branches.flatMap (fun b => [b.1, .dict b.2]) ++ (dflt.map Val.dict).toList

/-- Evaluate unless something is selected already. -/
def orSingle (single : Val → Dict → Option Dict → Except ExpErr (Option Dict)) (e : Val) (t : Dict)
    (f : Option Dict) : Option Dict → Except ExpErr (Option Dict)
  | some d => .ok (some d)
  | none => single e t f

theorem evalLoop_cons {single} {e : Val} {t : Dict} {rest : List Val} {result : Option Dict}
    (h : ∀ d r, rest ≠ .dict d :: r) :
    evalLoop single (e :: .dict t :: rest) result =
      match orSingle single e t none result with
      | .error e => .error e
      | .ok result' => evalLoop single rest result' := by
  cases rest with
  | nil => simp only [evalLoop]; cases result <;> rfl
  | cons x xs =>
    cases x with
    | dict d => exact absurd rfl (h d xs)
    | _ => simp only [evalLoop]; cases result <;> rfl

theorem evalLoop_last {single} {e : Val} {t f : Dict} {result : Option Dict} :
    evalLoop single [e, .dict t, .dict f] result =
      orSingle single e t (some f) result := by
  simp only [evalLoop]; cases result <;> rfl

/-- Once something is selected the rest is only checked for its shape. -/
theorem evalLoop_some {single} {d : Dict} {dflt : Option Dict} :
    ∀ (branches : List (Val × Dict)), (∀ b ∈ branches, ∀ d, b.1 ≠ .dict d) → branches ≠ [] →
    evalLoop single (entryList branches dflt) (some d) = .ok (some d)
  | [], _, h => absurd rfl h
  | [b], _, _ => by
    cases dflt with
    | none => rw [entryList]; simp [evalLoop]
    | some f => exact evalLoop_last
  | b :: c :: cs, hb, _ => by
    have e : entryList (b :: c :: cs) dflt = b.1 :: .dict b.2 :: entryList (c :: cs) dflt := rfl
    rw [e, evalLoop_cons]
    · exact evalLoop_some (c :: cs) (fun x hx => hb x (by simp [hx])) (by simp)
    · intro d r he
      exact hb c (by simp) d (List.cons.inj he).1

theorem evalLoop_select {env : ExpEnv} {fuel : Nat} {vars : Dict} {dflt r : Option Dict} :
    ∀ (branches : List (Val × Dict)), (∀ b ∈ branches.tail, ∀ d, b.1 ≠ .dict d) → branches ≠ [] →
    (evalLoop (EvalSingleCondition env (recs env fuel) vars) (entryList branches dflt) none = .ok r ↔
      Selects (CondIs env fuel vars) branches dflt r)
  | [], _, h => absurd rfl h
  | [b], _, _ => by
    have key : Selects (CondIs env fuel vars) [b] dflt r ↔
        (CondIs env fuel vars b.1 true ∧ r = some b.2) ∨
        (CondIs env fuel vars b.1 false ∧ r = dflt) := by
      unfold Selects
      constructor
      · rintro (⟨pre, e, t, post, he, hp, ht, hr⟩ | ⟨hf, hr⟩)
        · cases pre with
          | nil =>
            cases he
            exact .inl ⟨ht, hr⟩
          | cons p ps => simp at he
        · exact .inr ⟨hf b (by simp), hr⟩
      · rintro (⟨ht, hr⟩ | ⟨hf, hr⟩)
        · exact .inl ⟨[], b.1, b.2, [], rfl, by simp, ht, hr⟩
        · exact .inr ⟨by simpa using hf, hr⟩
    rw [key, ← single_iff]
    cases dflt with
    | none =>
      have e : entryList [b] none = [b.1, .dict b.2] := rfl
      rw [e, evalLoop_cons (by simp)]
      simp only [orSingle]
      cases EvalSingleCondition env (recs env fuel) vars b.1 b.2 none <;> simp [evalLoop]
    | some f =>
      have e : entryList [b] (some f) = [b.1, .dict b.2, .dict f] := rfl
      rw [e, evalLoop_last]
      rfl
  | b :: c :: cs, hb, _ => by
    have e : entryList (b :: c :: cs) dflt = b.1 :: .dict b.2 :: entryList (c :: cs) dflt := rfl
    have hnd : ∀ d r, entryList (c :: cs) dflt ≠ .dict d :: r := by
      intro d r he
      exact hb c (by simp) d (List.cons.inj he).1
    rw [e, evalLoop_cons hnd]
    simp only [orSingle]
    have ih := evalLoop_select (env := env) (fuel := fuel) (vars := vars) (dflt := dflt) (r := r)
      (c :: cs) (fun x hx => hb x (by simp at hx ⊢; exact .inr hx)) (by simp)
    have split : Selects (CondIs env fuel vars) (b :: c :: cs) dflt r ↔
        (CondIs env fuel vars b.1 true ∧ r = some b.2) ∨
        (CondIs env fuel vars b.1 false ∧ Selects (CondIs env fuel vars) (c :: cs) dflt r) := by
      unfold Selects
      constructor
      · rintro (⟨pre, e, t, post, he, hp, ht, hr⟩ | ⟨hf, hr⟩)
        · cases pre with
          | nil => cases he; exact .inl ⟨ht, hr⟩
          | cons p ps =>
            have he' := List.cons.inj he
            exact .inr ⟨by rw [he'.1]; exact hp p (by simp),
              .inl ⟨ps, e, t, post, he'.2, fun x hx => hp x (by simp [hx]), ht, hr⟩⟩
        · exact .inr ⟨hf b (by simp), .inr ⟨fun x hx => hf x (by simp at hx ⊢; exact .inr hx), hr⟩⟩
      · rintro (⟨ht, hr⟩ | ⟨hf, ⟨pre, e, t, post, he, hp, ht, hr⟩ | ⟨hf2, hr⟩⟩)
        · exact .inl ⟨[], b.1, b.2, _, rfl, by simp, ht, hr⟩
        · refine .inl ⟨b :: pre, e, t, post, by rw [he]; rfl, ?_, ht, hr⟩
          intro x hx
          rcases List.mem_cons.mp hx with rfl | hx
          · exact hf
          · exact hp x hx
        · refine .inr ⟨?_, hr⟩
          intro x hx
          rcases List.mem_cons.mp hx with rfl | hx
          · exact hf
          · exact hf2 x hx
    rw [split]
    cases h : EvalSingleCondition env (recs env fuel) vars b.1 b.2 none with
    | error x =>
      simp only
      constructor
      · intro hh; cases hh
      · rintro (⟨ht, _⟩ | ⟨hf, _⟩)
        · rw [single_true ht] at h; cases h
        · rw [single_false hf] at h; cases h
    | ok res =>
      simp only
      rcases single_iff.mp h with ⟨ht, hr⟩ | ⟨hf, hr⟩
      · rw [hr, evalLoop_some (c :: cs) (fun x hx => hb x (by simpa using hx)) (by simp)]
        constructor
        · intro hh; cases hh; exact .inl ⟨ht, rfl⟩
        · rintro (⟨_, hr⟩ | ⟨hf, _⟩)
          · rw [hr]
          · obtain ⟨s, h1, h2⟩ := ht
            obtain ⟨s', h3, h4⟩ := hf
            rw [h1] at h3; cases h3
            rw [h2] at h4; cases h4
      · rw [hr, ih]
        constructor
        · intro hh; exact .inr ⟨hf, hh⟩
        · rintro (⟨ht, _⟩ | ⟨_, hs⟩)
          · obtain ⟨s, h1, h2⟩ := ht
            obtain ⟨s', h3, h4⟩ := hf
            rw [h1] at h3; cases h3
            rw [h2] at h4; cases h4
          · exact hs

/-- A list on which the loop succeeds has the shape of an entry. -/
theorem evalLoop_shape {single} : ∀ (n : Nat) (l : List Val), l.length ≤ n → ∀ (result r),
    evalLoop single l result = .ok r → l ≠ [] →
    ∃ branches dflt, branches ≠ [] ∧ l = entryList branches dflt ∧
      ∀ b ∈ branches.tail, ∀ d, b.1 ≠ .dict d
  | 0, l, hl, _, _, _, hne => absurd (List.length_eq_zero_iff.mp (Nat.le_zero.mp hl)) hne
  | n + 1, [], _, _, _, _, hne => absurd rfl hne
  | n + 1, [x], _, _, _, h, _ => by simp [evalLoop] at h
  | n + 1, e :: t :: rest, hl, result, r, h, _ => by
    cases t with
    | dict t =>
      cases rest with
      | nil => exact ⟨[(e, t)], none, by simp, rfl, by simp⟩
      | cons x xs =>
        by_cases hx : ∃ d, x = .dict d
        · obtain ⟨d, rfl⟩ := hx
          by_cases hxs : xs = []
          · subst hxs
            exact ⟨[(e, t)], some d, by simp, rfl, by simp⟩
          · simp [evalLoop, hxs] at h
        · rw [evalLoop_cons (by intro d r he; exact hx ⟨d, (List.cons.inj he).1⟩)] at h
          split at h
          · cases h
          · rename_i res _
            obtain ⟨bs, df, h1, h2, h3⟩ := evalLoop_shape n (x :: xs) (by simp at hl ⊢; omega) _ _ h (by simp)
            refine ⟨(e, t) :: bs, df, by simp, by rw [h2]; rfl, ?_⟩
            intro b hb d he
            cases bs with
            | nil => exact h1 rfl
            | cons c cs =>
              rcases List.mem_cons.mp hb with rfl | hb
              · have : x = b.1 := (List.cons.inj h2).1
                exact hx ⟨d, by rw [this, he]⟩
              · exact h3 b hb d he
    | _ => simp [evalLoop] at h

/-- C31: a condition entry gives the settings of the first branch whose expression is true,
or the default if none is, or nothing; anything else is rejected.  The branches after the
selected one have no influence, so their expressions need not even make sense. -/
theorem C31_entry (env : ExpEnv) (fuel : Nat) (vars : Dict) (cond : Val) (r : Option Dict) :
    EvalCondition (EvalSingleCondition env (recs env fuel) vars) cond = .ok r ↔
      ∃ l branches dflt, cond = .list l ∧ CondEntry l branches dflt ∧
        Selects (CondIs env fuel vars) branches dflt r := by
  unfold EvalCondition
  cases cond with
  | list l =>
    simp only
    by_cases hl : l.length < 2
    · rw [if_pos hl]
      constructor
      · intro h; cases h
      · rintro ⟨l', bs, df, he, ⟨h1, h2, h3⟩, _⟩
        cases he
        cases bs with
        | nil => exact absurd rfl h1
        | cons b bs => rw [h2] at hl; simp at hl; omega
    · rw [if_neg hl]
      constructor
      · intro h
        obtain ⟨bs, df, h1, h2, h3⟩ := evalLoop_shape l.length l (Nat.le_refl _) _ _ h
          (by intro e; simp [e] at hl)
        refine ⟨l, bs, df, rfl, ⟨h1, h2, h3⟩, ?_⟩
        rw [h2, evalLoop_select bs h3 h1] at h
        exact h
      · rintro ⟨l', bs, df, he, ⟨h1, h2, h3⟩, hs⟩
        cases he
        have h2 : l = entryList bs df := h2
        rw [h2, evalLoop_select bs h3 h1]
        exact hs
  | _ =>
    simp

/-- C31: an entry that is not made of expressions each followed by settings, with at most
one default at the end, is rejected whatever its expressions are. -/
theorem C31_malformed (env : ExpEnv) (fuel : Nat) (vars : Dict) (cond : Val)
    (h : ¬ ∃ l branches dflt, cond = .list l ∧ CondEntry l branches dflt) :
    ∃ e, EvalCondition (EvalSingleCondition env (recs env fuel) vars) cond = .error e := by
  cases hh : EvalCondition (EvalSingleCondition env (recs env fuel) vars) cond with
  | error e => exact ⟨e, rfl⟩
  | ok r =>
    obtain ⟨l, bs, df, h1, h2, _⟩ := (C31_entry env fuel vars cond r).mp hh
    exact absurd ⟨l, bs, df, h1, h2⟩ h

/-- Processing the selected settings and merging them into the dictionary. -/
def MergedInto (env : ExpEnv) (fuel : Nat) (vars : Dict) (d m d' : Dict) : Prop :=
  ∃ m', ProcessVariablesAndConditionsInDict env fuel none vars m = .ok m' ∧
    MergeDicts env.ctx d m' = .ok d'

theorem applyCondition_iff {env : ExpEnv} {fuel : Nat} {vars d d' : Dict} {c : Val} :
    applyCondition env (recs env fuel) vars d c = .ok d' ↔
      ∃ r, EvalCondition (EvalSingleCondition env (recs env fuel) vars) c = .ok r ∧
        ((r = none ∧ d' = d) ∨ ∃ m, r = some m ∧ MergedInto env fuel vars d m d') := by
  unfold applyCondition MergedInto ProcessVariablesAndConditionsInDict
  cases h : EvalCondition (EvalSingleCondition env (recs env fuel) vars) c with
  | error e => simp
  | ok r =>
    cases r with
    | none => simp [eq_comm]
    | some m =>
      simp only
      cases h2 : (recs env fuel).procDict none vars m with
      | error e => simp [h2]
      | ok m' =>
        simp only
        cases h3 : MergeDicts env.ctx d m' with
        | error e => simp [h2, h3]
        | ok d1 => simp [h2, h3, eq_comm]

theorem applyConditions_iff {env : ExpEnv} {fuel : Nat} {vars : Dict} :
    ∀ {conds : List Val} {d d' : Dict},
    applyConditions env (recs env fuel) vars d conds = .ok d' ↔
      ∃ rs, List.Forall₂ (fun c r =>
          EvalCondition (EvalSingleCondition env (recs env fuel) vars) c = .ok r) conds rs ∧
        ApplyAll (MergedInto env fuel vars) d rs d'
  | [], d, d' => by
    simp only [applyConditions, Except.ok.injEq]
    constructor
    · rintro rfl; exact ⟨[], .nil, .nil _⟩
    · rintro ⟨rs, h1, h2⟩
      cases h1
      cases h2
      rfl
  | c :: cs, d, d' => by
    simp only [applyConditions]
    cases h : applyCondition env (recs env fuel) vars d c with
    | error e =>
      simp only
      constructor
      · intro hh; cases hh
      · rintro ⟨rs, h1, h2⟩
        cases h1 with
        | cons hc ht =>
          cases h2 with
          | skip _ => rw [applyCondition_iff.mpr ⟨_, hc, .inl ⟨rfl, rfl⟩⟩] at h; cases h
          | use hm _ => rw [applyCondition_iff.mpr ⟨_, hc, .inr ⟨_, rfl, hm⟩⟩] at h; cases h
    | ok d1 =>
      simp only
      obtain ⟨r, hr, hm⟩ := applyCondition_iff.mp h
      rw [applyConditions_iff]
      constructor
      · rintro ⟨rs, h1, h2⟩
        refine ⟨r :: rs, .cons hr h1, ?_⟩
        rcases hm with ⟨rfl, rfl⟩ | ⟨m, rfl, hm⟩
        · exact .skip h2
        · exact .use hm h2
      · rintro ⟨rs, h1, h2⟩
        cases h1 with
        | cons hc ht =>
          rw [hr] at hc
          cases hc
          rcases hm with ⟨rfl, rfl⟩ | ⟨m, rfl, hm⟩
          · cases h2 with
            | skip h2 => exact ⟨_, ht, h2⟩
          · cases h2 with
            | use hm2 h2 =>
              obtain ⟨m1, e1, e2⟩ := hm
              obtain ⟨m2, e3, e4⟩ := hm2
              rw [e1] at e3; cases e3
              rw [e2] at e4; cases e4
              exact ⟨_, ht, h2⟩

/-- C31: a conditions section is removed, and what its entries select is processed and
merged into the dictionary, one entry after the other.  All expressions see the same
variables: what one entry merges does not change what a later one selects. -/
theorem C31_section (env : ExpEnv) (fuel : Nat) (vars d d' : Dict) (key : Str) (conds : List Val)
    (hk : env.condKey = some key) (hd : Dict.get? d key = some (.list conds)) :
    ProcessConditionsInDict env (recs env fuel) vars d = .ok d' ↔
      ∃ rs : List (Option Dict),
        List.Forall₂ (fun c r => ∃ l branches dflt, c = .list l ∧ CondEntry l branches dflt ∧
          Selects (CondIs env fuel vars) branches dflt r) conds rs ∧
        ApplyAll (MergedInto env fuel vars) (d.filter fun e => e.1 ≠ key) rs d' := by
  have e : ProcessConditionsInDict env (recs env fuel) vars d =
      applyConditions env (recs env fuel) vars (Dict.del d key) conds := by
    unfold ProcessConditionsInDict
    rw [hk]
    simp only
    rw [hd]
  rw [e, applyConditions_iff]
  constructor
  · rintro ⟨rs, h1, h2⟩
    exact ⟨rs, h1.imp fun c r h => (C31_entry env fuel vars c r).mp h, h2⟩
  · rintro ⟨rs, h1, h2⟩
    exact ⟨rs, h1.imp fun c r h => (C31_entry env fuel vars c r).mpr h, h2⟩

/-- C31: without a conditions section nothing changes. -/
theorem C31_no_section (env : ExpEnv) (fuel : Nat) (vars d : Dict)
    (h : ∀ key, env.condKey = some key → Dict.get? d key = none) :
    ProcessConditionsInDict env (recs env fuel) vars d = .ok d := by
  unfold ProcessConditionsInDict
  cases hk : env.condKey with
  | none => rfl
  | some key =>
    simp only
    rw [h key hk]

/-- A sample environment: the only expressions are `yes` and `no`; no commands. -/
def sampleEnv : ExpEnv where
  sym := '<'
  condKey := some c!"conditions"
  space := fun c => c = ' '
  command := fun _ _ _ => .error .gyp
  fileList := fun _ => .error .gyp
  filterVars := .ok
  shlex := fun s => .ok [s]
  pyStr := fun _ => []
  evalCond := fun s _ => if s = c!"yes" then .ok true else if s = c!"no" then .ok false else .error .gyp
  ctx := ⟨[c!"src"], basePathSections, c!"a.gyp", c!"a.gyp"⟩

/-- Three branches and a default; the expression after the true one makes no sense. -/
example : EvalCondition (EvalSingleCondition sampleEnv (recs sampleEnv 1) [])
    (.list [.str c!"no", .dict [(c!"a", .int 1)], .str c!"yes", .dict [(c!"a", .int 2)],
      .str c!"nonsense", .dict [], .dict [(c!"a", .int 3)]]) = .ok (some [(c!"a", .int 2)]) := rfl

example : CondEntry [.str c!"no", .dict [(c!"a", .int 1)], .str c!"yes", .dict [(c!"a", .int 2)],
      .str c!"nonsense", .dict [], .dict [(c!"a", .int 3)]]
    [(.str c!"no", [(c!"a", .int 1)]), (.str c!"yes", [(c!"a", .int 2)]), (.str c!"nonsense", [])]
    (some [(c!"a", .int 3)]) := ⟨by simp, rfl, by simp⟩

example : CondIs sampleEnv 1 [] (.str c!"yes") true ∧ CondIs sampleEnv 1 [] (.str c!"no") false :=
  ⟨⟨_, rfl, rfl⟩, ⟨_, rfl, rfl⟩⟩

/-- No branch is true and there is no default. -/
example : EvalCondition (EvalSingleCondition sampleEnv (recs sampleEnv 1) [])
    (.list [.str c!"no", .dict [(c!"a", .int 1)]]) = .ok none := rfl

/-- Something after the default. -/
example : ∃ e, EvalCondition (EvalSingleCondition sampleEnv (recs sampleEnv 1) [])
    (.list [.str c!"yes", .dict [], .dict [], .str c!"no"]) = .error e := ⟨_, rfl⟩

/-! ### C32 -/

theorem isPlain_iff {v : Val} : v.isPlain = true ↔ VariableValue v := by
  cases v <;> simp [Val.isPlain, VariableValue]

theorem endsPercent {k : Str} : endsWith k ['%'] = true ↔ ∃ n, k = n ++ ['%'] := by
  unfold endsWith
  rw [List.isSuffixOf_iff_suffix]
  exact ⟨fun ⟨t, h⟩ => ⟨t, h.symm⟩, fun ⟨t, h⟩ => ⟨t, h.symm⟩⟩

/-- An entry under another name, or of another kind, leaves a variable alone. -/
theorem loadVariable_other {theDict : Dict} {inV : Bool} {vars : Dict} {e : Str × Val} {name : Str}
    (h : ¬ (VariableValue e.2 ∧ (e.1 = name ∧ endsWith name ['%'] = false ∨ e.1 = name ++ ['%']))) :
    Dict.get? (loadVariable theDict inV vars e) name = Dict.get? vars name := by
  unfold loadVariable
  by_cases hp : e.2.isPlain = true
  · rw [if_neg (by simp [hp])]
    have hv := isPlain_iff.mp hp
    by_cases he : endsWith e.1 ['%'] = true
    · rw [if_pos he]
      obtain ⟨n, hn⟩ := endsPercent.mp he
      have hne : n ≠ name := fun hh => h ⟨hv, .inr (by rw [hn, hh])⟩
      simp only [hn, List.dropLast_concat]
      split
      · rfl
      · split
        · exact Dict.get?_set_ne _ _ hne.symm
        · exact Dict.get?_set_ne _ _ hne.symm
    · rw [if_neg he]
      have hne : name ≠ e.1 := by
        intro hh
        subst hh
        exact h ⟨hv, .inl ⟨rfl, by simpa using he⟩⟩
      exact Dict.get?_set_ne _ _ hne
  · rw [if_pos (by simpa using hp)]

/-- A variable that has a value keeps it unless it is set again. -/
theorem loadVariable_keep {theDict : Dict} {inV : Bool} {vars : Dict} {e : Str × Val} {name : Str}
    {v : Val} (hv : Dict.get? vars name = some v) (hne : e.1 ≠ name ∨ ¬ VariableValue e.2) :
    Dict.get? (loadVariable theDict inV vars e) name = some v := by
  by_cases h : VariableValue e.2 ∧ e.1 = name ++ ['%']
  · unfold loadVariable
    rw [if_neg (by simp [isPlain_iff.mpr h.1]), if_pos (endsPercent.mpr ⟨_, h.2⟩)]
    simp only [h.2, List.dropLast_concat, hv]
    simp [hv]
  · rw [loadVariable_other, hv]
    rintro ⟨h1, ⟨h2, _⟩ | h2⟩
    · rcases hne with hne | hne
      · exact hne h2
      · exact hne h1
    · exact h ⟨h1, h2⟩

theorem loadFold_keep {theDict : Dict} {inV : Bool} {name : Str} {v : Val} :
    ∀ {vs : Dict} {vars : Dict}, Dict.get? vars name = some v →
    (∀ e ∈ vs, e.1 ≠ name ∨ ¬ VariableValue e.2) →
    Dict.get? (vs.foldl (loadVariable theDict inV) vars) name = some v
  | [], _, h, _ => h
  | e :: vs, _, h, hn => by
    rw [List.foldl_cons]
    exact loadFold_keep (loadVariable_keep h (hn e (by simp))) fun e he => hn e (by simp [he])

theorem loadFold_other {theDict : Dict} {inV : Bool} {name : Str} :
    ∀ {vs : Dict} {vars : Dict},
    (∀ e ∈ vs, ¬ (VariableValue e.2 ∧ (e.1 = name ∧ endsWith name ['%'] = false ∨
      e.1 = name ++ ['%']))) →
    Dict.get? (vs.foldl (loadVariable theDict inV) vars) name = Dict.get? vars name
  | [], _, _ => rfl
  | e :: vs, _, hn => by
    rw [List.foldl_cons, loadFold_other fun e he => hn e (by simp [he]), loadVariable_other (hn e (by simp))]

theorem loadFold_own {theDict : Dict} {inV : Bool} {name : Str} {v : Val}
    (hp : endsWith name ['%'] = false) (hv : VariableValue v) :
    ∀ {vs : Dict} {vars : Dict}, vs.keys.Nodup → (name, v) ∈ vs →
    Dict.get? (vs.foldl (loadVariable theDict inV) vars) name = some v
  | [], _, _, h => by cases h
  | e :: vs, vars, hn, h => by
    have hn' : e.1 ∉ Dict.keys vs ∧ (Dict.keys vs).Nodup := List.nodup_cons.mp hn
    rw [List.foldl_cons]
    rcases List.mem_cons.mp h with h | h
    · subst h
      refine loadFold_keep ?_ ?_
      · unfold loadVariable
        rw [if_neg (by simp [isPlain_iff.mpr hv]), if_neg (by simp [hp])]
        exact Dict.get?_set_self _ _ _
      · intro e' he'
        left
        intro hh
        have := List.mem_map_of_mem (f := Prod.fst) he'
        rw [hh] at this
        exact hn'.1 this
    · exact loadFold_own hp hv hn'.2 h

theorem loadFold_default {theDict : Dict} {inV : Bool} {name : Str} {v : Val}
    (hv : VariableValue v) :
    ∀ {vs : Dict} {vars : Dict}, vs.keys.Nodup → (name ++ ['%'], v) ∈ vs →
    (endsWith name ['%'] = false → ∀ e ∈ vs, e.1 = name → ¬ VariableValue e.2) →
    Dict.get? vars name = none →
    Dict.get? (vs.foldl (loadVariable theDict inV) vars) name =
      some (if inV then (Dict.get? theDict name).getD v else v)
  | [], _, _, h, _, _ => by cases h
  | e :: vs, vars, hn, h, ho, hg => by
    have hn' : e.1 ∉ Dict.keys vs ∧ (Dict.keys vs).Nodup := List.nodup_cons.mp hn
    rw [List.foldl_cons]
    rcases List.mem_cons.mp h with h | h
    · subst h
      have h1 : Dict.get? (loadVariable theDict inV vars (name ++ ['%'], v)) name =
          some (if inV then (Dict.get? theDict name).getD v else v) := by
        unfold loadVariable
        rw [if_neg (by simp [isPlain_iff.mpr hv]), if_pos (endsPercent.mpr ⟨_, rfl⟩)]
        simp only [List.dropLast_concat]
        rw [if_neg (by simp [hg])]
        cases inV
        · simp [Dict.get?_set_self]
        · simp [Dict.get?_set_self]
      by_cases hp : endsWith name ['%'] = false
      · exact loadFold_keep h1 fun e he =>
          if hh : e.1 = name then .inr (ho hp e (by simp [he]) hh) else .inl hh
      · rw [loadFold_other, h1]
        rintro e he ⟨_, ⟨_, h2⟩ | h2⟩
        · exact hp h2
        · have := List.mem_map_of_mem (f := Prod.fst) he
          rw [h2] at this
          exact hn'.1 this
    · refine loadFold_default hv hn'.2 h (fun hp e he => ho hp e (by simp [he])) ?_
      rw [loadVariable_other, hg]
      rintro ⟨h1, ⟨h2, h3⟩ | h2⟩
      · exact ho h3 e (by simp) h2 h1
      · exact hn'.1 (h2 ▸ List.mem_map_of_mem (f := Prod.fst) h)

theorem load_eq {vars d vs : Dict} {key : Option Str} (hd : Dict.get? d c!"variables" = some (.dict vs)) :
    LoadVariablesFromVariablesDict vars d key =
      .ok (vs.foldl (loadVariable d (key = some c!"variables")) vars) := by
  unfold LoadVariablesFromVariablesDict variablesOf
  rw [hd]

/-- C32: a value that the `variables` section itself gives is the value of the variable. -/
theorem C32_own (vars d vs vars' : Dict) (key : Option Str) (name : Str) (v : Val)
    (hd : Dict.get? d c!"variables" = some (.dict vs)) (hn : vs.keys.Nodup)
    (hp : ∀ n, name ≠ n ++ ['%']) (hg : Gives vs name v)
    (h : LoadVariablesFromVariablesDict vars d key = .ok vars') :
    Dict.get? vars' name = some v := by
  rw [load_eq hd] at h
  cases h
  refine loadFold_own ?_ hg.2 hn (Dict.get?_some_mem hg.1)
  cases he : endsWith name ['%'] with
  | false => rfl
  | true => obtain ⟨n, hn⟩ := endsPercent.mp he; exact absurd hn (hp n)

/-- C32: a value from an enclosing scope is kept, whatever default the section has. -/
theorem C32_enclosing (vars d vs vars' : Dict) (key : Option Str) (name : Str) (v : Val)
    (hd : Dict.get? d c!"variables" = some (.dict vs)) (hn : vs.keys.Nodup)
    (ho : Dict.get? vars name = some v) (hg : ∀ w, ¬ Gives vs name w)
    (h : LoadVariablesFromVariablesDict vars d key = .ok vars') :
    Dict.get? vars' name = some v := by
  rw [load_eq hd] at h
  cases h
  refine loadFold_keep ho fun e he => ?_
  by_cases h1 : e.1 = name
  · right
    intro h2
    exact hg e.2 ⟨Dict.get?_of_mem hn (by rw [← h1]; exact he), h2⟩
  · exact .inl h1

/-- C32: a default is used when the variable has a value neither from an enclosing scope
nor from the section.  (In a section that is itself the `variables` of a `variables`
dictionary, the value that dictionary gives counts as the value.) -/
theorem C32_default (vars d vs vars' : Dict) (key : Option Str) (name : Str) (v : Val)
    (hd : Dict.get? d c!"variables" = some (.dict vs)) (hn : vs.keys.Nodup)
    (ho : Dict.get? vars name = none) (hg : ∀ w, ¬ Gives vs name w)
    (hv : Gives vs (name ++ ['%']) v)
    (h : LoadVariablesFromVariablesDict vars d key = .ok vars') :
    Dict.get? vars' name =
      if key = some c!"variables" ∧ (Dict.get? d name).isSome then Dict.get? d name else some v := by
  rw [load_eq hd] at h
  cases h
  rw [loadFold_default hv.2 hn (Dict.get?_some_mem hv.1) ?_ ho]
  · by_cases hk : key = some c!"variables"
    · simp only [hk, decide_true, if_true, true_and]
      cases Dict.get? d name <;> simp
    · simp [hk]
  · intro _ e he h1 h2
    exact hg e.2 ⟨Dict.get?_of_mem hn (by rw [← h1]; exact he), h2⟩

/-- C32: with neither a value nor a default the variable is not defined. -/
theorem C32_undefined (vars d vs vars' : Dict) (key : Option Str) (name : Str)
    (hd : Dict.get? d c!"variables" = some (.dict vs)) (hn : vs.keys.Nodup)
    (ho : Dict.get? vars name = none) (hg : ∀ w, ¬ Gives vs name w)
    (hv : ∀ w, ¬ Gives vs (name ++ ['%']) w)
    (h : LoadVariablesFromVariablesDict vars d key = .ok vars') :
    Dict.get? vars' name = none := by
  rw [load_eq hd] at h
  cases h
  rw [loadFold_other, ho]
  rintro e he ⟨h1, ⟨h2, _⟩ | h2⟩
  · exact hg e.2 ⟨Dict.get?_of_mem hn (by rw [← h2]; exact he), h1⟩
  · exact hv e.2 ⟨Dict.get?_of_mem hn (by rw [← h2]; exact he), h1⟩

/-- C32: without a `variables` section nothing changes. -/
theorem C32_no_section (vars d : Dict) (key : Option Str)
    (hd : Dict.get? d c!"variables" = none) :
    LoadVariablesFromVariablesDict vars d key = .ok vars := by
  unfold LoadVariablesFromVariablesDict variablesOf
  rw [hd]
  rfl

/-- A default, a value that beats a default, and a default that an outer value beats. -/
example : LoadVariablesFromVariablesDict [(c!"outer", .str c!"o")]
    [(c!"variables", .dict [(c!"a%", .int 1), (c!"b%", .int 2), (c!"b", .int 3),
      (c!"outer%", .int 4)])] none =
    .ok [(c!"outer", .str c!"o"), (c!"a", .int 1), (c!"b", .int 3)] := rfl

/-- The section of a `variables` dictionary. -/
example : LoadVariablesFromVariablesDict []
    [(c!"x", .int 7), (c!"variables", .dict [(c!"x%", .int 1)])] (some c!"variables") =
    .ok [(c!"x", .int 7)] := rfl

theorem autoFold_spec : ∀ {d vars : Dict}, d.keys.Nodup → ∀ name,
    Dict.get? (LoadAutomaticVariablesFromDict vars d) name =
      match name with
      | '_' :: k => (match Dict.get? d k with
        | some v => if v.isPlain then some v else Dict.get? vars name
        | none => Dict.get? vars name)
      | _ => Dict.get? vars name := by
  intro d
  induction d with
  | nil =>
    intro vars _ name
    unfold LoadAutomaticVariablesFromDict
    simp only [List.foldl_nil, Dict.get?]
    split <;> rfl
  | cons e d ih =>
    intro vars hn name
    have hn' : e.1 ∉ Dict.keys d ∧ (Dict.keys d).Nodup := List.nodup_cons.mp hn
    have e1 : LoadAutomaticVariablesFromDict vars (e :: d) = LoadAutomaticVariablesFromDict
        (if e.2.isPlain then Dict.set vars ('_' :: e.1) e.2 else vars) d := rfl
    rw [e1, ih hn'.2]
    obtain ⟨k', v'⟩ := e
    simp only at hn' ⊢
    have other : ∀ name, name ≠ '_' :: k' →
        Dict.get? (if v'.isPlain then Dict.set vars ('_' :: k') v' else vars) name =
          Dict.get? vars name := by
      intro name hh
      split
      · exact Dict.get?_set_ne _ _ hh
      · rfl
    split
    · rename_i k
      by_cases hk : k' = k
      · subst hk
        rw [(Dict.get?_eq_none d k').mpr hn'.1]
        simp only [Dict.get?, if_true]
        split
        · exact Dict.get?_set_self _ _ _
        · rfl
      · have : ('_' :: k) ≠ '_' :: k' := by intro h; exact hk (List.cons.inj h).2.symm
        rw [other _ this]
        simp only [Dict.get?, if_neg hk]
    · rename_i h
      exact other _ (h k')

/-- C32: every setting that is a string, a number or a list is the variable with its name
and a `_` in front. -/
theorem C32_automatic (vars d : Dict) (hn : d.keys.Nodup) (k : Str) (v : Val) (h : Gives d k v) :
    Dict.get? (LoadAutomaticVariablesFromDict vars d) ('_' :: k) = some v := by
  rw [autoFold_spec hn]
  simp only [h.1]
  rw [if_pos (isPlain_iff.mpr h.2)]

/-- C32: all other variables are as outside. -/
theorem C32_automatic_only (vars d : Dict) (hn : d.keys.Nodup) (name : Str)
    (h : ∀ k v, Gives d k v → name ≠ '_' :: k) :
    Dict.get? (LoadAutomaticVariablesFromDict vars d) name = Dict.get? vars name := by
  rw [autoFold_spec hn]
  split
  · rename_i k
    cases hg : Dict.get? d k with
    | none => rfl
    | some v =>
      simp only
      by_cases hp : v.isPlain = true
      · exact absurd rfl (h k v ⟨hg, isPlain_iff.mp hp⟩)
      · rw [if_neg hp]
  · rfl

example : LoadAutomaticVariablesFromDict [(c!"x", .int 1)]
    [(c!"type", .str c!"none"), (c!"sources", .list []), (c!"sub", .dict [])] =
    [(c!"x", .int 1), (c!"_type", .str c!"none"), (c!"_sources", .list [])] := rfl

end Gyp
