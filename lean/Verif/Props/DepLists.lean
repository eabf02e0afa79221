import Verif.Model.DepLists
import Verif.Props.Targets
import Verif.Props.Toposort
import Verif.Props.ListFilters
/-
C16, C17, C18, C34: the dependency lists of the targets.
-/
namespace Gyp
open Spec

/-! ### Lists of strings -/

theorem strList_iff (v : Val) (l : List Str) : strList v = some l ↔ v = strVals l := by
  cases v with
  | list vs =>
    simp only [strList, strVals, Val.list.injEq]
    induction vs generalizing l with
    | nil => cases l <;> simp
    | cons x vs ih =>
      rw [List.mapM_cons]
      cases x with
      | str s =>
        cases l with
        | nil => simp [bind, Option.bind]; split <;> simp
        | cons y l =>
          rw [List.map_cons, List.cons.injEq, Val.str.injEq, ← ih]
          cases hm : (List.mapM (fun v => match v with | .str s => some s | _ => none) vs :
            Option (List Str)) with
          | none => simp [bind, Option.bind, hm]
          | some r => simp [bind, Option.bind, hm, pure]
      | _ => cases l <;> simp [bind, Option.bind]
  | _ => simp [strList, strVals]

theorem depList_some {td : Dict} {key : Str} {l : List Str} :
    depList td key = .ok (some l) ↔ td.get? key = some (strVals l) := by
  unfold depList
  cases h : td.get? key with
  | none => simp
  | some v =>
    simp only
    cases hs : strList v with
    | none =>
      simp only [reduceCtorEq, Option.some.injEq, false_iff]
      intro hv
      rw [(strList_iff v l).mpr hv] at hs
      cases hs
    | some l' =>
      rw [strList_iff] at hs
      subst hs
      simp only [Except.ok.injEq, Option.some.injEq]
      constructor
      · rintro rfl; rfl
      · intro h
        have h1 := (strList_iff _ l).mpr h
        have h2 := (strList_iff _ l').mpr rfl
        rw [h1] at h2
        exact (Option.some.inj h2).symm

theorem depList_none {td : Dict} {key : Str} :
    depList td key = .ok none ↔ td.get? key = none := by
  unfold depList
  cases h : td.get? key with
  | none => simp
  | some v => simp only; split <;> simp

theorem strVals_inj {a b : List Str} (h : strVals a = strVals b) : a = b := by
  have h1 := (strList_iff (strVals a) a).mpr rfl
  rw [h, (strList_iff _ b).mpr rfl] at h1
  exact (Option.some.inj h1).symm

/-- Folding a function over the sections, each of which it changes alone. -/
theorem fold_sections {f : Dict → Str → Except DepListErr Dict}
    (hframe : ∀ td td' key, f td key = .ok td' → ∀ k, k ≠ key → td'.get? k = td.get? k) :
    ∀ (keys : List Str) (td td' : Dict), keys.foldlM f td = .ok td' →
      (∀ k, k ∉ keys → td'.get? k = td.get? k) ∧
      (∀ pre key post, keys = pre ++ key :: post → ∃ td1 td2, f td1 key = .ok td2 ∧
        (∀ k, k ∉ pre → td1.get? k = td.get? k) ∧ (∀ k, k ∉ post → td2.get? k = td'.get? k)) := by
  have frame : ∀ (keys : List Str) (td td' : Dict), keys.foldlM f td = .ok td' →
      ∀ k, k ∉ keys → td'.get? k = td.get? k := by
    intro keys
    induction keys with
    | nil => intro td td' h k _; cases h; rfl
    | cons x keys ih =>
      intro td td' h k hk
      rw [List.foldlM_cons] at h
      cases h1 : f td x with
      | error e => rw [h1] at h; cases h
      | ok td1 =>
        rw [h1] at h
        rw [ih td1 td' h k fun hm => hk (by simp [hm]), hframe td td1 x h1 k fun e => hk (by simp [e])]
  intro keys td td' h
  refine ⟨frame keys td td' h, ?_⟩
  rintro pre key post rfl
  rw [List.foldlM_append] at h
  cases h1 : pre.foldlM f td with
  | error e => rw [h1] at h; cases h
  | ok td1 =>
    rw [h1] at h
    have h' : (key :: post).foldlM f td1 = .ok td' := h
    rw [List.foldlM_cons] at h'
    cases h2 : f td1 key with
    | error e => rw [h2] at h'; cases h'
    | ok td2 =>
      rw [h2] at h'
      exact ⟨td1, td2, h2, frame pre td td1 h1, fun k hk => (frame post td2 td' h' k hk).symm⟩

theorem onTargets_ok {f : Str → Dict → Except DepListErr Dict} {t t' : Table}
    (h : onTargets f t = .ok t') :
    List.Forall₂ (fun e e' => e'.1 = e.1 ∧ f e.1 e.2 = .ok e'.2) t t' := by
  refine (mapM_ok h).imp ?_
  intro e e' he
  split at he
  · cases he
  · rename_i d hd
    cases he
    exact ⟨rfl, hd⟩

/-! ### C34 -/

theorem table_get?_isSome (t : Table) (n : Str) : (t.get? n).isSome ↔ n ∈ t.map Prod.fst := by
  induction t with
  | nil => simp [Table.get?]
  | cons e t ih =>
    obtain ⟨k, v⟩ := e
    unfold Table.get?
    by_cases h : k = n
    · simp [h]
    · rw [if_neg h, ih]
      simp [Ne.symm h]

/-- The qualified names of all targets, file by file. -/
def allNames (data : List (Str × List (Str × Str × Dict))) : List (Str × Dict) :=
  data.flatMap fun f => f.2.map fun t => (QualifiedTarget f.1 t.1 (some t.2.1), t.2.2)

theorem addTargets_ok (file : Str) : ∀ (ts : List (Str × Str × Dict)) (t : Table),
    (t.map Prod.fst).Nodup →
    (∀ r, addTargets file ts t = .ok r →
      r = t ++ ts.map (fun x => (QualifiedTarget file x.1 (some x.2.1), x.2.2)) ∧
      (r.map Prod.fst).Nodup) ∧
    (((t ++ ts.map (fun x => (QualifiedTarget file x.1 (some x.2.1), x.2.2))).map Prod.fst).Nodup →
      ∃ r, addTargets file ts t = .ok r)
  | [], t, hn => by
    refine ⟨fun r h => ?_, fun _ => ⟨t, rfl⟩⟩
    cases h
    exact ⟨by simp, hn⟩
  | (name, toolset, d) :: ts, t, hn => by
    unfold addTargets
    simp only
    by_cases hm : (t.get? (QualifiedTarget file name (some toolset))).isSome = true
    · rw [if_pos hm]
      rw [table_get?_isSome] at hm
      refine ⟨fun r h => (by cases h), fun hnd => ?_⟩
      exfalso
      rw [List.map_append, List.nodup_append] at hnd
      exact hnd.2.2 _ hm _ (by simp) rfl
    · rw [if_neg hm]
      rw [table_get?_isSome] at hm
      have hn' : ((t ++ [(QualifiedTarget file name (some toolset), d)]).map Prod.fst).Nodup := by
        rw [List.map_append, List.nodup_append]
        refine ⟨hn, by simp, ?_⟩
        intro a ha b hb e
        simp only [List.map_cons, List.map_nil, List.mem_singleton] at hb
        exact hm (hb ▸ e ▸ ha)
      obtain ⟨i1, i2⟩ := addTargets_ok file ts _ hn'
      refine ⟨fun r h => ?_, fun hnd => ?_⟩
      · obtain ⟨e, hr⟩ := i1 r h
        exact ⟨by rw [e]; simp, hr⟩
      · apply i2
        simpa using hnd

theorem buildTargets_go : ∀ (data : List (Str × List (Str × Str × Dict))) (t : Table),
    (t.map Prod.fst).Nodup →
    (∀ r, data.foldlM (fun targets f => addTargets f.1 f.2 targets) t = .ok r →
      r = t ++ allNames data ∧ (r.map Prod.fst).Nodup) ∧
    (((t ++ allNames data).map Prod.fst).Nodup →
      ∃ r, data.foldlM (fun targets f => addTargets f.1 f.2 targets) t = .ok r)
  | [], t, hn => by
    refine ⟨fun r h => ?_, fun _ => ⟨t, rfl⟩⟩
    cases h
    exact ⟨by simp [allNames], hn⟩
  | f :: data, t, hn => by
    obtain ⟨a1, a2⟩ := addTargets_ok f.1 f.2 t hn
    have hall : allNames (f :: data) = f.2.map (fun x =>
      (QualifiedTarget f.1 x.1 (some x.2.1), x.2.2)) ++ allNames data := rfl
    constructor
    · intro r h
      rw [List.foldlM_cons] at h
      cases h1 : addTargets f.1 f.2 t with
      | error e => rw [h1] at h; cases h
      | ok t1 =>
        rw [h1] at h
        obtain ⟨e1, n1⟩ := a1 t1 h1
        obtain ⟨e2, n2⟩ := (buildTargets_go data t1 n1).1 r h
        refine ⟨?_, n2⟩
        rw [e2, e1, hall, List.append_assoc]
    · intro hnd
      rw [hall, ← List.append_assoc] at hnd
      have h1 : ((t ++ f.2.map (fun x =>
          (QualifiedTarget f.1 x.1 (some x.2.1), x.2.2))).map Prod.fst).Nodup := by
        rw [List.map_append] at hnd
        exact (List.nodup_append.mp hnd).1
      obtain ⟨t1, ht1⟩ := a2 h1
      obtain ⟨e1, n1⟩ := a1 t1 ht1
      rw [List.foldlM_cons, ht1]
      rw [← e1] at hnd
      exact (buildTargets_go data t1 n1).2 hnd

/-- C34: building the table of targets succeeds exactly if all qualified names differ, and
then holds every target of every build file under its name, in order. -/
theorem C34_build_targets (data : List (Str × List (Str × Str × Dict))) :
    ((∃ t, BuildTargetsDict data = .ok t) ↔ ((allNames data).map Prod.fst).Nodup) ∧
    (∀ t, BuildTargetsDict data = .ok t → t = allNames data) := by
  obtain ⟨g1, g2⟩ := buildTargets_go data [] (by simp)
  refine ⟨⟨?_, ?_⟩, ?_⟩
  · rintro ⟨t, h⟩
    obtain ⟨e, n⟩ := g1 t h
    rw [List.nil_append] at e
    rw [← e]; exact n
  · intro h; exact g2 (by simpa using h)
  · intro t h; simpa using (g1 t h).1

example : BuildTargetsDict [(c!"a.gyp", [(c!"x", c!"target", []), (c!"x", c!"host", [])]),
    (c!"b.gyp", [(c!"x", c!"target", [])])] =
    .ok [(c!"a.gyp:x#target", []), (c!"a.gyp:x#host", []), (c!"b.gyp:x#target", [])] := rfl
example : BuildTargetsDict [(c!"a.gyp", [(c!"x", c!"target", []), (c!"x", c!"target", [])])] =
    .error (.duplicate c!"a.gyp:x#target") := rfl

/-- The directory a target lives in (`.` for the current one) and the name it has there. -/
def placeOf (t : Str) : Option (Str × Str) :=
  (rsplit1 ':' t).map fun p => (if dirname p.1 = [] then c!"." else dirname p.1, p.2)

theorem collisionKey_inj {a b k : Str} (ha : collisionKey a = some k) (hb : collisionKey b = some k) :
    placeOf a = placeOf b := by
  unfold collisionKey at ha hb
  unfold placeOf
  cases h1 : rsplit1 ':' a with
  | none => rw [h1] at ha; cases ha
  | some p =>
    cases h2 : rsplit1 ':' b with
    | none => rw [h2] at hb; cases hb
    | some q =>
      rw [h1] at ha
      rw [h2] at hb
      simp only [Option.some.injEq] at ha hb
      have n1 : ':' ∉ p.2 := (rsplit1_some h1).2
      have n2 : ':' ∉ q.2 := (rsplit1_some h2).2
      have := ha.trans hb.symm
      have e := congrArg (rsplit1 ':') this
      rw [rsplit1_append n1, rsplit1_append n2] at e
      simp only [Option.some.injEq, Prod.mk.injEq] at e
      simp only [Option.map_some, Option.some.injEq, Prod.mk.injEq]
      exact e

theorem collideLoop_ok : ∀ (ts used : List Str), collideLoop ts used = .ok () ↔
    (∀ t ∈ ts, ∃ k, collisionKey t = some k ∧ k ∉ used) ∧
    ts.Pairwise fun a b => collisionKey a ≠ collisionKey b
  | [], used => by simp [collideLoop]
  | t :: ts, used => by
    unfold collideLoop
    cases hk : collisionKey t with
    | none => simp [hk]
    | some k =>
      simp only
      by_cases hm : k ∈ used
      · simp [hm, hk]
      · rw [if_neg hm, collideLoop_ok ts (k :: used), List.pairwise_cons]
        constructor
        · rintro ⟨h1, h2⟩
          refine ⟨?_, ?_, h2⟩
          · intro x hx
            rcases List.mem_cons.mp hx with rfl | hx
            · exact ⟨k, hk, hm⟩
            · obtain ⟨k', e, hn⟩ := h1 x hx
              exact ⟨k', e, fun h => hn (by simp [h])⟩
          · intro x hx e
            obtain ⟨k', e', hn⟩ := h1 x hx
            rw [hk, e'] at e
            cases e
            simp at hn
        · rintro ⟨h1, h2, h3⟩
          refine ⟨?_, h3⟩
          intro x hx
          obtain ⟨k', e, hn⟩ := h1 x (by simp [hx])
          refine ⟨k', e, ?_⟩
          rw [List.mem_cons, not_or]
          refine ⟨?_, hn⟩
          rintro rfl
          exact h2 x hx (by rw [hk, e])

/-- C34: the final check passes exactly if every name is qualified and no two targets
of one directory share name and toolset. -/
theorem C34_no_collision (ts : List Str) :
    VerifyNoCollidingTargets ts = .ok () ↔
      (∀ t ∈ ts, (placeOf t).isSome) ∧ ts.Pairwise fun a b => placeOf a ≠ placeOf b := by
  unfold VerifyNoCollidingTargets
  rw [collideLoop_ok]
  have hs : ∀ t, (∃ k, collisionKey t = some k ∧ k ∉ ([] : List Str)) ↔ (placeOf t).isSome := by
    intro t
    unfold collisionKey placeOf
    cases rsplit1 ':' t <;> simp
  constructor
  · rintro ⟨h1, h2⟩
    refine ⟨fun t ht => (hs t).mp (h1 t ht), ?_⟩
    refine h2.imp_of_mem ?_
    intro a b ha hb hab e
    apply hab
    unfold collisionKey
    unfold placeOf at e
    cases ha' : rsplit1 ':' a with
    | none => cases hb' : rsplit1 ':' b with
      | none => rfl
      | some q => rw [ha', hb'] at e; cases e
    | some p => cases hb' : rsplit1 ':' b with
      | none => rw [ha', hb'] at e; cases e
      | some q =>
        rw [ha', hb'] at e
        simp only [Option.map_some, Option.some.injEq, Prod.mk.injEq] at e
        simp only [e.1, e.2]
  · rintro ⟨h1, h2⟩
    refine ⟨fun t ht => (hs t).mpr (h1 t ht), ?_⟩
    refine h2.imp_of_mem ?_
    intro a b ha hb hab e
    obtain ⟨k, hk, -⟩ := (hs a).mpr (h1 a ha)
    exact hab (collisionKey_inj hk (by rw [← e]; exact hk))

example : VerifyNoCollidingTargets [c!"a/x.gyp:t#target", c!"b/x.gyp:t#target", c!"a/y.gyp:t#host"] =
    .ok () := by decide
example : VerifyNoCollidingTargets [c!"a/x.gyp:t#target", c!"a/y.gyp:t#target"] =
    .error (.collision c!"a:t#target") := by decide

/-! ### C18 -/

/-- The target's `variables` switch `name` on. -/
def VariableSet (td : Dict) (name : Str) : Prop :=
  ∃ vs v, td.get? c!"variables" = some (.dict vs) ∧ Dict.get? vs name = some v ∧ v.truthy = true

theorem variableTruthy_true {d : Dict} {n : Str} (h : variableTruthy d n = .ok true) :
    VariableSet d n := by
  unfold variableTruthy at h
  cases hg : d.get? c!"variables" with
  | none => rw [hg] at h; cases h
  | some v =>
    rw [hg] at h
    cases v with
    | dict vs =>
      simp only [Except.ok.injEq] at h
      cases hv : Dict.get? vs n with
      | none => rw [hv] at h; simp at h
      | some w => rw [hv] at h; exact ⟨vs, w, hg, hv, by simpa using h⟩
    | _ => cases h

theorem variableTruthy_false {d : Dict} {n : Str} (h : variableTruthy d n = .ok false) :
    ¬ VariableSet d n := by
  rintro ⟨vs, v, h1, h2, h3⟩
  unfold variableTruthy at h
  rw [h1] at h
  simp [h2, h3] at h

theorem removeSelfLoop_ok {name key : Str} {own : Dict} {deps : List Str} :
    ∀ (rest : List Str) (td td' : Dict), removeSelfLoop name key own deps rest td = .ok td' →
      (name ∈ rest ∧ VariableSet own c!"prune_self_dependency" ∧
        td' = td.set key (strVals (Filter deps name))) ∨
      ((name ∉ rest ∨ ¬ VariableSet own c!"prune_self_dependency") ∧ td' = td)
  | [], td, td', h => by cases h; exact .inr ⟨.inl (by simp), rfl⟩
  | t :: rest, td, td', h => by
    unfold removeSelfLoop at h
    have hset : ∀ d : Dict, (d.set key (strVals (Filter deps name))).set key
        (strVals (Filter deps name)) = d.set key (strVals (Filter deps name)) := by
      intro d
      induction d with
      | nil => simp [Dict.set]
      | cons e d ih =>
        obtain ⟨k, v⟩ := e
        by_cases hk : k = key
        · simp [Dict.set, hk]
        · simp [Dict.set, hk, ih]
    by_cases ht : t = name
    · subst ht
      rw [if_pos rfl] at h
      cases hv : variableTruthy own c!"prune_self_dependency" with
      | error e => rw [hv] at h; cases h
      | ok b =>
        rw [hv] at h
        cases b with
        | true =>
          left
          refine ⟨by simp, variableTruthy_true hv, ?_⟩
          rcases removeSelfLoop_ok rest _ td' h with ⟨-, -, e⟩ | ⟨-, e⟩
          · rw [e, hset]
          · exact e
        | false =>
          right
          have hnv := variableTruthy_false hv
          refine ⟨.inr hnv, ?_⟩
          rcases removeSelfLoop_ok rest td td' h with ⟨-, h2, -⟩ | ⟨-, e⟩
          · exact absurd h2 hnv
          · exact e
    · rw [if_neg ht] at h
      rcases removeSelfLoop_ok rest td td' h with ⟨h1, h2, e⟩ | ⟨h1 | h1, e⟩
      · exact .inl ⟨by simp [h1], h2, e⟩
      · exact .inr ⟨.inl (by simp [h1, Ne.symm ht]), e⟩
      · exact .inr ⟨.inr h1, e⟩

theorem filter_of_notMem {deps : List Str} {n : Str} (h : n ∉ deps) : Filter deps n = deps := by
  unfold Filter
  rw [List.filter_eq_self]
  intro a ha
  simp only [ne_eq, decide_not, Bool.not_eq_true', decide_eq_false_iff_not]
  rintro rfl
  exact h ha

theorem removeSelfSection_frame {name : Str} {td td' : Dict} {key : Str}
    (h : removeSelfSection name td key = .ok td') : ∀ k, k ≠ key → td'.get? k = td.get? k := by
  intro k hk
  unfold removeSelfSection at h
  split at h
  · cases h
  · cases h; rfl
  · rcases removeSelfLoop_ok _ _ _ h with ⟨-, -, e⟩ | ⟨-, e⟩
    · rw [e, Dict.get?_set_ne _ _ hk]
    · rw [e]

theorem removeSelfSection_ok {name : Str} {td td' : Dict} {key : Str}
    (h : removeSelfSection name td key = .ok td') :
    (∀ deps, td.get? key = some (strVals deps) → VariableSet td c!"prune_self_dependency" →
      td'.get? key = some (strVals (deps.filter (· ≠ name)))) ∧
    (td.get? key = none ∨ ¬ VariableSet td c!"prune_self_dependency" →
      td'.get? key = td.get? key) := by
  unfold removeSelfSection at h
  cases hd : depList td key with
  | error e => rw [hd] at h; cases h
  | ok o =>
    rw [hd] at h
    cases o with
    | none =>
      cases h
      rw [depList_none] at hd
      exact ⟨fun deps he => (by rw [hd] at he; cases he), fun _ => rfl⟩
    | some deps =>
      simp only at h
      rw [depList_some] at hd
      have hl := removeSelfLoop_ok _ _ _ h
      constructor
      · intro deps' he hv
        rw [hd] at he
        have := strVals_inj (Option.some.inj he)
        subst this
        rcases hl with ⟨-, -, e⟩ | ⟨hn | hn, e⟩
        · rw [e, Dict.get?_set_self]; rfl
        · rw [e, hd]
          have := filter_of_notMem hn
          unfold Filter at this
          rw [this]
        · exact absurd hv hn
      · rintro (hn | hn)
        · rw [hd] at hn; cases hn
        · rcases hl with ⟨-, hv, -⟩ | ⟨-, e⟩
          · exact absurd hv hn
          · rw [e]

/-- C18: in a target that asks for it, the self-references and nothing else are removed
from the dependency lists; other targets, and everything else in the target, are
untouched. -/
theorem C18_self (t t' : Table) (h : RemoveSelfDependencies t = .ok t') :
    List.Forall₂ (fun e e' => e'.1 = e.1 ∧
      (∀ key ∈ [c!"dependencies", c!"export_dependent_settings"], ∀ deps : List Str,
        e.2.get? key = some (strVals deps) → VariableSet e.2 c!"prune_self_dependency" →
        e'.2.get? key = some (strVals (deps.filter (· ≠ e.1)))) ∧
      (∀ key, key ∉ [c!"dependencies", c!"export_dependent_settings"] ∨ e.2.get? key = none ∨
        ¬ VariableSet e.2 c!"prune_self_dependency" → e'.2.get? key = e.2.get? key)) t t' := by
  refine (onTargets_ok h).imp ?_
  rintro e e' ⟨h1, h2⟩
  obtain ⟨f1, f2⟩ := fold_sections (fun td td' key h => removeSelfSection_frame h) _ _ _ h2
  have hvar : ∀ td1 : Dict, td1.get? c!"variables" = e.2.get? c!"variables" →
      (VariableSet td1 c!"prune_self_dependency" ↔ VariableSet e.2 c!"prune_self_dependency") := by
    intro td1 he
    unfold VariableSet
    rw [he]
  have hsec : ∀ key ∈ dependencySections, ∃ td1 td2, removeSelfSection e.1 td1 key = .ok td2 ∧
      td1.get? key = e.2.get? key ∧ td1.get? c!"variables" = e.2.get? c!"variables" ∧
      e'.2.get? key = td2.get? key := by
    intro key hk
    simp only [dependencySections, List.mem_cons, List.not_mem_nil, or_false] at hk
    rcases hk with rfl | rfl
    · obtain ⟨td1, td2, g1, g2, g3⟩ := f2 [] c!"dependencies" [c!"export_dependent_settings"] rfl
      exact ⟨td1, td2, g1, g2 _ (by simp), g2 _ (by simp), (g3 _ (by decide)).symm⟩
    · obtain ⟨td1, td2, g1, g2, g3⟩ := f2 [c!"dependencies"] c!"export_dependent_settings" [] rfl
      exact ⟨td1, td2, g1, g2 _ (by decide), g2 _ (by decide), (g3 _ (by simp)).symm⟩
  refine ⟨h1, ?_, ?_⟩
  · intro key hk deps hd hv
    obtain ⟨td1, td2, g1, g2, g3, g4⟩ := hsec key hk
    rw [g4]
    exact (removeSelfSection_ok g1).1 deps (by rw [g2, hd]) ((hvar td1 g3).mpr hv)
  · intro key hcase
    by_cases hk : key ∈ dependencySections
    · obtain ⟨td1, td2, g1, g2, g3, g4⟩ := hsec key hk
      rw [g4, ← g2]
      apply (removeSelfSection_ok g1).2
      rcases hcase with hc | hc | hc
      · exact absurd hk hc
      · left; rw [g2, hc]
      · right; rw [hvar td1 g3]; exact hc
    · exact f1 key hk

/-- A target of the type `none`. -/
def TypeNone (td : Dict) : Prop := td.get? c!"type" = some (.str c!"none")

theorem removeLinkLoop_ok {targets : Table} {key : Str} (hkey : key ≠ c!"type") :
    ∀ (rest : List Str) (td td' : Dict), removeLinkLoop targets key rest td = .ok td' →
      (∀ k, k ≠ key → td'.get? k = td.get? k) ∧
      (¬ TypeNone td → td' = td) ∧
      (TypeNone td → ∀ deps, td.get? key = some (strVals deps) →
        ∃ P : Str → Bool, (∀ x ∈ rest, ∃ d, targets.get? x = some d ∧
          (P x = true ↔ VariableSet d c!"link_dependency")) ∧
          td'.get? key = some (strVals (deps.filter fun x => !(P x && decide (x ∈ rest)))))
  | [], td, td', h => by
    cases h
    refine ⟨fun _ _ => rfl, fun _ => rfl, fun _ deps hd => ⟨fun _ => false, by simp, ?_⟩⟩
    rw [hd]
    simp
  | t :: rest, td, td', h => by
    unfold removeLinkLoop at h
    have hty : (match td.get? c!"type" with
        | some (.str ty) => decide (ty = c!"none") | _ => false) = true ↔ TypeNone td := by
      unfold TypeNone
      split
      · rename_i ty hg; rw [hg]; simp
      · rename_i hg
        constructor
        · intro h; cases h
        · intro h; exact absurd h (hg _)
    by_cases ht : TypeNone td
    · erw [if_pos (hty.mpr ht)] at h
      cases hg : targets.get? t with
      | none => rw [hg] at h; cases h
      | some d =>
        rw [hg] at h
        simp only at h
        cases hv : variableTruthy d c!"link_dependency" with
        | error e => rw [hv] at h; cases h
        | ok b =>
          rw [hv] at h
          cases b with
          | false =>
            simp only at h
            obtain ⟨i1, i2, i3⟩ := removeLinkLoop_ok hkey rest td td' h
            refine ⟨i1, fun hn => absurd ht hn, fun _ deps hd => ?_⟩
            obtain ⟨P, p1, p2⟩ := i3 ht deps hd
            have hnv := variableTruthy_false hv
            by_cases htr : t ∈ rest
            · refine ⟨P, ?_, ?_⟩
              · intro x hx
                rcases List.mem_cons.mp hx with rfl | hx
                · exact p1 _ htr
                · exact p1 x hx
              · rw [p2]
                congr 2
                apply List.filter_congr
                intro x _
                have : x ∈ t :: rest ↔ x ∈ rest := by
                  rw [List.mem_cons]
                  constructor
                  · rintro (rfl | h)
                    · exact htr
                    · exact h
                  · exact .inr
                simp only [this]
            · refine ⟨fun x => P x && decide (x ≠ t), ?_, ?_⟩
              · intro x hx
                rcases List.mem_cons.mp hx with rfl | hx
                · exact ⟨d, hg, by simp [hnv]⟩
                · obtain ⟨d', e1, e2⟩ := p1 x hx
                  refine ⟨d', e1, ?_⟩
                  have : x ≠ t := fun e => htr (e ▸ hx)
                  simp [this, e2]
              · rw [p2]
                congr 2
                apply List.filter_congr
                intro x _
                by_cases hxt : x = t
                · subst hxt; simp [htr]
                · simp [hxt]
          | true =>
            simp only at h
            have hyes := variableTruthy_true hv
            cases hd : depList td key with
            | error e => rw [hd] at h; cases h
            | ok o =>
              rw [hd] at h
              cases o with
              | none => cases h
              | some ds =>
                simp only at h
                rw [depList_some] at hd
                obtain ⟨i1, i2, i3⟩ := removeLinkLoop_ok hkey rest _ td' h
                have ht' : TypeNone (td.set key (strVals (Filter ds t))) := by
                  unfold TypeNone
                  rw [Dict.get?_set_ne _ _ hkey.symm]
                  exact ht
                refine ⟨fun k hk => ?_, fun hn => absurd ht hn, fun _ deps hd' => ?_⟩
                · rw [i1 k hk, Dict.get?_set_ne _ _ hk]
                · rw [hd] at hd'
                  have := strVals_inj (Option.some.inj hd')
                  subst this
                  obtain ⟨P, p1, p2⟩ := i3 ht' (Filter ds t) (Dict.get?_set_self _ _ _)
                  refine ⟨fun x => P x || decide (x = t), ?_, ?_⟩
                  · intro x hx
                    by_cases hxt : x = t
                    · subst hxt; exact ⟨d, hg, by simp [hyes]⟩
                    · obtain ⟨d', e1, e2⟩ := p1 x (by
                        rcases List.mem_cons.mp hx with h | h
                        · exact absurd h hxt
                        · exact h)
                      exact ⟨d', e1, by simp [hxt, e2]⟩
                  · rw [p2]
                    congr 2
                    unfold Filter
                    rw [List.filter_filter]
                    apply List.filter_congr
                    intro x _
                    by_cases hxt : x = t
                    · subst hxt; simp
                    · simp [hxt]
    · erw [if_neg (fun h => ht (hty.mp h))] at h
      obtain ⟨i1, i2, i3⟩ := removeLinkLoop_ok hkey rest td td' h
      exact ⟨i1, i2, fun h => absurd h ht⟩

/-- C18: from the dependency lists of a target of type `none`, exactly the targets that
declare themselves link dependencies are removed; other targets are untouched. -/
theorem C18_link (t t' : Table) (h : RemoveLinkDependenciesFromNoneTargets t = .ok t') :
    List.Forall₂ (fun e e' => e'.1 = e.1 ∧
      (∀ key ∈ [c!"dependencies", c!"export_dependent_settings"], ∀ deps : List Str,
        e.2.get? key = some (strVals deps) → TypeNone e.2 →
        ∃ P : Str → Bool, (∀ x ∈ deps, ∃ d, t.get? x = some d ∧
            (P x = true ↔ VariableSet d c!"link_dependency")) ∧
          e'.2.get? key = some (strVals (deps.filter fun x => !P x))) ∧
      (∀ key, key ∉ [c!"dependencies", c!"export_dependent_settings"] ∨ e.2.get? key = none ∨
        ¬ TypeNone e.2 → e'.2.get? key = e.2.get? key)) t t' := by
  refine (onTargets_ok h).imp ?_
  rintro e e' ⟨h1, h2⟩
  have hne : ∀ key ∈ dependencySections, key ≠ c!"type" := by decide
  have hframe : ∀ (td td' : Dict) (key : Str), removeLinkSection t td key = .ok td' →
      ∀ k, k ≠ key → td'.get? k = td.get? k := by
    intro td td' key h k hk
    unfold removeLinkSection at h
    split at h
    · cases h
    · cases h; rfl
    · rename_i deps hd
      by_cases hkt : key = c!"type"
      · -- the loop over a section called `type` never runs far; sections are not called so
        subst hkt
        rw [depList_some] at hd
        have : ∀ (rest : List Str) , removeLinkLoop t c!"type" rest td = .ok td' → td' = td := by
          intro rest
          induction rest with
          | nil => intro h; cases h; rfl
          | cons x rest ih =>
            intro h
            unfold removeLinkLoop at h
            rw [hd] at h
            exact ih (by simpa [strVals] using h)
        rw [this deps h]
      · exact (removeLinkLoop_ok hkt _ _ _ h).1 k hk
  obtain ⟨f1, f2⟩ := fold_sections hframe _ _ _ h2
  have hsec : ∀ key ∈ dependencySections, ∃ td1 td2, removeLinkSection t td1 key = .ok td2 ∧
      td1.get? key = e.2.get? key ∧ td1.get? c!"type" = e.2.get? c!"type" ∧
      e'.2.get? key = td2.get? key := by
    intro key hk
    simp only [dependencySections, List.mem_cons, List.not_mem_nil, or_false] at hk
    rcases hk with rfl | rfl
    · obtain ⟨td1, td2, g1, g2, g3⟩ := f2 [] c!"dependencies" [c!"export_dependent_settings"] rfl
      exact ⟨td1, td2, g1, g2 _ (by simp), g2 _ (by simp), (g3 _ (by decide)).symm⟩
    · obtain ⟨td1, td2, g1, g2, g3⟩ := f2 [c!"dependencies"] c!"export_dependent_settings" [] rfl
      exact ⟨td1, td2, g1, g2 _ (by decide), g2 _ (by decide), (g3 _ (by simp)).symm⟩
  have hsecok : ∀ key ∈ dependencySections, ∀ td1 td2, removeLinkSection t td1 key = .ok td2 →
      (∀ deps, td1.get? key = some (strVals deps) → TypeNone td1 →
        ∃ P : Str → Bool, (∀ x ∈ deps, ∃ d, t.get? x = some d ∧
            (P x = true ↔ VariableSet d c!"link_dependency")) ∧
          td2.get? key = some (strVals (deps.filter fun x => !P x))) ∧
      (td1.get? key = none ∨ ¬ TypeNone td1 → td2.get? key = td1.get? key) := by
    intro key hk td1 td2 h
    unfold removeLinkSection at h
    cases hd : depList td1 key with
    | error x => rw [hd] at h; cases h
    | ok o =>
      rw [hd] at h
      cases o with
      | none =>
        cases h
        rw [depList_none] at hd
        exact ⟨fun deps he => (by rw [hd] at he; cases he), fun _ => rfl⟩
      | some deps =>
        simp only at h
        rw [depList_some] at hd
        obtain ⟨l1, l2, l3⟩ := removeLinkLoop_ok (hne key hk) _ _ _ h
        constructor
        · intro deps' he ht
          rw [hd] at he
          have := strVals_inj (Option.some.inj he)
          subst this
          obtain ⟨P, p1, p2⟩ := l3 ht deps hd
          refine ⟨P, p1, ?_⟩
          rw [p2]
          congr 2
          apply List.filter_congr
          intro x hx
          simp [hx]
        · rintro (hn | hn)
          · rw [hd] at hn; cases hn
          · rw [l2 hn]
  refine ⟨h1, ?_, ?_⟩
  · intro key hk deps hd ht
    obtain ⟨td1, td2, g1, g2, g3, g4⟩ := hsec key hk
    rw [g4]
    exact (hsecok key hk td1 td2 g1).1 deps (by rw [g2, hd]) (by unfold TypeNone; rw [g3]; exact ht)
  · intro key hcase
    by_cases hk : key ∈ dependencySections
    · obtain ⟨td1, td2, g1, g2, g3, g4⟩ := hsec key hk
      rw [g4, ← g2]
      apply (hsecok key hk td1 td2 g1).2
      rcases hcase with hc | hc | hc
      · exact absurd hk hc
      · left; rw [g2, hc]
      · right; unfold TypeNone; rw [g3]; exact hc
    · exact f1 key hk

/-- A target that prunes itself, and one of type `none` with a link dependency. -/
def depListSample : Table :=
  [(c!"a.gyp:a#target", [(c!"dependencies", strVals [c!"a.gyp:b#target", c!"a.gyp:a#target"]),
      (c!"variables", .dict [(c!"prune_self_dependency", .int 1)])]),
   (c!"a.gyp:b#target", [(c!"type", .str c!"none"),
      (c!"dependencies", strVals [c!"a.gyp:c#target", c!"a.gyp:d#target"])]),
   (c!"a.gyp:c#target", [(c!"variables", .dict [(c!"link_dependency", .int 1)])]),
   (c!"a.gyp:d#target", [])]

example : (RemoveSelfDependencies depListSample).map (fun t => t.head?.bind fun e =>
    Dict.get? e.2 c!"dependencies") = .ok (some (strVals [c!"a.gyp:b#target"])) := rfl
example : (RemoveLinkDependenciesFromNoneTargets depListSample).map (fun t => t[1]?.bind fun e =>
    Dict.get? e.2 c!"dependencies") = .ok (some (strVals [c!"a.gyp:d#target"])) := rfl

/-! ### C16 -/

/-- The targets of a build file that a wildcard reference `r` stands for: those that do
not opt out and agree with it in name and toolset, `*` agreeing with everything. -/
def WildcardMatch (r : Ref) (t : WildTarget) : Prop :=
  t.suppress = false ∧ (r.target = c!"*" ∨ r.target = t.name) ∧
    (r.toolset = some c!"*" ∨ r.toolset = some t.toolset)

/-- A reference with a wildcard in it. -/
def IsWildcard (r : Ref) : Prop := r.target = c!"*" ∨ r.toolset = some c!"*"

/-- What stands in the expanded list in the place of a dependency. -/
def Expansion (data : Str → Option (List WildTarget)) (own : Option Str) (dep : Str)
    (part : List Str) : Prop :=
  ∀ r : Ref, r.wf → dep = r.text →
    (¬ IsWildcard r → part = [dep]) ∧
    (IsWildcard r → r.file ≠ own ∧ ∃ (file : Str) (ts : List WildTarget) (P : WildTarget → Bool),
      r.file = some file ∧ data file = some ts ∧ (∀ t, P t = true ↔ WildcardMatch r t) ∧
      part = (ts.filter P).map fun t => QualifiedTarget file t.name (some t.toolset))

theorem wildcardPicks_iff (r : Ref) (t : WildTarget) :
    wildcardPicks r.target r.toolset t = true ↔ WildcardMatch r t := by
  unfold wildcardPicks WildcardMatch
  by_cases h1 : t.suppress = true
  · simp [h1]
  · rw [if_neg h1]
    have h1' : t.suppress = false := by simpa using h1
    by_cases h2 : r.target = c!"*" ∨ r.target = t.name
    · rw [if_neg (by rcases h2 with h2 | h2 <;> simp [h2])]
      by_cases h3 : r.toolset = some c!"*" ∨ r.toolset = some t.toolset
      · rw [if_neg (by rcases h3 with h3 | h3 <;> simp [h3])]
        simp only [true_iff]
        exact ⟨h1', h2, h3⟩
      · rw [if_pos h3]
        simp only [Bool.false_eq_true, false_iff]
        exact fun h => h3 h.2.2
    · rw [if_pos h2]
      simp only [Bool.false_eq_true, false_iff]
      exact fun h => h2 h.2.1

theorem insertPicked_eq (file target : Str) (toolset : Option Str) :
    ∀ (ts : List WildTarget) (pre post : List Str),
      insertPicked file target toolset ts (pre ++ post) pre.length =
        (pre ++ ((ts.filter (wildcardPicks target toolset)).map fun t =>
          QualifiedTarget file t.name (some t.toolset)) ++ post,
         pre.length + (ts.filter (wildcardPicks target toolset)).length)
  | [], pre, post => by simp [insertPicked]
  | t :: ts, pre, post => by
    unfold insertPicked
    by_cases h : wildcardPicks target toolset t = true
    · rw [if_pos h]
      have h1 : (pre ++ post).insertIdx pre.length (QualifiedTarget file t.name (some t.toolset)) =
          (pre ++ [QualifiedTarget file t.name (some t.toolset)]) ++ post := by
        generalize QualifiedTarget file t.name (some t.toolset) = q
        clear h
        induction pre with
        | nil => simp
        | cons a pre ih => simp [ih]
      have h2 : pre.length + 1 = (pre ++ [QualifiedTarget file t.name (some t.toolset)]).length := by
        simp
      rw [h1, h2, insertPicked_eq file target toolset ts]
      simp [h]
      omega
    · rw [if_neg h, insertPicked_eq file target toolset ts pre post]
      simp [h]

theorem expandLoop_ok {data : Str → Option (List WildTarget)} {key target : Str}
    {own : Option Str} : ∀ (fuel : Nat) (rest done r : List Str),
    expandLoop data key target own fuel (done ++ rest) done.length = .ok r →
    ∃ parts, List.Forall₂ (Expansion data own) rest parts ∧ r = done ++ parts.flatten := by
  intro fuel
  induction fuel with
  | zero => intro rest done r h; cases h
  | succ fuel ih =>
    intro rest done r h
    unfold expandLoop at h
    cases rest with
    | nil =>
      simp only [List.append_nil, List.getElem?_eq_none (Nat.le_refl _)] at h
      cases h
      exact ⟨[], .nil, by simp⟩
    | cons dep rest =>
      have hget : (done ++ dep :: rest)[done.length]? = some dep := by simp
      rw [hget] at h
      simp only at h
      obtain ⟨ht, hw⟩ := C01_text_parse dep
      generalize hp : ParseQualifiedTarget dep = p at h ht hw
      obtain ⟨file, t, toolset⟩ := p
      simp only at h ht hw
      -- the reading of `dep` is unique
      have huniq : ∀ r : Ref, r.wf → dep = r.text → r = ⟨file, t, toolset⟩ := by
        intro r hr he
        have := C01_parse_text r hr
        rw [← he, hp] at this
        simp only [Prod.mk.injEq] at this
        obtain ⟨a, b, c⟩ := this
        cases r
        simp_all
      by_cases hwild : t ≠ c!"*" ∧ toolset ≠ some c!"*"
      · rw [if_pos hwild] at h
        have e1 : done ++ dep :: rest = (done ++ [dep]) ++ rest := by simp
        have e2 : done.length + 1 = (done ++ [dep]).length := by simp
        rw [e1, e2] at h
        obtain ⟨parts, p1, p2⟩ := ih rest (done ++ [dep]) r h
        refine ⟨[dep] :: parts, .cons ?_ p1, by rw [p2]; simp⟩
        intro q hq he
        have := huniq q hq he
        subst this
        refine ⟨fun _ => rfl, fun hw => ?_⟩
        rcases hw with hw | hw
        · exact absurd hw hwild.1
        · exact absurd hw hwild.2
      · rw [if_neg hwild] at h
        by_cases hown : file = own
        · rw [if_pos hown] at h; cases h
        · rw [if_neg hown] at h
          cases file with
          | none => cases h
          | some file =>
            simp only at h
            cases hd : data file with
            | none => rw [hd] at h; cases h
            | some ts =>
              rw [hd] at h
              simp only at h
              have e1 : (done ++ dep :: rest).eraseIdx done.length = done ++ rest := by
                rw [List.eraseIdx_append_of_length_le (Nat.le_refl _)]
                simp
              rw [e1, insertPicked_eq] at h
              simp only at h
              have e2 : done.length + (ts.filter (wildcardPicks t toolset)).length =
                  (done ++ ((ts.filter (wildcardPicks t toolset)).map fun t =>
                    QualifiedTarget file t.name (some t.toolset))).length := by simp
              rw [e2] at h
              obtain ⟨parts, p1, p2⟩ := ih rest _ r h
              refine ⟨((ts.filter (wildcardPicks t toolset)).map fun t =>
                    QualifiedTarget file t.name (some t.toolset)) :: parts, .cons ?_ p1,
                by rw [p2]; simp⟩
              intro q hq he
              have := huniq q hq he
              subst this
              refine ⟨fun hn => ?_, fun _ => ⟨hown, file, ts, wildcardPicks t toolset, rfl, hd,
                wildcardPicks_iff ⟨some file, t, toolset⟩, rfl⟩⟩
              exfalso
              apply hwild
              constructor
              · exact fun e => hn (.inl e)
              · exact fun e => hn (.inr e)

theorem expandLoop_fuel {data : Str → Option (List WildTarget)} {key target : Str}
    {own : Option Str} : ∀ (fuel : Nat) (rest done : List Str), rest.length < fuel →
    expandLoop data key target own fuel (done ++ rest) done.length ≠ .error .fuel := by
  intro fuel
  induction fuel with
  | zero => intro rest done h; exact absurd h (Nat.not_lt_zero _)
  | succ fuel ih =>
    intro rest done hlen h
    unfold expandLoop at h
    cases rest with
    | nil =>
      simp only [List.append_nil, List.getElem?_eq_none (Nat.le_refl _)] at h
      cases h
    | cons dep rest =>
      have hlen' : rest.length < fuel := by simpa using hlen
      have hget : (done ++ dep :: rest)[done.length]? = some dep := by simp
      rw [hget] at h
      simp only at h
      generalize hp : ParseQualifiedTarget dep = p at h
      obtain ⟨file, t, toolset⟩ := p
      simp only at h
      by_cases hwild : t ≠ c!"*" ∧ toolset ≠ some c!"*"
      · rw [if_pos hwild] at h
        have e1 : done ++ dep :: rest = (done ++ [dep]) ++ rest := by simp
        have e2 : done.length + 1 = (done ++ [dep]).length := by simp
        rw [e1, e2] at h
        exact ih rest (done ++ [dep]) hlen' h
      · rw [if_neg hwild] at h
        by_cases hown : file = own
        · rw [if_pos hown] at h; cases h
        · rw [if_neg hown] at h
          cases file with
          | none => cases h
          | some file =>
            simp only at h
            cases hd : data file with
            | none => rw [hd] at h; cases h
            | some ts =>
              rw [hd] at h
              simp only at h
              have e1 : (done ++ dep :: rest).eraseIdx done.length = done ++ rest := by
                rw [List.eraseIdx_append_of_length_le (Nat.le_refl _)]
                simp
              rw [e1, insertPicked_eq] at h
              simp only at h
              have e2 : done.length + (ts.filter (wildcardPicks t toolset)).length =
                  (done ++ ((ts.filter (wildcardPicks t toolset)).map fun t =>
                    QualifiedTarget file t.name (some t.toolset))).length := by simp
              rw [e2] at h
              exact ih rest _ hlen' h

theorem expandSection_frame {data : Str → Option (List WildTarget)} {name : Str} {td td' : Dict}
    {key : Str} (h : expandSection data name td key = .ok td') :
    ∀ k, k ≠ key → td'.get? k = td.get? k := by
  intro k hk
  unfold expandSection at h
  split at h
  · cases h
  · cases h; rfl
  · split at h
    · cases h
    · cases h; exact Dict.get?_set_ne _ _ hk

theorem expandSection_ok {data : Str → Option (List WildTarget)} {name : Str} {td td' : Dict}
    {key : Str} (h : expandSection data name td key = .ok td') :
    (∀ deps, td.get? key = some (strVals deps) →
      ∃ parts, List.Forall₂ (Expansion data (BuildFile name)) deps parts ∧
        td'.get? key = some (strVals parts.flatten)) ∧
    (td.get? key = none → td'.get? key = none) := by
  unfold expandSection at h
  cases hd : depList td key with
  | error e => rw [hd] at h; cases h
  | ok o =>
    rw [hd] at h
    cases o with
    | none =>
      cases h
      rw [depList_none] at hd
      exact ⟨fun deps he => (by rw [hd] at he; cases he), fun _ => hd⟩
    | some deps =>
      simp only at h
      rw [depList_some] at hd
      cases hl : expandLoop data key name (BuildFile name) (deps.length + 1) deps 0 with
      | error e => rw [hl] at h; cases h
      | ok r =>
        rw [hl] at h
        cases h
        obtain ⟨parts, p1, p2⟩ := expandLoop_ok (deps.length + 1) deps [] r hl
        refine ⟨fun deps' he => ?_, fun hn => (by rw [hd] at hn; cases hn)⟩
        rw [hd] at he
        have := strVals_inj (Option.some.inj he)
        subst this
        refine ⟨parts, p1, ?_⟩
        rw [Dict.get?_set_self, p2, List.nil_append]

/-- C16: in the dependency lists every wildcard is replaced, where it stands, by the
matching targets of the file it names, in the order of the file; other entries stay as
they are; nothing else in the targets changes.  A wildcard on the target's own file, or
on a file that is not loaded, makes the expansion fail. -/
theorem C16_expansion (data : Str → Option (List WildTarget)) (t t' : Table)
    (h : ExpandWildcardDependencies data t = .ok t') :
    List.Forall₂ (fun e e' => e'.1 = e.1 ∧
      (∀ key ∈ [c!"dependencies", c!"export_dependent_settings"],
        (∀ deps : List Str, e.2.get? key = some (strVals deps) →
          ∃ parts, List.Forall₂ (Expansion data (BuildFile e.1)) deps parts ∧
            e'.2.get? key = some (strVals parts.flatten)) ∧
        (e.2.get? key = none → e'.2.get? key = none)) ∧
      (∀ key, key ∉ [c!"dependencies", c!"export_dependent_settings"] →
        e'.2.get? key = e.2.get? key)) t t' := by
  refine (onTargets_ok h).imp ?_
  rintro e e' ⟨h1, h2⟩
  obtain ⟨f1, f2⟩ := fold_sections (fun td td' key h => expandSection_frame h) _ _ _ h2
  refine ⟨h1, ?_, f1⟩
  intro key hk
  have hsec : ∃ td1 td2, expandSection data e.1 td1 key = .ok td2 ∧
      td1.get? key = e.2.get? key ∧ e'.2.get? key = td2.get? key := by
    simp only [List.mem_cons, List.not_mem_nil, or_false] at hk
    rcases hk with rfl | rfl
    · obtain ⟨td1, td2, g1, g2, g3⟩ := f2 [] c!"dependencies" [c!"export_dependent_settings"] rfl
      exact ⟨td1, td2, g1, g2 _ (by simp), (g3 _ (by decide)).symm⟩
    · obtain ⟨td1, td2, g1, g2, g3⟩ := f2 [c!"dependencies"] c!"export_dependent_settings" [] rfl
      exact ⟨td1, td2, g1, g2 _ (by decide), (g3 _ (by simp)).symm⟩
  obtain ⟨td1, td2, g1, g2, g3⟩ := hsec
  rw [g3, ← g2]
  exact expandSection_ok g1

/-- C16: the loop over a dependency list ends. -/
theorem C16_terminates (data : Str → Option (List WildTarget)) (key target : Str)
    (own : Option Str) (deps : List Str) :
    expandLoop data key target own (deps.length + 1) deps 0 ≠ .error .fuel :=
  expandLoop_fuel (deps.length + 1) deps [] (Nat.lt_succ_self _)

/-- C16: after the removal of duplicates each dependency is listed once, in the order of
first occurrence. -/
theorem C16_unique (t t' : Table) (h : RemoveDuplicateDependencies t = .ok t') :
    List.Forall₂ (fun e e' => e'.1 = e.1 ∧
      (∀ key ∈ [c!"dependencies", c!"export_dependent_settings"], ∀ deps : List Str,
        e.2.get? key = some (strVals deps) → ∃ deps', e'.2.get? key = some (strVals deps') ∧
          deps'.Nodup ∧ (∀ x, x ∈ deps' ↔ x ∈ deps) ∧
          deps'.Pairwise (fun x y => deps.idxOf x < deps.idxOf y)) ∧
      (∀ key, key ∉ [c!"dependencies", c!"export_dependent_settings"] ∨ e.2.get? key = none →
        e'.2.get? key = e.2.get? key)) t t' := by
  refine (onTargets_ok h).imp ?_
  rintro e e' ⟨h1, h2⟩
  have hframe : ∀ (td td' : Dict) (key : Str), removeDuplicateSection td key = .ok td' →
      ∀ k, k ≠ key → td'.get? k = td.get? k := by
    intro td td' key h k hk
    unfold removeDuplicateSection at h
    split at h
    · cases h
    · cases h; rfl
    · cases h
      split
      · exact Dict.get?_set_ne _ _ hk
      · rfl
  obtain ⟨f1, f2⟩ := fold_sections hframe _ _ _ h2
  have hsec : ∀ key ∈ dependencySections, ∃ td1 td2, removeDuplicateSection td1 key = .ok td2 ∧
      td1.get? key = e.2.get? key ∧ e'.2.get? key = td2.get? key := by
    intro key hk
    simp only [dependencySections, List.mem_cons, List.not_mem_nil, or_false] at hk
    rcases hk with rfl | rfl
    · obtain ⟨td1, td2, g1, g2, g3⟩ := f2 [] c!"dependencies" [c!"export_dependent_settings"] rfl
      exact ⟨td1, td2, g1, g2 _ (by simp), (g3 _ (by decide)).symm⟩
    · obtain ⟨td1, td2, g1, g2, g3⟩ := f2 [c!"dependencies"] c!"export_dependent_settings" [] rfl
      exact ⟨td1, td2, g1, g2 _ (by decide), (g3 _ (by simp)).symm⟩
  refine ⟨h1, ?_, ?_⟩
  · intro key hk deps hd
    obtain ⟨td1, td2, g1, g2, g3⟩ := hsec key hk
    rw [hd] at g2
    refine ⟨Unify deps, ?_, by
      have := C09_unify deps
      exact ⟨this.1, this.2.1, by convert this.2.2⟩⟩
    rw [g3]
    unfold removeDuplicateSection at g1
    rw [depList_some.mpr g2] at g1
    simp only [Except.ok.injEq] at g1
    rw [← g1]
    split
    · rw [Dict.get?_set_self]
    · rename_i hne
      have : deps = [] := by simpa using hne
      subst this
      exact g2
  · rintro key (hk | hn)
    · exact f1 key hk
    · by_cases hk : key ∈ dependencySections
      · obtain ⟨td1, td2, g1, g2, g3⟩ := hsec key hk
        rw [g3, ← g2]
        rw [hn] at g2
        unfold removeDuplicateSection at g1
        rw [depList_none.mpr g2] at g1
        cases g1
        rfl
      · exact f1 key hk

/-- Expanding `b.gyp:*#target` in the middle of a list. -/
example : (ExpandWildcardDependencies
    (fun f => if f = c!"b.gyp" then some [⟨c!"x", c!"target", false⟩, ⟨c!"y", c!"target", true⟩,
      ⟨c!"x", c!"host", false⟩, ⟨c!"z", c!"target", false⟩] else none)
    [(c!"a.gyp:a#target", [(c!"dependencies",
      strVals [c!"a.gyp:b#target", c!"b.gyp:*#target", c!"a.gyp:c#target"])])]).map
      (fun t => t.map fun e => Dict.get? e.2 c!"dependencies") =
    .ok [some (strVals [c!"a.gyp:b#target", c!"b.gyp:x#target", c!"b.gyp:z#target",
      c!"a.gyp:c#target"])] := rfl

/-- A wildcard on the own build file. -/
example : ExpandWildcardDependencies (fun _ => some [])
    [(c!"a.gyp:a#target", [(c!"dependencies", strVals [c!"a.gyp:*#target"])])] =
    .error (.ownWildcard c!"dependencies" c!"a.gyp:a#target") := rfl

/-! ### C17 -/

/-- What a dependency reference becomes: file, target and toolset spelled out.  The
toolset is the target's own unless the reference gives one and several are in use; the
file is the target's own, or the one the reference names from the directory of that
file. -/
def Qualified (cwd : List Str) (multiple : Bool) (ownFile ownToolset dep q : Str) : Prop :=
  ∀ r : Ref, r.wf → dep = r.text →
    ∃ file toolset, q = file ++ c!":" ++ r.target ++ c!"#" ++ toolset ∧
      toolset = (if multiple then
        (match r.toolset with | some (c :: cs) => c :: cs | _ => ownToolset) else ownToolset) ∧
      (r.file = none ∨ r.file = some [] → file = ownFile) ∧
      (∀ f, r.file = some f → f ≠ [] → ownFile ≠ [] →
        walk cwd.reverse file = walk (walk cwd.reverse (dirname ownFile)) f)

theorem qualifyOne_ok (cwd : List Str) (hc : ∀ c ∈ cwd, validName c) (multiple : Bool)
    (file toolset dep : Str) (hts : toolset ≠ []) :
    Qualified cwd multiple file toolset dep (qualifyOne cwd multiple file toolset dep) := by
  intro r hr he
  subst he
  have h2 := C02_target_and_toolset cwd file r hr (some toolset)
  have h3 := C02_own_file cwd file r hr (some toolset)
  unfold qualifyOne
  generalize hR : ResolveTarget cwd file r.text (some toolset) = R at h2 h3
  obtain ⟨f, t, ts⟩ := R
  simp only [Prod.mk.injEq] at h2 h3
  obtain ⟨rfl, rfl⟩ := h2
  have hset : ∀ x : Str, x ≠ [] → QualifiedTarget f r.target (some x) =
      f ++ c!":" ++ r.target ++ c!"#" ++ x := by
    intro x hx
    simp [QualifiedTarget, hx]
  refine ⟨f, _, ?_, rfl, h3, ?_⟩
  · simp only
    cases multiple with
    | false =>
      simp only [Bool.false_eq_true, if_false]
      rw [hset _ hts]
    | true =>
      simp only [if_true]
      cases hts' : r.toolset with
      | none => simp only; rw [hset _ hts]
      | some x =>
        cases x with
        | nil => simp only; rw [hset _ hts]
        | cons y ys => simp only; rw [hset _ (by simp)]
  · intro g hg hne hown
    have := C02_file_denotes cwd hc file hown r hr g hg hne (some toolset)
    simp only [hR] at this
    exact this

theorem qualifySection_frame {cwd : List Str} {multiple : Bool} {target file toolset : Str}
    {td td' : Dict} {key : Str}
    (h : qualifySection cwd multiple target file toolset td key = .ok td') :
    ∀ k, k ≠ key → td'.get? k = td.get? k := by
  intro k hk
  unfold qualifySection at h
  split at h
  · cases h
  · cases h; rfl
  · split at h
    · cases h
    · cases h; exact Dict.get?_set_ne _ _ hk

theorem checkDirect_ok {target key q r : Str} {td : Dict} (h : checkDirect target key td q = .ok r) :
    r = q ∧ (key ≠ c!"dependencies" → ∃ ds, td.get? c!"dependencies" = some (strVals ds) ∧ q ∈ ds) := by
  unfold checkDirect at h
  by_cases hk : key = c!"dependencies"
  · rw [if_pos hk] at h
    cases h
    exact ⟨rfl, fun hn => absurd hk hn⟩
  · rw [if_neg hk] at h
    cases hd : depList td c!"dependencies" with
    | error e => rw [hd] at h; cases h
    | ok o =>
      rw [hd] at h
      cases o with
      | none => cases h
      | some ds =>
        simp only at h
        split at h
        · rename_i hm
          cases h
          exact ⟨rfl, fun _ => ⟨ds, depList_some.mp hd, hm⟩⟩
        · cases h

/-- C17: every entry of every dependency section becomes a fully qualified name, and the
entries of the other sections must be direct dependencies. -/
theorem C17_qualified (cwd : List Str) (hc : ∀ c ∈ cwd, validName c) (multiple : Bool)
    (t t' : Table) (h : QualifyDependencies cwd multiple t = .ok t') :
    List.Forall₂ (fun e e' => e'.1 = e.1 ∧
      ∃ toolset, e.2.get? c!"toolset" = some (.str toolset) ∧
      (∀ key ∈ [c!"dependencies", c!"dependencies!", c!"dependencies/",
          c!"export_dependent_settings", c!"export_dependent_settings!",
          c!"export_dependent_settings/"],
        (∀ deps : List Str, e.2.get? key = some (strVals deps) →
          ∃ qs, e'.2.get? key = some (strVals qs) ∧
            (toolset ≠ [] → List.Forall₂ (Qualified cwd multiple ((BuildFile e.1).getD []) toolset)
              deps qs) ∧
            (key ≠ c!"dependencies" → ∀ q ∈ qs, ∃ ds,
              e'.2.get? c!"dependencies" = some (strVals ds) ∧ q ∈ ds)) ∧
        (e.2.get? key = none → e'.2.get? key = none)) ∧
      (∀ key, key ∉ [c!"dependencies", c!"dependencies!", c!"dependencies/",
          c!"export_dependent_settings", c!"export_dependent_settings!",
          c!"export_dependent_settings/"] → e'.2.get? key = e.2.get? key)) t t' := by
  refine (mapM_ok h).imp ?_
  intro e e' he
  unfold qualifyTarget at he
  cases hts : e.2.get? c!"toolset" with
  | none => rw [hts] at he; cases he
  | some tv =>
  rw [hts] at he
  cases tv with
  | str toolset =>
    simp only at he
    cases hf : allDependencySections.foldlM
        (qualifySection cwd multiple e.1 ((BuildFile e.1).getD []) toolset) e.2 with
    | error x => rw [hf] at he; cases he
    | ok td =>
      rw [hf] at he
      cases he
      refine ⟨rfl, toolset, rfl, ?_⟩
      obtain ⟨f1, f2⟩ := fold_sections (fun td td' key h => qualifySection_frame h) _ _ _ hf
      refine ⟨?_, f1⟩
      intro key hk
      have hsplit : ∃ pre post, allDependencySections = pre ++ key :: post ∧ key ∉ pre ∧
          key ∉ post ∧ (key ≠ c!"dependencies" → c!"dependencies" ∉ post) := by
        simp only [List.mem_cons, List.not_mem_nil, or_false] at hk
        rcases hk with rfl | rfl | rfl | rfl | rfl | rfl
        · exact ⟨[], allDependencySections.drop 1, rfl, by decide, by decide, by decide⟩
        · exact ⟨allDependencySections.take 1, allDependencySections.drop 2, rfl, by decide, by decide, by decide⟩
        · exact ⟨allDependencySections.take 2, allDependencySections.drop 3, rfl, by decide, by decide, by decide⟩
        · exact ⟨allDependencySections.take 3, allDependencySections.drop 4, rfl, by decide, by decide, by decide⟩
        · exact ⟨allDependencySections.take 4, allDependencySections.drop 5, rfl, by decide, by decide, by decide⟩
        · exact ⟨allDependencySections.take 5, allDependencySections.drop 6, rfl, by decide, by decide, by decide⟩
      obtain ⟨pre, post, hs, hpre, hpost, hdep⟩ := hsplit
      obtain ⟨td1, td2, g1, g2, g3⟩ := f2 pre key post hs
      rw [← g3 key hpost, ← g2 key hpre]
      have hfr := qualifySection_frame g1
      unfold qualifySection at g1
      cases hd : depList td1 key with
      | error x => rw [hd] at g1; cases g1
      | ok o =>
        rw [hd] at g1
        cases o with
        | none =>
          cases g1
          rw [depList_none] at hd
          exact ⟨fun deps he => (by rw [hd] at he; cases he), fun _ => hd⟩
        | some deps =>
          simp only at g1
          rw [depList_some] at hd
          refine ⟨fun deps' he => ?_, fun hn => (by rw [hd] at hn; cases hn)⟩
          rw [hd] at he
          have := strVals_inj (Option.some.inj he)
          subst this
          cases hm : deps.mapM fun dep => checkDirect e.1 key td1
              (qualifyOne cwd multiple ((BuildFile e.1).getD []) toolset dep) with
          | error x => rw [hm] at g1; cases g1
          | ok qs =>
            rw [hm] at g1
            cases g1
            have hall := mapM_ok hm
            refine ⟨qs, Dict.get?_set_self _ _ _, fun hne => ?_, fun hkd q hq => ?_⟩
            · refine hall.imp ?_
              intro dep q hq
              rw [(checkDirect_ok hq).1]
              exact qualifyOne_ok cwd hc multiple _ toolset dep hne
            · obtain ⟨i, hi, rfl⟩ := List.getElem_of_mem hq
              have hi' : i < deps.length := by rw [hall.length_eq]; exact hi
              have hc := checkDirect_ok (hall.get hi' hi)
              obtain ⟨ds, d1, d2⟩ := hc.2 hkd
              refine ⟨ds, ?_, ?_⟩
              · rw [← g3 _ (hdep hkd), hfr _ (Ne.symm hkd), d1]
              · have := hc.1
                simp only [List.get_eq_getElem] at this
                rw [this]; exact d2
  | _ => cases he

/-- A dependency in another directory, one with a toolset and one in the same file. -/
example : (QualifyDependencies [c!"src"] true
    [(c!"d/a.gyp:a#target", [(c!"toolset", .str c!"target"),
      (c!"dependencies", strVals [c!"b", c!"../e/x.gyp:y", c!"c#host"]),
      (c!"export_dependent_settings", strVals [c!"b"])])]).map
      (fun t => t.map fun e => (Dict.get? e.2 c!"dependencies",
        Dict.get? e.2 c!"export_dependent_settings")) =
    .ok [(some (strVals [c!"d/a.gyp:b#target", c!"e/x.gyp:y#target", c!"d/a.gyp:c#host"]),
      some (strVals [c!"d/a.gyp:b#target"]))] := rfl

/-- An exported target that is not a dependency is refused. -/
example : QualifyDependencies [] true
    [(c!"a.gyp:a#target", [(c!"toolset", .str c!"target"), (c!"dependencies", strVals [c!"b"]),
      (c!"export_dependent_settings", strVals [c!"c"])])] =
    .error (.notDirect c!"a.gyp:c#target" c!"export_dependent_settings" c!"a.gyp:a#target") := rfl

end Gyp
