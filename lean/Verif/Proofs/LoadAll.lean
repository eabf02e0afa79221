import Verif.Model.LoadAll
import Verif.Props.DepLists
import Verif.Props.DepOrder
import Verif.Props.Load
import Verif.Props.Settings
import Verif.Props.ListFilters
import Verif.Props.Configurations
import Verif.Props.StaticLibs
import Verif.Props.Validate
/-
The passes of `Load`, one after the other.
-/
namespace Gyp
open Spec

theorem failAs_ok {ε α : Type} {f : ε → LoadErr} {x : Except ε α} {a : α} (h : failAs f x = .ok a) :
    x = .ok a := by
  cases x with
  | error e => exact absurd h (by simp [failAs])
  | ok b => cases h; rfl

theorem forall₂_comp {α β γ : Type} {R : α → β → Prop} {S : β → γ → Prop} {a : List α} {b : List β}
    {c : List γ} (h1 : List.Forall₂ R a b) (h2 : List.Forall₂ S b c) :
    List.Forall₂ (fun x z => ∃ y, R x y ∧ S y z) a c := by
  induction h1 generalizing c with
  | nil => cases h2; exact .nil
  | cons h _ ih =>
    cases h2 with
    | cons h' t' => exact .cons ⟨_, h, h'⟩ (ih t')

theorem forall₂_mem_left {α β : Type} {R : α → β → Prop} {a : List α} {b : List β}
    (h : List.Forall₂ R a b) {x : α} (hx : x ∈ a) : ∃ y ∈ b, R x y := by
  induction h with
  | nil => exact absurd hx (by simp)
  | cons h' _ ih =>
    rcases List.mem_cons.mp hx with rfl | hx
    · exact ⟨_, by simp, h'⟩
    · obtain ⟨y, hy, hr⟩ := ih hx
      exact ⟨y, by simp [hy], hr⟩

theorem forall₂_mem_right {α β : Type} {R : α → β → Prop} {a : List α} {b : List β}
    (h : List.Forall₂ R a b) {y : β} (hy : y ∈ b) : ∃ x ∈ a, R x y := by
  induction h with
  | nil => exact absurd hy (by simp)
  | cons h' _ ih =>
    rcases List.mem_cons.mp hy with rfl | hy
    · exact ⟨_, by simp, h'⟩
    · obtain ⟨x, hx, hr⟩ := ih hy
      exact ⟨x, by simp [hx], hr⟩

theorem forall₂_names {R : Str × Dict → Str × Dict → Prop} (hR : ∀ e e', R e e' → e'.1 = e.1) {a b : Table}
    (h : List.Forall₂ R a b) : b.map Prod.fst = a.map Prod.fst := by
  induction h with
  | nil => rfl
  | cons h' _ ih => simp [hR _ _ h', ih]

theorem table_get?_mem {t : Table} {n : Str} {d : Dict} (h : t.get? n = some d) : (n, d) ∈ t := by
  induction t with
  | nil => exact absurd h (by simp [Table.get?])
  | cons e t ih =>
    obtain ⟨k, v⟩ := e
    unfold Table.get? at h
    by_cases hk : k = n
    · rw [if_pos hk] at h; cases h; subst hk; simp
    · rw [if_neg hk] at h; exact List.mem_cons_of_mem _ (ih h)

/-! ### Filters: what keys there are -/

theorem del_sub (d : Dict) (k : Str) : ∀ x ∈ (d.del k).keys, x ∈ d.keys := by
  intro x hx
  rw [Dict.del_keys] at hx
  exact (List.mem_filter.mp hx).1

theorem del_nodup {d : Dict} (h : d.keys.Nodup) (k : Str) : (d.del k).keys.Nodup := by
  rw [Dict.del_keys]; exact h.filter _

theorem applyExclude_keys {c : FilterCtx} {k : Str} {l : List Val} {d d' : Dict} {a a' : List Action}
    (h : applyExclude c k l d a = .ok (d', a')) :
    (∀ x ∈ d'.keys, x ∈ d.keys) ∧ (d.keys.Nodup → d'.keys.Nodup) := by
  unfold applyExclude at h
  dsimp only at h
  split at h
  · cases h; exact ⟨fun _ h => h, id⟩
  · cases h; exact ⟨del_sub _ _, fun hn => del_nodup hn _⟩
  · exact absurd h (by simp)

theorem applyRegex_keys {c : FilterCtx} {k : Str} {l : List Val} {d d' : Dict} {a a' : List Action}
    (h : applyRegex c k l d a = .ok (d', a')) :
    (∀ x ∈ d'.keys, x ∈ d.keys) ∧ (d.keys.Nodup → d'.keys.Nodup) := by
  unfold applyRegex at h
  dsimp only at h
  split at h
  · cases h; exact ⟨fun _ h => h, id⟩
  · split at h
    · exact absurd h (by simp)
    · cases h; exact ⟨del_sub _ _, fun hn => del_nodup hn _⟩
  · exact absurd h (by simp)

theorem mem_keys_set {d : Dict} {k x : Str} {v : Val} : x ∈ (d.set k v).keys ↔ x ∈ d.keys ∨ x = k := by
  rw [Dict.keys_set]
  split
  · rename_i h
    constructor
    · exact Or.inl
    · rintro (h' | rfl)
      · exact h'
      · exact h
  · simp

theorem filterOne_keys {c : FilterCtx} {k : Str} {d d' : Dict} (h : filterOne c d k = .ok d') :
    (∀ x ∈ d'.keys, x ∈ d.keys ∨ x = k ++ c!"_excluded") ∧ (d.keys.Nodup → d'.keys.Nodup) := by
  unfold filterOne at h
  split at h
  · rename_i l hk
    split at h
    · exact absurd h (by simp)
    · rename_i d1 a1 h1
      split at h
      · exact absurd h (by simp)
      · rename_i d2 a2 h2
        obtain ⟨s1, n1⟩ := applyExclude_keys h1
        obtain ⟨s2, n2⟩ := applyRegex_keys h2
        have hkd : k ∈ d.keys := by
          rw [← Decidable.not_not (p := k ∈ d.keys), ← Dict.get?_eq_none, hk]; simp
        dsimp only at h
        split at h
        · exact absurd h (by simp)
        · cases h
          constructor
          · intro x hx
            split at hx
            · rcases mem_keys_set.mp hx with hx | rfl
              · rcases mem_keys_set.mp hx with hx | rfl
                · exact Or.inl (s1 _ (s2 _ hx))
                · exact Or.inl hkd
              · exact Or.inr rfl
            · rcases mem_keys_set.mp hx with hx | rfl
              · exact Or.inl (s1 _ (s2 _ hx))
              · exact Or.inl hkd
          · intro hn
            split
            · exact Dict.set_nodup (Dict.set_nodup (n2 (n1 hn)) _ _) _ _
            · exact Dict.set_nodup (n2 (n1 hn)) _ _
  · exact absurd h (by simp)
  · exact absurd h (by simp)

theorem filterMany_keys {c : FilterCtx} {l : List Str} {d d' : Dict} (h : l.foldlM (filterOne c) d = .ok d') :
    (∀ x ∈ d'.keys, x ∈ d.keys ∨ ∃ k, x = k ++ c!"_excluded") ∧ (d.keys.Nodup → d'.keys.Nodup) := by
  induction l generalizing d with
  | nil => cases h; exact ⟨fun _ h => Or.inl h, id⟩
  | cons k l ih =>
    rw [List.foldlM_cons] at h
    cases h1 : filterOne c d k with
    | error e => rw [h1] at h; exact absurd h (by simp [bind, Except.bind])
    | ok d1 =>
      rw [h1] at h
      obtain ⟨s, n⟩ := filterOne_keys h1
      obtain ⟨s', n'⟩ := ih h
      refine ⟨fun x hx => ?_, fun hn => n' (n hn)⟩
      rcases s' x hx with hx | hx
      · rcases s x hx with hx | rfl
        · exact Or.inl hx
        · exact Or.inr ⟨k, rfl⟩
      · exact Or.inr hx

theorem filterLevel_keys {c : FilterCtx} {d d' : Dict} (h : filterLevel c d = .ok d') :
    (∀ x ∈ d'.keys, x ∈ d.keys ∨ ∃ k, x = k ++ c!"_excluded") ∧ (d.keys.Nodup → d'.keys.Nodup) := by
  unfold filterLevel at h
  split at h
  · exact absurd h (by simp)
  · rename_i lists dels _
    obtain ⟨s, n⟩ := filterMany_keys h
    have hd : ∀ (ks : List Str) (d : Dict), (∀ x ∈ (ks.foldl Dict.del d).keys, x ∈ d.keys) ∧
        (d.keys.Nodup → (ks.foldl Dict.del d).keys.Nodup) := by
      intro ks
      induction ks with
      | nil => intro d; exact ⟨fun _ h => h, id⟩
      | cons k ks ih =>
        intro d
        obtain ⟨a, b⟩ := ih (d.del k)
        exact ⟨fun x hx => del_sub _ _ _ (a x hx), fun hn => b (del_nodup hn _)⟩
    obtain ⟨a, b⟩ := hd dels d
    exact ⟨fun x hx => (s x hx).imp (a x) id, fun hn => n (b hn)⟩

theorem processListFilters_keys {c : FilterCtx} {fuel : Nat} {d d' : Dict}
    (h : ProcessListFilters c fuel (.dict d) = .ok (.dict d')) :
    (∀ x ∈ d'.keys, x ∈ d.keys ∨ ∃ k, x = k ++ c!"_excluded") ∧ (d.keys.Nodup → d'.keys.Nodup) := by
  cases fuel with
  | zero => exact absurd h (by simp [ProcessListFilters])
  | succ fuel =>
    unfold ProcessListFilters at h
    split at h
    · exact absurd h (by simp)
    · rename_i d1 h1
      split at h
      · exact absurd h (by simp)
      · rename_i d2 h2
        cases h
        have hk : d'.keys = d1.keys := by
          have := mapM_ok h2
          unfold Dict.keys
          clear h1 h2
          induction this with
          | nil => rfl
          | cons h' _ ih =>
            unfold withKey at h'
            split at h'
            · exact absurd h' (by simp)
            · cases h'; simp [ih]
        rw [hk]
        exact filterLevel_keys h1

/-! ### The dependency sections -/

theorem sections_keys (td : Dict) (ks : List Str) :
    ∀ x, x ∈ Dict.keys (ks.filterMap fun k => (td.get? k).map fun v => (k, v)) ↔
      x ∈ ks ∧ (td.get? x).isSome := by
  intro x
  unfold Dict.keys
  simp only [List.mem_map, List.mem_filterMap, Option.map_eq_some_iff]
  constructor
  · rintro ⟨e, ⟨k, hk, v, hv, rfl⟩, rfl⟩
    exact ⟨hk, by simp [hv]⟩
  · rintro ⟨hk, hs⟩
    obtain ⟨v, hv⟩ := Option.isSome_iff_exists.mp hs
    exact ⟨(x, v), ⟨x, hk, v, hv, rfl⟩, rfl⟩

theorem sections_nodup (td : Dict) {ks : List Str} (hn : ks.Nodup) :
    (Dict.keys (ks.filterMap fun k => (td.get? k).map fun v => (k, v))).Nodup := by
  induction ks with
  | nil => simp [Dict.keys]
  | cons k ks ih =>
    rw [List.nodup_cons] at hn
    cases h : td.get? k with
    | none => simpa [List.filterMap_cons, h] using ih hn.2
    | some v =>
      rw [List.filterMap_cons]
      simp only [h, Option.map_some]
      show (k :: Dict.keys _).Nodup
      rw [List.nodup_cons]
      refine ⟨fun hk => ?_, ih hn.2⟩
      exact hn.1 ((sections_keys td ks k).mp hk).1

theorem sections_get (td : Dict) {ks : List Str} (hn : ks.Nodup) {k : Str} (hk : k ∈ ks) :
    Dict.get? (ks.filterMap fun k => (td.get? k).map fun v => (k, v)) k = td.get? k := by
  induction ks with
  | nil => exact absurd hk (by simp)
  | cons a ks ih =>
    rw [List.nodup_cons] at hn
    rw [List.filterMap_cons]
    by_cases ha : a = k
    · subst ha
      cases h : td.get? a with
      | none =>
        simp only [Option.map_none]
        rw [Dict.get?_eq_none]
        intro hx
        exact hn.1 ((sections_keys td ks a).mp hx).1
      | some v => simp [Dict.get?]
    · have hk' : k ∈ ks := by
        rcases List.mem_cons.mp hk with h | h
        · exact absurd h.symm ha
        · exact h
      cases h : td.get? a with
      | none => simpa using ih hn.2 hk'
      | some v =>
        simp only [Option.map_some, Dict.get?, if_neg ha]
        exact ih hn.2 hk'

theorem foldl_del_get (ks : List Str) (d : Dict) (k : Str) :
    Dict.get? (ks.foldl Dict.del d) k = if k ∈ ks then none else d.get? k := by
  induction ks generalizing d with
  | nil => simp
  | cons a ks ih =>
    rw [List.foldl_cons, ih]
    by_cases h : k ∈ ks
    · simp [h]
    · rw [if_neg h]
      by_cases ha : k = a
      · subst ha; simp [Dict.get?_del_self]
      · rw [Dict.get?_del_ne _ ha, if_neg (by simp [h, ha])]

theorem sections_plain : allDependencySections.Nodup ∧
    ∀ k ∈ allDependencySections, k.getLast? = some '!' ∨ k.getLast? = some '/' →
      k.dropLast.getLast? ≠ some '!' ∧ k.dropLast.getLast? ≠ some '/' := by decide

theorem isFilterKey_last {k : Str} (h : IsFilterKey k) : k.getLast? = some '!' ∨ k.getLast? = some '/' := by
  obtain ⟨b, rfl | rfl⟩ := h <;> simp

/-- What the filters of dependency sections leave: other keys, and a list without filters. -/
theorem filterDependencies_ok {env : LoadEnv} {td td' : Dict} (h : filterDependencies env td = .ok td') :
    (∀ k, k ∉ allDependencySections → (∀ b, k ≠ b ++ c!"_excluded") → td'.get? k = td.get? k) ∧
    (∀ deps : List Str, deps ≠ [] → td.get? c!"dependencies" = some (strVals deps) →
      td.get? c!"dependencies!" = none → td.get? c!"dependencies/" = none →
      td'.get? c!"dependencies" = some (strVals deps)) := by
  unfold filterDependencies at h
  dsimp only at h
  generalize htmp : (allDependencySections.filterMap fun k => (td.get? k).map fun v => (k, v)) = tmp at h
  have hkeys : ∀ x, x ∈ Dict.keys tmp ↔ x ∈ allDependencySections ∧ (td.get? x).isSome := by
    intro x; rw [← htmp]; exact sections_keys td _ x
  have hnod : (Dict.keys tmp).Nodup := by rw [← htmp]; exact sections_nodup td sections_plain.1
  have hget : ∀ k ∈ allDependencySections, Dict.get? tmp k = td.get? k := by
    intro k hk; rw [← htmp]; exact sections_get td sections_plain.1 hk
  have hdd : NoDoubleFilter tmp := by
    intro k hk hf hf2
    have := sections_plain.2 k ((hkeys k).mp hk).1 (isFilterKey_last hf)
    rcases isFilterKey_last hf2 with e | e
    · exact this.1 e
    · exact this.2 e
  split at h
  · exact absurd h (by simp)
  · rename_i r hr
    cases h
    obtain ⟨hsub, hn⟩ := processListFilters_keys hr
    constructor
    · intro k hk hex
      rw [foldl_set_get? _ _ _ (hn hnod), foldl_del_get, if_neg hk]
      have : Dict.get? r k = none := by
        rw [Dict.get?_eq_none]
        intro hx
        rcases hsub k hx with hx | ⟨b, hb⟩
        · exact hk ((hkeys k).mp hx).1
        · exact hex b hb
      rw [this]; rfl
    · intro deps hne hd h1 h2
      rw [foldl_set_get? _ _ _ (hn hnod)]
      obtain ⟨fuel, hf⟩ : ∃ n, env.fuel = n + 1 := by
        cases hf : env.fuel with
        | zero => rw [hf] at hr; exact absurd hr (by simp [ProcessListFilters])
        | succ n => exact ⟨n, rfl⟩
      rw [hf] at hr
      have hno : ∀ key, c!"dependencies" = key ∨ c!"dependencies" = key ++ c!"_excluded" →
          key ∈ Dict.keys tmp → key ++ c!"!" ∉ Dict.keys tmp ∧ key ++ c!"/" ∉ Dict.keys tmp := by
        rintro key (rfl | e) _
        · constructor
          · intro hx
            have := ((hkeys _).mp hx).2
            rw [show c!"dependencies" ++ c!"!" = c!"dependencies!" from rfl, h1] at this
            exact absurd this (by simp)
          · intro hx
            have := ((hkeys _).mp hx).2
            rw [show c!"dependencies" ++ c!"/" = c!"dependencies/" from rfl, h2] at this
            exact absurd this (by simp)
        · have := congrArg List.getLast? e
          simp at this
      obtain ⟨r', hr', _, hv⟩ := C24_others env.filters fuel tmp (.dict r) hdd hr c!"dependencies"
        (by intro hf; exact absurd (isFilterKey_last hf) (by decide)) hno
      cases hr'
      obtain ⟨w, hw, hrw⟩ := hv (strVals deps) (by rw [hget _ (by decide)]; exact hd)
      rw [hrw]
      have : w = strVals deps := by
        cases fuel with
        | zero => exact absurd hw (by simp [ProcessListFilters])
        | succ f =>
          cases f with
          | zero =>
            exfalso
            cases deps with
            | nil => exact hne rfl
            | cons a l => exact absurd hw (by simp [ProcessListFilters, strVals, bind, Except.bind])
          | succ f =>
            have := C24_scalars env.filters f (deps.map .str) (by
              intro x hx
              obtain ⟨s, _, rfl⟩ := List.mem_map.mp hx
              rfl)
            unfold strVals at hw
            rw [this] at hw
            cases hw; rfl
      rw [this]; rfl
  · exact absurd h (by simp)

theorem filterAll_ok {env : LoadEnv} {t t' : Table} (h : filterAllDependencies env t = .ok t') :
    List.Forall₂ (fun e e' => e'.1 = e.1 ∧ filterDependencies env e.2 = .ok e'.2) t t' := by
  induction t generalizing t' with
  | nil => cases h; exact .nil
  | cons e t ih =>
    obtain ⟨n, td⟩ := e
    unfold filterAllDependencies at h
    split at h
    · exact absurd h (by simp)
    · rename_i td' h1
      split at h
      · exact absurd h (by simp)
      · rename_i r h2
        cases h
        exact .cons ⟨rfl, h1⟩ (ih h2)


theorem bind_ok {ε α β : Type} {x : Except ε α} {f : α → Except ε β} {b : β} (h : (x >>= f) = .ok b) :
    ∃ a, x = .ok a ∧ f a = .ok b := by
  cases x with
  | error e => exact absurd h (by simp [bind, Except.bind])
  | ok a => exact ⟨a, rfl, h⟩

theorem dependencyPasses_ok {env : LoadEnv} {data : FileData} {t : Table}
    (h : dependencyPasses env data = .ok t) :
    ∃ t0 t1 t2 t3 t4 t5, BuildTargetsDict data = .ok t0 ∧
      QualifyDependencies env.cwd env.multiple t0 = .ok t1 ∧ RemoveSelfDependencies t1 = .ok t2 ∧
      ExpandWildcardDependencies (wildData data) t2 = .ok t3 ∧
      RemoveLinkDependenciesFromNoneTargets t3 = .ok t4 ∧ filterAllDependencies env t4 = .ok t5 ∧
      RemoveDuplicateDependencies t5 = .ok t := by
  unfold dependencyPasses at h
  obtain ⟨t0, h0, h⟩ := bind_ok h
  obtain ⟨t1, h1, h⟩ := bind_ok h
  obtain ⟨t2, h2, h⟩ := bind_ok h
  obtain ⟨t3, h3, h⟩ := bind_ok h
  obtain ⟨t4, h4, h⟩ := bind_ok h
  obtain ⟨t5, h5, h⟩ := bind_ok h
  exact ⟨t0, t1, t2, t3, t4, t5, failAs_ok h0, failAs_ok h1, failAs_ok h2, failAs_ok h3, failAs_ok h4, h5,
    failAs_ok h⟩

theorem graphPasses_ok {env : LoadEnv} {table table' : Table} {g : DepGraph} {flat : List Str}
    (h : graphPasses env table = .ok (g, flat, table')) :
    ∃ targets flat0, specsOf table = some targets ∧ BuildDependencyList targets env.fuel = .ok (g, flat0) ∧
      (env.roots = [] ∧ flat = flat0 ∧ table' = table ∨
        env.roots ≠ [] ∧ ∃ wanted wdata, PruneUnwantedTargets targets flat0 g env.fuel env.roots [] =
          .ok (wanted, flat, wdata) ∧ table' = keepWanted wanted table) ∧
      VerifyNoCollidingTargets flat = .ok () := by
  unfold graphPasses at h
  split at h
  · exact absurd h (by simp)
  rename_i targets h0
  split at h
  · exact absurd h (by simp)
  split at h
  · exact absurd h (by simp)
  rename_i g0 flat0 h1
  split at h
  · exact absurd h (by simp)
  rename_i flat1 table1 h2
  split at h
  · exact absurd h (by simp)
  rename_i h3
  cases h
  refine ⟨targets, flat0, h0, h1, ?_, h3⟩
  by_cases hr : env.roots = []
  · rw [if_pos hr] at h2
    cases h2
    exact Or.inl ⟨hr, rfl, rfl⟩
  · rw [if_neg hr] at h2
    split at h2
    · exact absurd h2 (by simp)
    · rename_i wanted fl wd hp
      cases h2
      exact Or.inr ⟨hr, wanted, wd, hp, rfl⟩

theorem loadTargets_ok {env : LoadEnv} {data : FileData} {flat : List Str} {out : Table}
    (h : loadTargets env data = .ok (flat, out)) :
    ∃ t0 g t1 t2 t3 t4 t5 t6 t7 t8, dependencyPasses env data = .ok t0 ∧
      graphPasses env t0 = .ok (g, flat, t1) ∧
      publishSettings env.cwd env.pathSections g env.fuel flat t1 = .ok t2 ∧
      adjustPass env g flat t2 = .ok t3 ∧
      eachTarget (latePass env) flat t3 = .ok t4 ∧ eachTarget (configPass env) flat t4 = .ok t5 ∧
      eachTarget (filterPass env) flat t5 = .ok t6 ∧ eachTarget (latelatePass env) flat t6 = .ok t7 ∧
      eachTarget (checkPass env) flat t7 = .ok t8 ∧
      out = t8.map fun e => (e.1, TurnIntIntoStrInDict e.2) := by
  unfold loadTargets at h
  obtain ⟨t0, h0, h⟩ := bind_ok h
  obtain ⟨⟨g, fl, t1⟩, h1, h⟩ := bind_ok h
  obtain ⟨t2, h2, h⟩ := bind_ok h
  obtain ⟨t3, h3, h⟩ := bind_ok h
  obtain ⟨t4, h4, h⟩ := bind_ok h
  obtain ⟨t5, h5, h⟩ := bind_ok h
  obtain ⟨t6, h6, h⟩ := bind_ok h
  obtain ⟨t7, h7, h⟩ := bind_ok h
  obtain ⟨t8, h8, h⟩ := bind_ok h
  cases h
  exact ⟨t0, g, t1, t2, t3, t4, t5, t6, t7, t8, h0, h1, failAs_ok h2, h3, h4, h5, h6, h7, h8, rfl⟩

/-- A pass over targets that are all different works on each of them once. -/
theorem eachTarget_ok {f : Str → Dict → Except LoadErr Dict} : ∀ {flat : List Str} {t t' : Table},
    flat.Nodup → eachTarget f flat t = .ok t' →
    (∀ x ∈ flat, ∃ d d', aget t x = some d ∧ f x d = .ok d' ∧ aget t' x = some d') ∧
    ∀ x, x ∉ flat → aget t' x = aget t x
  | [], t, t', _, h => by cases h; exact ⟨by simp, fun _ _ => rfl⟩
  | y :: flat, t, t', hn, h => by
    rw [List.nodup_cons] at hn
    unfold eachTarget at h
    split at h
    · exact absurd h (by simp)
    · rename_i td htd
      split at h
      · exact absurd h (by simp)
      · rename_i td' hf
        obtain ⟨i1, i2⟩ := eachTarget_ok hn.2 h
        constructor
        · intro x hx
          rcases List.mem_cons.mp hx with rfl | hxm
          · refine ⟨td, td', htd, hf, ?_⟩
            rw [i2 x hn.1, aget_aset, if_pos rfl]
          · obtain ⟨d, d', a, b, c⟩ := i1 x hxm
            rw [aget_aset, if_neg (by intro e; rw [e] at hxm; exact hn.1 hxm)] at a
            exact ⟨d, d', a, b, c⟩
        · intro x hx
          rw [List.mem_cons, not_or] at hx
          rw [i2 x hx.2, aget_aset, if_neg hx.1]

theorem before_cons_inv {α : Type} {z x y : α} {l : List α} (h : Before (z :: l) x y) :
    (x = z ∧ y ∈ l) ∨ Before l x y := by
  obtain ⟨p, q, r, e⟩ := h
  cases p with
  | nil =>
    obtain ⟨e1, e2⟩ := List.cons.inj e
    exact Or.inl ⟨e1.symm, by rw [e2]; simp⟩
  | cons w p =>
    obtain ⟨-, e2⟩ := List.cons.inj e
    exact Or.inr ⟨p, q, r, e2⟩

theorem before_in_sublist {α : Type} {l m : List α} (hs : l.Sublist m) (hn : m.Nodup) {x y : α}
    (h : Before m x y) (hx : x ∈ l) (hy : y ∈ l) : Before l x y := by
  have hne := h.ne hn
  induction hs with
  | slnil => exact absurd hx (by simp)
  | cons z hs ih =>
    rw [List.nodup_cons] at hn
    rcases before_cons_inv h with ⟨rfl, _⟩ | h
    · exact absurd (hs.subset hx) hn.1
    · exact ih hn.2 h hx hy
  | cons_cons z hs ih =>
    rw [List.nodup_cons] at hn
    rcases before_cons_inv h with ⟨rfl, _⟩ | hb
    · rcases List.mem_cons.mp hy with rfl | hy
      · exact absurd rfl hne
      · exact Before.head _ hy
    · have hx' : x ≠ z := by rintro rfl; exact hn.1 hb.mem_left
      have hy' : y ≠ z := by rintro rfl; exact hn.1 hb.mem_right
      exact (ih hn.2 hb ((List.mem_cons.mp hx).resolve_left hx') ((List.mem_cons.mp hy).resolve_left hy')).cons z

end Gyp
