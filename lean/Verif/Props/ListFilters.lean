import Verif.Model.ListFilters
import Verif.Spec.ListFilters
import Verif.Props.OrderedSet
import Verif.Proofs.Graph
import Mathlib.Data.List.Forall2
import Mathlib.Data.List.Induction
/-
C24: list filters.
-/
namespace Gyp
open Spec

/-! ### One list -/

/-- The verdict of a sequence of rules. -/
def verdict (rules : List FilterRule) (start : Action) (x : Val) : Action :=
  rules.foldl (fun a r => if r.isMatch x then some (!r.exclude) else a) start

theorem verdict_append (r1 r2 : List FilterRule) (s : Action) (x : Val) :
    verdict (r1 ++ r2) s x = verdict r2 (verdict r1 s x) x := by
  simp [verdict, List.foldl_append]

theorem verdict_excluded (rules : List FilterRule) (x : Val) :
    verdict rules none x = some false ↔ ExcludedBy rules x := by
  induction rules using List.reverseRecOn with
  | nil => simp [verdict, ExcludedBy]
  | append_singleton rules r ih =>
    rw [verdict_append]
    simp only [verdict, List.foldl_cons, List.foldl_nil]
    by_cases hm : r.isMatch x = true
    · rw [if_pos hm]
      constructor
      · intro h
        exact ⟨rules, r, [], rfl, by simpa using h, hm, by simp⟩
      · rintro ⟨pre, q, post, he, hq, hqm, hpost⟩
        rcases List.eq_nil_or_concat post with rfl | ⟨post', y, rfl⟩
        · have := List.append_inj_right' (s₁ := rules) (s₂ := pre) he rfl
          cases this
          simp [hq]
        · have he' : rules ++ [r] = (pre ++ q :: post') ++ [y] := by simpa using he
          have := List.append_inj_right' he' rfl
          cases this
          rw [hpost r (by simp)] at hm
          cases hm
    · rw [if_neg hm]
      have ih' : rules.foldl (fun a r => if r.isMatch x then some (!r.exclude) else a) none =
          some false ↔ ExcludedBy rules x := ih
      rw [ih']
      constructor
      · rintro ⟨pre, q, post, rfl, hq, hqm, hpost⟩
        refine ⟨pre, q, post ++ [r], by simp, hq, hqm, ?_⟩
        intro y hy
        rcases List.mem_append.mp hy with hy | hy
        · exact hpost y hy
        · rw [List.mem_singleton.mp hy]; simpa using hm
      · rintro ⟨pre, q, post, he, hq, hqm, hpost⟩
        rcases List.eq_nil_or_concat post with rfl | ⟨post', y, rfl⟩
        · have := List.append_inj_right' (s₁ := rules) (s₂ := pre) he rfl
          cases this
          exact absurd hqm hm
        · have he' : rules ++ [r] = (pre ++ q :: post') ++ [y] := by simpa using he
          have h1 := List.append_inj_left' he' rfl
          exact ⟨pre, q, post', h1, hq, hqm, fun z hz => hpost z (by simp [hz])⟩

theorem zipWith_map_self {α β γ : Type} (g : α → β → γ) (f : α → β) (l : List α) :
    List.zipWith g l (l.map f) = l.map fun x => g x (f x) := by
  induction l with
  | nil => rfl
  | cons x l ih => simp [ih]

theorem excludePass_eq (c : FilterCtx) (l : List Val) : ∀ (ex : List Val) (f : Val → Action),
    excludePass c l ex (l.map f) = l.map fun x => verdict (exclusionRules c.eq ex) (f x) x
  | [], f => by simp [excludePass, verdict, exclusionRules]
  | e :: ex, f => by
    have := excludePass_eq c l ex (fun item => if c.eq e item then some false else f item)
    unfold excludePass at this ⊢
    rw [List.foldl_cons, zipWith_map_self, this]
    apply List.map_congr_left
    intro x _
    simp [verdict, exclusionRules]

theorem regexLoop_eq (search : Str → Bool) (value : Bool) :
    ∀ (l : List Val) (f : Val → Action) (acts : List Action),
      regexLoop search value l (l.map f) = .ok acts →
      acts = l.map fun x =>
        if searchVal search x then some value else f x
  | [], f, acts, h => by cases h; rfl
  | x :: l, f, acts, h => by
    rw [List.map_cons] at h
    unfold regexLoop at h
    cases h1 : regexStep search value x (f x) with
    | error e => rw [h1] at h; cases h
    | ok a =>
      rw [h1] at h
      simp only at h
      cases h2 : regexLoop search value l (l.map f) with
      | error e => rw [h2] at h; cases h
      | ok acts' =>
        rw [h2] at h
        cases h
        rw [regexLoop_eq search value l f acts' h2, List.map_cons]
        congr 1
        unfold regexStep at h1
        split at h1
        · rename_i hv
          cases h1
          rw [hv]
          split <;> simp
        · cases x with
          | str s => cases h1; rfl
          | _ => cases h1

theorem regexItem_eq (c : FilterCtx) (l : List Val) (f : Val → Action) (item : Val)
    (acts : List Action) (h : regexItem c l (l.map f) item = .ok acts) :
    ∃ r, patternRule c.compile item = some r ∧ acts = l.map fun x => verdict [r] (f x) x := by
  unfold regexItem at h
  cases hu : unpack2 item with
  | none => rw [hu] at h; cases h
  | some ap =>
    obtain ⟨action, pattern⟩ := ap
    rw [hu] at h
    simp only at h
    cases pattern with
    | str p =>
      simp only at h
      cases hc : c.compile p with
      | none => rw [hc] at h; cases h
      | some search =>
        rw [hc] at h
        simp only at h
        cases ha : actionValue action with
        | none => rw [ha] at h; cases h
        | some value =>
          rw [ha] at h
          simp only at h
          have hl := regexLoop_eq search value l f acts h
          cases action with
          | str a =>
            have hval : (!decide (a = c!"exclude")) = value := by
              simp only [actionValue] at ha
              by_cases he : a = c!"exclude"
              · rw [if_pos he] at ha; cases ha; simp [he]
              · rw [if_neg he] at ha
                by_cases hi : a = c!"include"
                · rw [if_pos hi] at ha; cases ha; simpa using he
                · rw [if_neg hi] at ha; cases ha
            have hp : patternRule c.compile item = some ⟨a = c!"exclude", searchVal search⟩ := by
              unfold unpack2 at hu
              split at hu
              · cases hu; simp [patternRule, hc]
              · cases hu
                simp only [actionValue] at ha
                split at ha
                · rename_i e; simp at e
                · split at ha
                  · rename_i e; simp at e
                  · cases ha
              · cases hu; simp [patternRule, hc]
              · cases hu
            refine ⟨_, hp, ?_⟩
            rw [hl]
            apply List.map_congr_left
            intro x _
            simp only [verdict, List.foldl_cons, List.foldl_nil, hval]
          | _ => cases ha
    | _ => cases h

theorem regexFold_eq (c : FilterCtx) (l : List Val) : ∀ (rx : List Val) (f : Val → Action)
    (acts : List Action), rx.foldlM (regexItem c l) (l.map f) = .ok acts →
    acts = l.map fun x => verdict (rx.filterMap (patternRule c.compile)) (f x) x
  | [], f, acts, h => by cases h; simp [verdict]
  | item :: rx, f, acts, h => by
    rw [List.foldlM_cons] at h
    cases h1 : regexItem c l (l.map f) item with
    | error e => rw [h1] at h; cases h
    | ok a1 =>
      rw [h1] at h
      obtain ⟨r, hr, rfl⟩ := regexItem_eq c l f item a1 h1
      have := regexFold_eq c l rx _ acts h
      rw [this]
      apply List.map_congr_left
      intro x _
      rw [List.filterMap_cons, hr]
      show _ = verdict ([r] ++ _) _ _
      rw [verdict_append]

theorem splitLoop_eq (f : Val → Action) : ∀ (l tail : List Val) (rest : List Action)
    (ex : List Val), splitLoop (l.map f ++ rest) l.length (l ++ tail, ex) =
      (l.filter (fun x => !decide (f x = some false)) ++ tail,
        l.filter (fun x => decide (f x = some false)) ++ ex) := by
  intro l
  induction l using List.reverseRecOn with
  | nil => intro tail rest ex; simp [splitLoop]
  | append_singleton l x ih =>
    intro tail rest ex
    rw [List.length_append, List.length_singleton]
    unfold splitLoop
    have hget : ((l ++ [x]).map f ++ rest)[l.length]? = some (f x) := by simp
    rw [hget]
    have hm : (l ++ [x]).map f ++ rest = l.map f ++ (f x :: rest) := by simp
    rw [hm]
    by_cases hx : f x = some false
    · rw [if_pos (by rw [hx])]
      have h1 : ((l ++ [x]) ++ tail).eraseIdx l.length = l ++ tail := by
        rw [List.append_assoc, List.eraseIdx_append_of_length_le (Nat.le_refl _)]
        simp
      have h2 : (((l ++ [x]) ++ tail)[l.length]?).toList ++ ex = x :: ex := by simp
      rw [h1, h2, ih]
      simp [hx]
    · rw [if_neg (by simpa using hx)]
      rw [List.append_assoc, ih]
      simp [hx]

/-- What `filterOne` does to the entries for one list. -/
structure FilterEffect (c : FilterCtx) (d d' : Dict) (key : Str) : Prop where
  parts : ∃ (l : List Val) (P : Val → Bool), d.get? key = some (.list l) ∧
    (∀ x, P x = true ↔ ExcludedBy (filterRules c.eq c.compile d key) x) ∧
    d'.get? key = some (.list (l.filter fun x => !P x)) ∧
    d'.get? (key ++ c!"_excluded") =
      if l.filter P = [] then none else some (.list (l.filter P))
  noExclude : d'.get? (key ++ c!"!") = none
  noRegex : d'.get? (key ++ c!"/") = none
  fresh : d.get? (key ++ c!"_excluded") = none

theorem key_ne_bang (k : Str) : k ≠ k ++ c!"!" := by simp
theorem key_ne_slash (k : Str) : k ≠ k ++ c!"/" := by simp
theorem key_ne_excluded (k : Str) : k ≠ k ++ c!"_excluded" := by simp
theorem bang_ne_slash (k k' : Str) : k ++ c!"!" ≠ k' ++ c!"/" := by
  intro h
  have := List.append_inj_right' h rfl
  simp at this
theorem excluded_ne_op (k k' : Str) (o : Char) (ho : o ≠ 'd') : k ++ c!"_excluded" ≠ k' ++ [o] := by
  intro h
  have h1 : (k ++ c!"_exclude") ++ ['d'] = k' ++ [o] := by simpa using h
  have := List.append_inj_right' h1 rfl
  simp at this
  exact ho this.symm

theorem applyExclude_ok {c : FilterCtx} {key : Str} {l : List Val} {d d1 : Dict}
    {acts : List Action}
    (h : applyExclude c key l d (List.replicate l.length none) = .ok (d1, acts)) :
    d1 = d.del (key ++ c!"!") ∧
    acts = l.map fun x => verdict (exclusionRules c.eq (listAt d (key ++ c!"!"))) none x := by
  unfold applyExclude at h
  simp only at h
  have hr : List.replicate l.length (none : Action) = l.map fun _ => none := by
    simp
  cases hg : d.get? (key ++ c!"!") with
  | none =>
    rw [hg] at h
    cases h
    refine ⟨?_, ?_⟩
    · unfold Dict.del
      symm
      rw [List.filter_eq_self]
      intro e he
      rw [Dict.get?_eq_none] at hg
      simp only [ne_eq, decide_not, Bool.not_eq_true', decide_eq_false_iff_not]
      intro hk
      exact hg (List.mem_map.mpr ⟨e, he, hk⟩)
    · rw [hr]; simp [verdict, listAt, hg, exclusionRules]
  | some v =>
    rw [hg] at h
    cases v with
    | list ex =>
      cases h
      exact ⟨rfl, by rw [hr, excludePass_eq]; simp [listAt, hg]⟩
    | _ => cases h

theorem applyRegex_ok {c : FilterCtx} {key : Str} {l : List Val} {d d1 : Dict}
    {f : Val → Action} {acts : List Action}
    (h : applyRegex c key l d (l.map f) = .ok (d1, acts)) :
    d1 = d.del (key ++ c!"/") ∧
    acts = l.map fun x =>
      verdict ((listAt d (key ++ c!"/")).filterMap (patternRule c.compile)) (f x) x := by
  unfold applyRegex at h
  simp only at h
  cases hg : d.get? (key ++ c!"/") with
  | none =>
    rw [hg] at h
    cases h
    refine ⟨?_, ?_⟩
    · unfold Dict.del
      symm
      rw [List.filter_eq_self]
      intro e he
      rw [Dict.get?_eq_none] at hg
      simp only [ne_eq, decide_not, Bool.not_eq_true', decide_eq_false_iff_not]
      intro hk
      exact hg (List.mem_map.mpr ⟨e, he, hk⟩)
    · simp [verdict, listAt, hg]
  | some v =>
    rw [hg] at h
    cases v with
    | list rx =>
      simp only at h
      cases hf : rx.foldlM (regexItem c l) (l.map f) with
      | error e => rw [hf] at h; cases h
      | ok a =>
        rw [hf] at h
        cases h
        refine ⟨rfl, ?_⟩
        rw [regexFold_eq c l rx f _ hf]
        simp [listAt, hg]
    | _ => cases h

/-- The keys a filter step can change. -/
def filterTouched (key k : Str) : Prop :=
  k = key ∨ k = key ++ c!"!" ∨ k = key ++ c!"/" ∨ k = key ++ c!"_excluded"

theorem filterOne_ok {c : FilterCtx} {d d' : Dict} {key : Str} (h : filterOne c d key = .ok d') :
    FilterEffect c d d' key ∧ (∀ k, ¬ filterTouched key k → d'.get? k = d.get? k) ∧
    (∀ k ∈ d'.keys, k ∈ d.keys ∧ k ≠ key ++ c!"!" ∧ k ≠ key ++ c!"/" ∨ k = key ++ c!"_excluded") := by
  unfold filterOne at h
  cases hg : d.get? key with
  | none => rw [hg] at h; cases h
  | some v =>
  rw [hg] at h
  cases v with
  | list l =>
    simp only at h
    cases h1 : applyExclude c key l d (List.replicate l.length none) with
    | error e => rw [h1] at h; cases h
    | ok r1 =>
      obtain ⟨d1, acts1⟩ := r1
      rw [h1] at h
      simp only at h
      obtain ⟨e1, a1⟩ := applyExclude_ok h1
      cases h2 : applyRegex c key l d1 acts1 with
      | error e => rw [h2] at h; cases h
      | ok r2 =>
        obtain ⟨d2, acts2⟩ := r2
        rw [h2] at h
        simp only at h
        rw [a1] at h2
        obtain ⟨e2, a2⟩ := applyRegex_ok h2
        have hd1 : listAt d1 (key ++ c!"/") = listAt d (key ++ c!"/") := by
          unfold listAt
          rw [e1, Dict.get?_del_ne _ (bang_ne_slash key key).symm]
        rw [hd1] at a2
        have hacts : acts2 = l.map fun x => verdict (filterRules c.eq c.compile d key) none x := by
          rw [a2]
          apply List.map_congr_left
          intro x _
          unfold filterRules
          rw [verdict_append]
        split at h
        · cases h
        · rename_i hfresh
          have hfresh' : d2.get? (key ++ c!"_excluded") = none := by simpa using hfresh
          have hfd : d.get? (key ++ c!"_excluded") = none := by
            rw [e2, Dict.get?_del_ne _ (excluded_ne_op key key '/' (by decide)), e1,
              Dict.get?_del_ne _ (excluded_ne_op key key '!' (by decide))] at hfresh'
            exact hfresh'
          have hsplit := splitLoop_eq (fun x => verdict (filterRules c.eq c.compile d key) none x)
            l [] [] []
          simp only [List.append_nil] at hsplit
          rw [hacts, List.length_map, hsplit] at h
          simp only [Except.ok.injEq] at h
          have hd2 : ∀ k, k ≠ key ++ c!"!" → k ≠ key ++ c!"/" → d2.get? k = d.get? k := by
            intro k k1 k2
            rw [e2, Dict.get?_del_ne _ k2, e1, Dict.get?_del_ne _ k1]
          have hk2 : ∀ k ∈ d2.keys, k ∈ d.keys ∧ k ≠ key ++ c!"!" ∧ k ≠ key ++ c!"/" := by
            intro k hk
            rw [e2, Dict.del_keys, e1, Dict.del_keys] at hk
            simp only [List.mem_filter, decide_eq_true_eq] at hk
            exact ⟨hk.1.1, hk.1.2, hk.2⟩
          have hset_keys : ∀ k ∈ (d2.set key (.list (l.filter fun x =>
              !decide (verdict (filterRules c.eq c.compile d key) none x = some false)))).keys,
              k ∈ d.keys ∧ k ≠ key ++ c!"!" ∧ k ≠ key ++ c!"/" := by
            intro k hk
            rw [Dict.keys_set] at hk
            split at hk
            · exact hk2 k hk
            · rcases List.mem_append.mp hk with hk | hk
              · exact hk2 k hk
              · rw [List.mem_singleton.mp hk]
                refine ⟨?_, key_ne_bang key, key_ne_slash key⟩
                rw [← Dict.get?_isSome, hg]; rfl
          have hb2 : d2.get? (key ++ c!"!") = none := by
            rw [e2, Dict.get?_del_ne _ (bang_ne_slash key key), e1, Dict.get?_del_self]
          have hs2 : d2.get? (key ++ c!"/") = none := by rw [e2, Dict.get?_del_self]
          have hne : (l.filter (fun x =>
              decide (verdict (filterRules c.eq c.compile d key) none x = some false))).length > 0 ↔
              l.filter (fun x =>
              decide (verdict (filterRules c.eq c.compile d key) none x = some false)) ≠ [] := by
            rw [gt_iff_lt, List.length_pos_iff]
          refine ⟨⟨⟨l, fun x => decide (verdict (filterRules c.eq c.compile d key) none x = some false),
            hg, ?_, ?_, ?_⟩, ?_, ?_, hfd⟩, ?_, ?_⟩
          · intro x; rw [decide_eq_true_iff]; exact verdict_excluded _ x
          · rw [← h]
            split
            · rw [Dict.get?_set_ne _ _ (key_ne_excluded key), Dict.get?_set_self]
            · rw [Dict.get?_set_self]
          · rw [← h]
            by_cases hp : l.filter (fun x =>
                decide (verdict (filterRules c.eq c.compile d key) none x = some false)) = []
            · rw [if_pos hp, if_neg (by rw [hne]; simpa using hp),
                Dict.get?_set_ne _ _ (key_ne_excluded key).symm, hfresh']
            · rw [if_neg hp, if_pos (hne.mpr hp), Dict.get?_set_self]
          · rw [← h]
            split
            · rw [Dict.get?_set_ne _ _ (excluded_ne_op key key '!' (by decide)).symm,
                Dict.get?_set_ne _ _ (key_ne_bang key).symm, hb2]
            · rw [Dict.get?_set_ne _ _ (key_ne_bang key).symm, hb2]
          · rw [← h]
            split
            · rw [Dict.get?_set_ne _ _ (excluded_ne_op key key '/' (by decide)).symm,
                Dict.get?_set_ne _ _ (key_ne_slash key).symm, hs2]
            · rw [Dict.get?_set_ne _ _ (key_ne_slash key).symm, hs2]
          · intro k hk
            simp only [filterTouched, not_or] at hk
            rw [← h]
            split
            · rw [Dict.get?_set_ne _ _ hk.2.2.2, Dict.get?_set_ne _ _ hk.1, hd2 k hk.2.1 hk.2.2.1]
            · rw [Dict.get?_set_ne _ _ hk.1, hd2 k hk.2.1 hk.2.2.1]
          · intro k hk
            rw [← h] at hk
            split at hk
            · rw [Dict.keys_set] at hk
              split at hk
              · exact .inl (hset_keys k hk)
              · rcases List.mem_append.mp hk with hk | hk
                · exact .inl (hset_keys k hk)
                · exact .inr (List.mem_singleton.mp hk)
            · exact .inl (hset_keys k hk)
  | _ => cases h

/-! ### All lists of a dictionary -/

theorem isFilterKey_iff (k : Str) : IsFilterKey k ↔ ∃ op, k.getLast? = some op ∧ isFilterOp op = true := by
  constructor
  · rintro ⟨b, rfl | rfl⟩
    · exact ⟨'!', by simp, rfl⟩
    · exact ⟨'/', by simp, rfl⟩
  · rintro ⟨op, h, ho⟩
    have hk : k = k.dropLast ++ [op] := (List.dropLast_append_getLast? op h).symm
    refine ⟨k.dropLast, ?_⟩
    simp only [isFilterOp, Bool.decide_or, Bool.or_eq_true, decide_eq_true_eq] at ho
    rcases ho with rfl | rfl
    · exact .inl hk
    · exact .inr hk

theorem not_filter_excluded (k : Str) : ¬ IsFilterKey (k ++ c!"_excluded") := by
  rintro ⟨b, h | h⟩
  · exact excluded_ne_op k b '!' (by decide) h
  · exact excluded_ne_op k b '/' (by decide) h

theorem filterOne_keeps {c : FilterCtx} {d d' : Dict} {key k : Str}
    (h : filterOne c d key = .ok d') (hk : ¬ IsFilterKey k) (hm : k ∈ d.keys) : k ∈ d'.keys := by
  obtain ⟨he, hf, -⟩ := filterOne_ok h
  rw [← Dict.get?_isSome] at hm ⊢
  by_cases ht : filterTouched key k
  · rcases ht with rfl | rfl | rfl | rfl
    · obtain ⟨l, P, -, -, h2, -⟩ := he.parts
      rw [h2]; rfl
    · exact absurd ⟨key, .inl rfl⟩ hk
    · exact absurd ⟨key, .inr rfl⟩ hk
    · rw [he.fresh] at hm; cases hm
  · rw [hf k ht]; exact hm

theorem filterFold_fresh (c : FilterCtx) : ∀ (lists : List Str) (d d' : Dict),
    lists.foldlM (filterOne c) d = .ok d' → ∀ key ∈ lists, key ++ c!"_excluded" ∉ d.keys
  | [], _, _, _ => by simp
  | k :: lists, d, d', h => by
    rw [List.foldlM_cons] at h
    cases h1 : filterOne c d k with
    | error e => rw [h1] at h; cases h
    | ok d1 =>
      rw [h1] at h
      intro key hkey hm
      rcases List.mem_cons.mp hkey with rfl | hkey
      · have := (filterOne_ok h1).1.fresh
        rw [Dict.get?_eq_none] at this
        exact this hm
      · exact filterFold_fresh c lists d1 d' h key hkey
          (filterOne_keeps h1 (not_filter_excluded key) hm)

/-- Two lists without filter-key names, neither the other's list of excluded items, have
nothing to do with each other. -/
theorem not_touched {key key' : Str} (hne : key ≠ key') (h1 : ¬ IsFilterKey key)
    (h2 : ¬ IsFilterKey key') (h3 : key ≠ key' ++ c!"_excluded") (h4 : key' ≠ key ++ c!"_excluded")
    {k : Str} (hk : filterTouched key k) : ¬ filterTouched key' k := by
  rintro hk'
  rcases hk with rfl | rfl | rfl | rfl <;> rcases hk' with h | h | h | h
  · exact hne h
  · exact h1 ⟨_, .inl h⟩
  · exact h1 ⟨_, .inr h⟩
  · exact h3 h
  · exact h2 ⟨_, .inl h.symm⟩
  · exact hne (List.append_inj_left' h rfl)
  · exact bang_ne_slash _ _ h
  · exact excluded_ne_op _ _ '!' (by decide) h.symm
  · exact h2 ⟨_, .inr h.symm⟩
  · exact bang_ne_slash _ _ h.symm
  · exact hne (List.append_inj_left' h rfl)
  · exact excluded_ne_op _ _ '/' (by decide) h.symm
  · exact h4 h.symm
  · exact excluded_ne_op _ _ '!' (by decide) h
  · exact excluded_ne_op _ _ '/' (by decide) h
  · exact hne (List.append_inj_left' h rfl)

theorem FilterEffect.congr {c : FilterCtx} {d1 d1' d2 d2' : Dict} {key : Str}
    (h : FilterEffect c d1 d2 key) (e1 : ∀ k, filterTouched key k → d1'.get? k = d1.get? k)
    (e2 : ∀ k, filterTouched key k → d2'.get? k = d2.get? k) : FilterEffect c d1' d2' key := by
  have t1 : filterTouched key key := .inl rfl
  have t2 : filterTouched key (key ++ c!"!") := .inr (.inl rfl)
  have t3 : filterTouched key (key ++ c!"/") := .inr (.inr (.inl rfl))
  have t4 : filterTouched key (key ++ c!"_excluded") := .inr (.inr (.inr rfl))
  have hr : filterRules c.eq c.compile d1' key = filterRules c.eq c.compile d1 key := by
    unfold filterRules listAt
    rw [e1 _ t2, e1 _ t3]
  obtain ⟨l, P, p1, p2, p3, p4⟩ := h.parts
  refine ⟨⟨l, P, ?_, ?_, ?_, ?_⟩, ?_, ?_, ?_⟩
  · rw [e1 _ t1, p1]
  · rw [hr]; exact p2
  · rw [e2 _ t1, p3]
  · rw [e2 _ t4, p4]
  · rw [e2 _ t2, h.noExclude]
  · rw [e2 _ t3, h.noRegex]
  · rw [e1 _ t4, h.fresh]

theorem filterFold_ok (c : FilterCtx) : ∀ (lists : List Str) (d d' : Dict),
    lists.Nodup → (∀ key ∈ lists, ¬ IsFilterKey key) →
    (∀ key ∈ lists, ∀ key' ∈ lists, key ≠ key' ++ c!"_excluded") →
    lists.foldlM (filterOne c) d = .ok d' →
    (∀ key ∈ lists, FilterEffect c d d' key) ∧
    (∀ k, (∀ key ∈ lists, ¬ filterTouched key k) → d'.get? k = d.get? k)
  | [], d, d', _, _, _, h => by cases h; simp
  | k :: lists, d, d', hn, hf, hx, h => by
    rw [List.foldlM_cons] at h
    cases h1 : filterOne c d k with
    | error e => rw [h1] at h; cases h
    | ok d1 =>
      rw [h1] at h
      obtain ⟨e1, f1, -⟩ := filterOne_ok h1
      obtain ⟨i1, i2⟩ := filterFold_ok c lists d1 d' (List.nodup_cons.mp hn).2
        (fun key hk => hf key (by simp [hk]))
        (fun a ha b hb => hx a (by simp [ha]) b (by simp [hb])) h
      have hne : ∀ key ∈ lists, key ≠ k := by
        rintro key hk rfl
        exact (List.nodup_cons.mp hn).1 hk
      constructor
      · intro key hk
        rcases List.mem_cons.mp hk with rfl | hk
        · refine e1.congr (fun _ _ => rfl) fun q hq => i2 q ?_
          intro key' hk'
          exact not_touched (hne key' hk').symm (hf _ (by simp)) (hf key' (by simp [hk']))
            (hx _ (by simp) key' (by simp [hk'])) (hx key' (by simp [hk']) _ (by simp)) hq
        · refine (i1 key hk).congr (fun q hq => (f1 q ?_).symm) fun _ _ => rfl
          exact not_touched (hne key hk) (hf key (by simp [hk])) (hf _ (by simp))
            (hx key (by simp [hk]) _ (by simp)) (hx _ (by simp) key (by simp [hk])) hq
      · intro q hq
        rw [i2 q fun key hk => hq key (by simp [hk]), f1 q (hq k (by simp))]

/-- What the collecting loop finds. -/
theorem collect_ok (d0 : Dict) : ∀ (d : Dict) (s s' : List Str × List Str), s.1.Nodup →
    d.foldlM (collectStep d0) s = .ok s' → s'.1.Nodup ∧
    (∀ key, key ∈ s'.1 ↔ key ∈ s.1 ∨ ∃ k ∈ d.keys, IsFilterKey k ∧ k.dropLast = key ∧
      key ∈ d0.keys) ∧
    (∀ k, k ∈ s'.2 ↔ k ∈ s.2 ∨ k ∈ d.keys ∧ IsFilterKey k ∧ k.dropLast ∉ d0.keys)
  | [], s, s', hn, h => by cases h; simp [hn, Dict.keys]
  | (k, v) :: d, s, s', hn, h => by
    rw [List.foldlM_cons] at h
    have key_cons : Dict.keys ((k, v) :: d) = k :: Dict.keys d := rfl
    have step : ∀ s1, collectStep d0 s (k, v) = .ok s1 → s1.1.Nodup ∧
        (∀ key, key ∈ s1.1 ↔ key ∈ s.1 ∨ (IsFilterKey k ∧ k.dropLast = key ∧ key ∈ d0.keys)) ∧
        (∀ q, q ∈ s1.2 ↔ q ∈ s.2 ∨ (q = k ∧ IsFilterKey k ∧ k.dropLast ∉ d0.keys)) := by
      intro s1 h1
      unfold collectStep at h1
      simp only at h1
      cases hl : k.getLast? with
      | none =>
        rw [hl] at h1
        cases h1
        have : ¬ IsFilterKey k := by rw [isFilterKey_iff, hl]; simp
        simp [this, hn]
      | some op =>
        rw [hl] at h1
        simp only at h1
        by_cases ho : isFilterOp op = true
        · rw [if_pos ho] at h1
          have hfk : IsFilterKey k := (isFilterKey_iff k).mpr ⟨op, hl, ho⟩
          cases v with
          | list l =>
            simp only at h1
            cases hg : Dict.get? d0 k.dropLast with
            | none =>
              rw [hg] at h1
              cases h1
              rw [Dict.get?_eq_none] at hg
              refine ⟨hn, fun key => ?_, fun q => ?_⟩
              · constructor
                · exact .inl
                · rintro (h | ⟨-, rfl, h⟩)
                  · exact h
                  · exact absurd h hg
              · simp [hfk, hg]
            | some w =>
              rw [hg] at h1
              cases w with
              | list l' =>
                cases h1
                have hm : k.dropLast ∈ Dict.keys d0 := by rw [← Dict.get?_isSome, hg]; rfl
                refine ⟨listAdd_nodup _ hn, fun key => ?_, fun q => ?_⟩
                · rw [mem_listAdd]
                  constructor
                  · rintro (rfl | h)
                    · exact .inr ⟨hfk, rfl, hm⟩
                    · exact .inl h
                  · rintro (h | ⟨-, rfl, -⟩)
                    · exact .inr h
                    · exact .inl rfl
                · simp [hm]
              | _ => cases h1
          | _ => cases h1
        · rw [if_neg ho] at h1
          cases h1
          have : ¬ IsFilterKey k := by
            rw [isFilterKey_iff, hl]
            rintro ⟨o, ho1, ho2⟩
            cases ho1
            exact ho ho2
          simp [this, hn]
    cases h1 : collectStep d0 s (k, v) with
    | error e => rw [h1] at h; cases h
    | ok s1 =>
      rw [h1] at h
      obtain ⟨n1, m1, m2⟩ := step s1 h1
      obtain ⟨i1, i2, i3⟩ := collect_ok d0 d s1 s' n1 h
      refine ⟨i1, fun key => ?_, fun q => ?_⟩
      · rw [i2, m1, key_cons]
        constructor
        · rintro ((h | ⟨h1, h2, h3⟩) | ⟨k', h0, h⟩)
          · exact .inl h
          · exact .inr ⟨k, by simp, h1, h2, h3⟩
          · exact .inr ⟨k', by simp [h0], h⟩
        · rintro (h | ⟨k', h0, h⟩)
          · exact .inl (.inl h)
          · rcases List.mem_cons.mp h0 with rfl | h0
            · exact .inl (.inr h)
            · exact .inr ⟨k', h0, h⟩
      · rw [i3, m2, key_cons, List.mem_cons]
        constructor
        · rintro ((h | ⟨rfl, h⟩) | ⟨h0, h⟩)
          · exact .inl h
          · exact .inr ⟨.inl rfl, h⟩
          · exact .inr ⟨.inr h0, h⟩
        · rintro (h | ⟨rfl | h0, h⟩)
          · exact .inl (.inl h)
          · exact .inl (.inr ⟨rfl, h⟩)
          · exact .inr ⟨h0, h⟩

theorem foldl_del_get? (k : Str) : ∀ (dels : List Str) (d : Dict),
    Dict.get? (dels.foldl Dict.del d) k = if k ∈ dels then none else d.get? k
  | [], d => by simp
  | x :: dels, d => by
    rw [List.foldl_cons, foldl_del_get? k dels]
    by_cases h : k ∈ dels
    · simp [h]
    · by_cases hx : k = x
      · subst hx; simp [Dict.get?_del_self]
      · rw [if_neg h, Dict.get?_del_ne _ hx, if_neg (by simp [h, hx])]

theorem isFilterKey_dropLast {k : Str} (h : IsFilterKey k) :
    k = k.dropLast ++ c!"!" ∨ k = k.dropLast ++ c!"/" := by
  obtain ⟨b, rfl | rfl⟩ := h
  · left; simp
  · right; simp

/-- No key is a filter of a filter. -/
def NoDoubleFilter (d : Dict) : Prop := ∀ k ∈ d.keys, IsFilterKey k → ¬ IsFilterKey k.dropLast

theorem filterLevel_ok (c : FilterCtx) {d d' : Dict} (hdd : NoDoubleFilter d)
    (h : filterLevel c d = .ok d') :
    (∀ key, ¬ IsFilterKey key → key ∈ d.keys → (key ++ c!"!" ∈ d.keys ∨ key ++ c!"/" ∈ d.keys) →
      FilterEffect c d d' key) ∧
    (∀ k, ¬ IsFilterKey k →
      (∀ key, k = key ∨ k = key ++ c!"_excluded" → key ∈ d.keys →
        key ++ c!"!" ∉ d.keys ∧ key ++ c!"/" ∉ d.keys) → d'.get? k = d.get? k) := by
  unfold filterLevel at h
  cases hc : d.foldlM (collectStep d) ([], []) with
  | error e => rw [hc] at h; cases h
  | ok s =>
    obtain ⟨lists, dels⟩ := s
    rw [hc] at h
    simp only at h
    obtain ⟨hn, hl, hdel⟩ := collect_ok d d _ _ (by simp) hc
    simp only [List.not_mem_nil, false_or] at hl hdel
    have hnf : ∀ key ∈ lists, ¬ IsFilterKey key := by
      intro key hk
      obtain ⟨k, h1, h2, rfl, -⟩ := (hl key).mp hk
      exact hdd k h1 h2
    have hget : ∀ k, ¬ (k ∈ d.keys ∧ IsFilterKey k ∧ k.dropLast ∉ d.keys) →
        Dict.get? (dels.foldl Dict.del d) k = d.get? k := by
      intro k hk
      rw [foldl_del_get?, if_neg]
      rwa [hdel]
    have hpres : ∀ k, ¬ IsFilterKey k → k ∈ d.keys → k ∈ Dict.keys (dels.foldl Dict.del d) := by
      intro k hk hm
      rw [← Dict.get?_isSome, hget k (fun h => hk h.2.1), Dict.get?_isSome]
      exact hm
    have hfr := filterFold_fresh c lists _ d' h
    have hx : ∀ key ∈ lists, ∀ key' ∈ lists, key ≠ key' ++ c!"_excluded" := by
      rintro key hk key' hk' rfl
      obtain ⟨k, h1, h2, h3, h4⟩ := (hl _).mp hk
      exact hfr key' hk' (hpres _ (not_filter_excluded _) h4)
    obtain ⟨f1, f2⟩ := filterFold_ok c lists _ d' hn hnf hx h
    constructor
    · intro key hkf hkd hfil
      have hkl : key ∈ lists := by
        rw [hl]
        rcases hfil with hf | hf
        · exact ⟨_, hf, ⟨key, .inl rfl⟩, by simp, hkd⟩
        · exact ⟨_, hf, ⟨key, .inr rfl⟩, by simp, hkd⟩
      refine (f1 key hkl).congr (fun k hk => (hget k ?_).symm) fun _ _ => rfl
      rintro ⟨h1, h2, h3⟩
      rcases hk with rfl | rfl | rfl | rfl
      · exact hkf h2
      · simp at h3; exact h3 hkd
      · simp at h3; exact h3 hkd
      · exact not_filter_excluded _ h2
    · intro k hkf hno
      rw [f2 k ?_, hget k fun h => hkf h.2.1]
      intro key hk ht
      obtain ⟨q, h1, h2, rfl, h4⟩ := (hl _).mp hk
      have hq : q.dropLast ++ c!"!" ∈ d.keys ∨ q.dropLast ++ c!"/" ∈ d.keys := by
        rcases isFilterKey_dropLast h2 with e | e
        · left; rw [← e]; exact h1
        · right; rw [← e]; exact h1
      rcases ht with e | e | e | e
      · have := hno _ (.inl e) h4
        rcases hq with hq | hq
        · exact this.1 hq
        · exact this.2 hq
      · exact hkf ⟨_, .inl e⟩
      · exact hkf ⟨_, .inr e⟩
      · have := hno _ (.inr e) h4
        rcases hq with hq | hq
        · exact this.1 hq
        · exact this.2 hq

theorem filterFold_keys (c : FilterCtx) : ∀ (lists : List Str) (d d' : Dict),
    lists.foldlM (filterOne c) d = .ok d' → ∀ k ∈ d'.keys, IsFilterKey k →
      k ∈ d.keys ∧ k.dropLast ∉ lists
  | [], d, d', h => by cases h; exact fun k hk _ => ⟨hk, by simp⟩
  | x :: lists, d, d', h => by
    rw [List.foldlM_cons] at h
    cases h1 : filterOne c d x with
    | error e => rw [h1] at h; cases h
    | ok d1 =>
      rw [h1] at h
      intro k hk hf
      obtain ⟨i1, i2⟩ := filterFold_keys c lists d1 d' h k hk hf
      rcases (filterOne_ok h1).2.2 k i1 with ⟨h2, h3, h4⟩ | h2
      · refine ⟨h2, ?_⟩
        rw [List.mem_cons, not_or]
        refine ⟨?_, i2⟩
        rintro rfl
        rcases isFilterKey_dropLast hf with e | e
        · exact h3 e
        · exact h4 e
      · subst h2; exact absurd hf (not_filter_excluded x)

theorem filterLevel_clean (c : FilterCtx) {d d' : Dict} (h : filterLevel c d = .ok d') :
    ∀ k ∈ d'.keys, ¬ IsFilterKey k := by
  unfold filterLevel at h
  cases hc : d.foldlM (collectStep d) ([], []) with
  | error e => rw [hc] at h; cases h
  | ok s =>
    obtain ⟨lists, dels⟩ := s
    rw [hc] at h
    simp only at h
    obtain ⟨-, hl, hdel⟩ := collect_ok d d _ _ (by simp) hc
    simp only [List.not_mem_nil, false_or] at hl hdel
    intro k hk hf
    obtain ⟨h1, h2⟩ := filterFold_keys c lists _ d' h k hk hf
    rw [← Dict.get?_isSome, foldl_del_get?] at h1
    split at h1
    · cases h1
    · rename_i hd
      rw [Dict.get?_isSome] at h1
      by_cases hb : k.dropLast ∈ d.keys
      · exact h2 ((hl _).mpr ⟨k, h1, hf, rfl, hb⟩)
      · exact hd ((hdel k).mpr ⟨h1, hf, hb⟩)

/-! ### The recursion -/

theorem mapM_ok {α β ε : Type} {f : α → Except ε β} :
    ∀ {l : List α} {r : List β}, l.mapM f = .ok r → List.Forall₂ (fun a b => f a = .ok b) l r
  | [], r, h => by cases h; exact .nil
  | a :: l, r, h => by
    rw [List.mapM_cons] at h
    cases h1 : f a with
    | error e => rw [h1] at h; cases h
    | ok b =>
      rw [h1] at h
      cases h2 : l.mapM f with
      | error e =>
        simp only [bind, Except.bind, h2] at h; cases h
      | ok bs =>
        simp only [bind, Except.bind, h2, pure, Except.pure] at h
        cases h
        exact .cons h1 (mapM_ok h2)

theorem mapM_of_forall₂ {α β ε : Type} {f : α → Except ε β} :
    ∀ {l : List α} {r : List β}, List.Forall₂ (fun a b => f a = .ok b) l r → l.mapM f = .ok r
  | _, _, .nil => rfl
  | _, _, .cons h t => by
    rw [List.mapM_cons, h]
    simp only [bind, Except.bind, mapM_of_forall₂ t]
    rfl

theorem process_dict {c : FilterCtx} {fuel : Nat} {d : Dict} {v : Val}
    (h : ProcessListFilters c (fuel + 1) (.dict d) = .ok v) :
    ∃ d1 r, filterLevel c d = .ok d1 ∧ v = .dict r ∧
      List.Forall₂ (fun e e' => e'.1 = e.1 ∧ ProcessListFilters c fuel e.2 = .ok e'.2) d1 r := by
  unfold ProcessListFilters at h
  cases h1 : filterLevel c d with
  | error e => rw [h1] at h; cases h
  | ok d1 =>
    rw [h1] at h
    simp only at h
    cases h2 : d1.mapM (fun e => withKey e.1 (ProcessListFilters c fuel e.2)) with
    | error e => rw [h2] at h; cases h
    | ok r =>
      rw [h2] at h
      cases h
      refine ⟨d1, r, rfl, rfl, (mapM_ok h2).imp ?_⟩
      intro e e' he
      cases hw : ProcessListFilters c fuel e.2 with
      | error x => rw [hw] at he; cases he
      | ok w => rw [hw] at he; cases he; exact ⟨rfl, rfl⟩

theorem forall₂_get? {c : FilterCtx} {fuel : Nat} {d r : Dict}
    (h : List.Forall₂ (fun e e' => e'.1 = e.1 ∧ ProcessListFilters c fuel e.2 = .ok e'.2) d r)
    (k : Str) :
    match d.get? k with
    | none => r.get? k = none
    | some v => ∃ w, ProcessListFilters c fuel v = .ok w ∧ r.get? k = some w := by
  induction h with
  | nil => simp [Dict.get?]
  | @cons a b l1 l2 hab _ ih =>
    obtain ⟨ka, va⟩ := a
    obtain ⟨kb, vb⟩ := b
    obtain ⟨h1, h2⟩ := hab
    simp only at h1 h2
    subst h1
    simp only [Dict.get?]
    by_cases hk : kb = k
    · simp only [if_pos hk]
      exact ⟨vb, h2, rfl⟩
    · simp only [if_neg hk]
      exact ih

/-- C24: a list with filters.  Its items are split, keeping their order, into those that
stay and those that the rules exclude; the excluded ones are found under the key with
`_excluded` appended, which is absent if there are none.  (Both are then processed
themselves, because their items may contain filters.) -/
theorem C24_filter (c : FilterCtx) (fuel : Nat) (d : Dict) (v : Val) (hdd : NoDoubleFilter d)
    (h : ProcessListFilters c (fuel + 1) (.dict d) = .ok v) (key : Str) (l : List Val)
    (hk : d.get? key = some (.list l)) (hnf : ¬ IsFilterKey key)
    (hfil : key ++ c!"!" ∈ d.keys ∨ key ++ c!"/" ∈ d.keys) :
    ∃ (r : Dict) (P : Val → Bool), v = .dict r ∧
      (∀ x, P x = true ↔ ExcludedBy (filterRules c.eq c.compile d key) x) ∧
      (∃ w, ProcessListFilters c fuel (.list (l.filter fun x => !P x)) = .ok w ∧
        r.get? key = some w) ∧
      (l.filter P = [] → r.get? (key ++ c!"_excluded") = none) ∧
      (l.filter P ≠ [] → ∃ w, ProcessListFilters c fuel (.list (l.filter P)) = .ok w ∧
        r.get? (key ++ c!"_excluded") = some w) := by
  obtain ⟨d1, r, h1, rfl, h2⟩ := process_dict h
  have heff := (filterLevel_ok c hdd h1).1 key hnf (by rw [← Dict.get?_isSome, hk]; rfl) hfil
  obtain ⟨l', P, p1, p2, p3, p4⟩ := heff.parts
  rw [hk] at p1
  cases p1
  have g1 := forall₂_get? h2 key
  have g2 := forall₂_get? h2 (key ++ c!"_excluded")
  rw [p3] at g1
  rw [p4] at g2
  refine ⟨r, P, rfl, p2, g1, ?_, ?_⟩
  · intro he
    rw [if_pos he] at g2
    exact g2
  · intro he
    rw [if_neg he] at g2
    exact g2

/-- C24: whatever is not a filter, not filtered and not a list of excluded items stays
(up to the processing of filters inside it). -/
theorem C24_others (c : FilterCtx) (fuel : Nat) (d : Dict) (v : Val) (hdd : NoDoubleFilter d)
    (h : ProcessListFilters c (fuel + 1) (.dict d) = .ok v) (k : Str) (hnf : ¬ IsFilterKey k)
    (hno : ∀ key, k = key ∨ k = key ++ c!"_excluded" → key ∈ d.keys →
        key ++ c!"!" ∉ d.keys ∧ key ++ c!"/" ∉ d.keys) :
    ∃ r : Dict, v = .dict r ∧
      (d.get? k = none → r.get? k = none) ∧
      (∀ x, d.get? k = some x → ∃ w, ProcessListFilters c fuel x = .ok w ∧ r.get? k = some w) := by
  obtain ⟨d1, r, h1, rfl, h2⟩ := process_dict h
  have he := (filterLevel_ok c hdd h1).2 k hnf hno
  have g := forall₂_get? h2 k
  rw [he] at g
  refine ⟨r, rfl, ?_, ?_⟩
  · intro hn; rw [hn] at g; exact g
  · intro x hx; rw [hx] at g; exact g

/-- C24: the items that are strings (or numbers) come out as they went in. -/
theorem C24_scalars (c : FilterCtx) (fuel : Nat) (l : List Val)
    (hl : ∀ x ∈ l, x.isScalar = true) :
    ProcessListFilters c (fuel + 2) (.list l) = .ok (.list l) := by
  unfold ProcessListFilters
  rw [mapM_of_forall₂ (r := l)]
  rw [List.forall₂_same]
  intro x hx
  have := hl x hx
  cases x with
  | str s => rfl
  | int i => rfl
  | _ => cases this

/-- C24: no filter survives, at any depth. -/
theorem C24_clean (c : FilterCtx) (fuel : Nat) :
    ∀ (v w : Val), ProcessListFilters c fuel v = .ok w → ¬ HasFilterKey w := by
  induction fuel with
  | zero => intro v w h; unfold ProcessListFilters at h; cases h
  | succ fuel ih =>
    intro v w h hf
    cases v with
    | dict d =>
      obtain ⟨d1, r, h1, rfl, h2⟩ := process_dict h
      have hcl := filterLevel_clean c h1
      have hmem : ∀ e ∈ r, ∃ e' ∈ d1, e.1 = e'.1 ∧ ProcessListFilters c fuel e'.2 = .ok e.2 := by
        intro e he
        obtain ⟨i, hi, rfl⟩ := List.getElem_of_mem he
        have hi' : i < d1.length := by rw [h2.length_eq]; exact hi
        exact ⟨d1[i], List.getElem_mem _, h2.get hi' hi⟩
      cases hf with
      | here hm hk =>
        obtain ⟨e', he', e1, e2⟩ := hmem _ hm
        simp only at e1
        subst e1
        exact hcl _ (List.mem_map.mpr ⟨e', he', rfl⟩) hk
      | dict hm hv =>
        obtain ⟨e', he', e1, e2⟩ := hmem _ hm
        exact ih _ _ e2 hv
    | list l =>
      unfold ProcessListFilters at h
      cases h1 : l.mapM (ProcessListFilters c fuel) with
      | error e => rw [h1] at h; cases h
      | ok r =>
        rw [h1] at h
        cases h
        have h2 := mapM_ok h1
        cases hf with
        | list hm hv =>
          obtain ⟨i, hi, rfl⟩ := List.getElem_of_mem hm
          have hi' : i < l.length := by rw [h2.length_eq]; exact hi
          exact ih _ _ (h2.get hi' hi) hv
    | str s => cases h; cases hf
    | int i => cases h; cases hf
    | other => cases h; cases hf

mutual
/-- How deeply a value is nested. -/
def Val.size : Val → Nat
  | .list l => Val.sizeList l + 1
  | .dict d => Val.sizeDict d + 1
  | _ => 1
/-- The deepest nesting in a list. -/
def Val.sizeList : List Val → Nat
  | [] => 0
  | v :: l => Nat.max (Val.size v) (Val.sizeList l)
/-- The deepest nesting in a dictionary. -/
def Val.sizeDict : List (Str × Val) → Nat
  | [] => 0
  | (_, v) :: d => Nat.max (Val.size v) (Val.sizeDict d)
end

theorem size_le_list {v : Val} : ∀ {l : List Val}, v ∈ l → v.size ≤ Val.sizeList l
  | x :: l, h => by
    unfold Val.sizeList
    rcases List.mem_cons.mp h with rfl | h
    · exact Nat.le_max_left _ _
    · exact Nat.le_trans (size_le_list h) (Nat.le_max_right _ _)

theorem size_le_dict {e : Str × Val} : ∀ {d : List (Str × Val)}, e ∈ d →
    e.2.size ≤ Val.sizeDict d
  | (k, v) :: d, h => by
    unfold Val.sizeDict
    rcases List.mem_cons.mp h with rfl | h
    · exact Nat.le_max_left _ _
    · exact Nat.le_trans (size_le_dict h) (Nat.le_max_right _ _)

theorem sizeList_le {n : Nat} : ∀ {l : List Val}, (∀ v ∈ l, v.size ≤ n) → Val.sizeList l ≤ n
  | [], _ => Nat.zero_le _
  | v :: l, h => by
    unfold Val.sizeList
    exact Nat.max_le.mpr ⟨h v (by simp), sizeList_le fun x hx => h x (by simp [hx])⟩

theorem filterOne_size {c : FilterCtx} {d d' : Dict} {key : Str} {n : Nat}
    (h : filterOne c d key = .ok d') (hd : ∀ e ∈ d, e.2.size ≤ n) : ∀ e ∈ d', e.2.size ≤ n := by
  have hset : ∀ (d : Dict) (k : Str) (v : Val), v.size ≤ n → (∀ e ∈ d, e.2.size ≤ n) →
      ∀ e ∈ d.set k v, e.2.size ≤ n := by
    intro d k v hv
    induction d with
    | nil => intro _ e he; simp [Dict.set] at he; rw [he]; exact hv
    | cons x d ih =>
      intro hd e he
      obtain ⟨k', v'⟩ := x
      unfold Dict.set at he
      split at he
      · rcases List.mem_cons.mp he with rfl | he
        · exact hv
        · exact hd e (by simp [he])
      · rcases List.mem_cons.mp he with rfl | he
        · exact hd _ (by simp)
        · exact ih (fun e he => hd e (by simp [he])) e he
  have hdel : ∀ (d : Dict) (k : Str), (∀ e ∈ d, e.2.size ≤ n) → ∀ e ∈ d.del k, e.2.size ≤ n :=
    fun d k hd e he => hd e (List.mem_filter.mp he).1
  unfold filterOne at h
  cases hg : d.get? key with
  | none => rw [hg] at h; cases h
  | some v =>
  rw [hg] at h
  have hv := hd _ (Dict.get?_some_mem hg)
  cases v with
  | list l =>
    simp only at h
    cases h1 : applyExclude c key l d (List.replicate l.length none) with
    | error e => rw [h1] at h; cases h
    | ok r1 =>
      obtain ⟨d1, acts1⟩ := r1
      rw [h1] at h
      simp only at h
      obtain ⟨e1, a1⟩ := applyExclude_ok h1
      cases h2 : applyRegex c key l d1 acts1 with
      | error e => rw [h2] at h; cases h
      | ok r2 =>
        obtain ⟨d2, acts2⟩ := r2
        rw [h2] at h
        simp only at h
        rw [a1] at h2
        obtain ⟨e2, a2⟩ := applyRegex_ok h2
        have hd2 : ∀ e ∈ d2, e.2.size ≤ n := by
          rw [e2, e1]
          exact hdel _ _ (hdel _ _ hd)
        split at h
        · cases h
        · rw [a2] at h
          have hsplit := splitLoop_eq (fun x =>
            verdict ((listAt d1 (key ++ c!"/")).filterMap (patternRule c.compile))
              (verdict (exclusionRules c.eq (listAt d (key ++ c!"!"))) none x) x) l [] [] []
          simp only [List.append_nil] at hsplit
          rw [List.length_map, hsplit] at h
          simp only [Except.ok.injEq] at h
          have hf : ∀ p : Val → Bool, (Val.list (l.filter p)).size ≤ n := by
            intro p
            simp only [Val.size] at hv ⊢
            refine Nat.le_trans (Nat.succ_le_succ (sizeList_le fun x hx => ?_)) hv
            exact size_le_list (List.mem_filter.mp hx).1
          rw [← h]
          split
          · exact hset _ _ _ (hf _) (hset d2 key _ (hf _) hd2)
          · exact hset d2 key _ (hf _) hd2
  | _ => cases h

theorem filterOne_fuel {c : FilterCtx} {d : Dict} {key : Str} : filterOne c d key ≠ .error .fuel := by
  have hloop : ∀ (search : Str → Bool) (value : Bool) (l : List Val) (acts : List Action),
      regexLoop search value l acts ≠ .error .fuel := by
    intro search value l
    induction l with
    | nil => intro acts h; cases acts <;> cases h
    | cons x l ih =>
      intro acts h
      cases acts with
      | nil => cases h
      | cons a acts =>
        unfold regexLoop at h
        cases h1 : regexStep search value x a with
        | error e =>
          rw [h1] at h
          simp only [Except.error.injEq] at h
          subst h
          unfold regexStep at h1
          split at h1
          · cases h1
          · cases x <;> cases h1
        | ok a' =>
          rw [h1] at h
          simp only at h
          cases h2 : regexLoop search value l acts with
          | error e => rw [h2] at h; simp only [Except.error.injEq] at h; exact ih acts (h ▸ h2)
          | ok r => rw [h2] at h; cases h
  have hitem : ∀ (l : List Val) (acts : List Action) (item : Val),
      regexItem c l acts item ≠ .error .fuel := by
    intro l acts item h
    unfold regexItem at h
    split at h
    · cases h
    · split at h
      · split at h
        · cases h
        · split at h
          · cases h
          · exact hloop _ _ _ _ h
      · cases h
  have hfold : ∀ (rx l : List Val) (acts : List Action),
      rx.foldlM (regexItem c l) acts ≠ .error .fuel := by
    intro rx l
    induction rx with
    | nil => intro acts h; cases h
    | cons x rx ih =>
      intro acts h
      rw [List.foldlM_cons] at h
      cases h1 : regexItem c l acts x with
      | error e =>
        rw [h1] at h
        have : e = .fuel := by simpa [bind, Except.bind] using h
        exact hitem l acts x (this ▸ h1)
      | ok a => rw [h1] at h; exact ih a h
  intro h
  unfold filterOne at h
  split at h
  · rename_i l _
    cases h1 : applyExclude c key l d (List.replicate l.length none) with
    | error e =>
      rw [h1] at h
      simp only [Except.error.injEq] at h
      subst h
      unfold applyExclude at h1
      simp only at h1
      split at h1 <;> cases h1
    | ok r1 =>
      rw [h1] at h
      simp only at h
      cases h2 : applyRegex c key l r1.1 r1.2 with
      | error e =>
        rw [h2] at h
        simp only [Except.error.injEq] at h
        subst h
        unfold applyRegex at h2
        simp only at h2
        split at h2
        · cases h2
        · split at h2
          · rename_i e he
            simp only [Except.error.injEq] at h2
            exact hfold _ _ _ (h2 ▸ he)
          · cases h2
        · cases h2
      | ok r2 =>
        rw [h2] at h
        simp only at h
        split at h <;> cases h
  · cases h
  · cases h

theorem filterLevel_size {c : FilterCtx} {d d' : Dict} {n : Nat}
    (h : filterLevel c d = .ok d') (hd : ∀ e ∈ d, e.2.size ≤ n) : ∀ e ∈ d', e.2.size ≤ n := by
  unfold filterLevel at h
  cases hc : d.foldlM (collectStep d) ([], []) with
  | error e => rw [hc] at h; cases h
  | ok s =>
    rw [hc] at h
    simp only at h
    have h0 : ∀ (dels : List Str) (d : Dict), (∀ e ∈ d, e.2.size ≤ n) →
        ∀ e ∈ dels.foldl Dict.del d, e.2.size ≤ n := by
      intro dels
      induction dels with
      | nil => intro d hd; exact hd
      | cons x dels ih =>
        intro d hd
        exact ih _ fun e he => hd e (List.mem_filter.mp he).1
    have h1 : ∀ (lists : List Str) (d : Dict), (∀ e ∈ d, e.2.size ≤ n) →
        lists.foldlM (filterOne c) d = .ok d' → ∀ e ∈ d', e.2.size ≤ n := by
      intro lists
      induction lists with
      | nil => intro d hd h; cases h; exact hd
      | cons x lists ih =>
        intro d hd h
        rw [List.foldlM_cons] at h
        cases hx : filterOne c d x with
        | error e => rw [hx] at h; cases h
        | ok d1 => rw [hx] at h; exact ih d1 (filterOne_size hx hd) h
    exact h1 _ _ (h0 _ _ hd) h

theorem filterLevel_fuel {c : FilterCtx} {d : Dict} : filterLevel c d ≠ .error .fuel := by
  intro h
  unfold filterLevel at h
  cases hc : d.foldlM (collectStep d) ([], []) with
  | error e =>
    rw [hc] at h
    simp only [Except.error.injEq] at h
    subst h
    have : ∀ (l : Dict) (s : List Str × List Str),
        l.foldlM (collectStep d) s ≠ .error .fuel := by
      intro l
      induction l with
      | nil => intro s h; cases h
      | cons x l ih =>
        intro s h
        rw [List.foldlM_cons] at h
        cases hx : collectStep d s x with
        | error e =>
          rw [hx] at h
          have : e = .fuel := by simpa [bind, Except.bind] using h
          subst this
          unfold collectStep at hx
          split at hx
          · cases hx
          · split at hx
            · split at hx
              · split at hx <;> cases hx
              · cases hx
            · cases hx
        | ok s1 => rw [hx] at h; exact ih s1 h
    exact this _ _ hc
  | ok s =>
    rw [hc] at h
    simp only at h
    have : ∀ (lists : List Str) (d : Dict), lists.foldlM (filterOne c) d ≠ .error .fuel := by
      intro lists
      induction lists with
      | nil => intro d h; cases h
      | cons x lists ih =>
        intro d h
        rw [List.foldlM_cons] at h
        cases hx : filterOne c d x with
        | error e =>
          rw [hx] at h
          have : e = .fuel := by simpa [bind, Except.bind] using h
          subst this
          exact filterOne_fuel hx
        | ok d1 => rw [hx] at h; exact ih d1 h
    exact this _ _ h

theorem mapM_fuel {α β : Type} {f : α → Except FilterErr β} :
    ∀ {l : List α}, (∀ a ∈ l, f a ≠ .error .fuel) → l.mapM f ≠ .error .fuel
  | [], _, h => by cases h
  | a :: l, hf, h => by
    rw [List.mapM_cons] at h
    cases h1 : f a with
    | error e =>
      rw [h1] at h
      have : e = .fuel := by simpa [bind, Except.bind] using h
      exact hf a (by simp) (this ▸ h1)
    | ok b =>
      rw [h1] at h
      cases h2 : l.mapM f with
      | error e =>
        simp only [bind, Except.bind, h2] at h
        have : e = .fuel := by simpa using h
        exact mapM_fuel (fun a ha => hf a (by simp [ha])) (this ▸ h2)
      | ok bs =>
        simp only [bind, Except.bind, h2, pure, Except.pure] at h
        cases h

/-- C24: a recursion depth above the nesting of the value is enough. -/
theorem C24_terminates (c : FilterCtx) (fuel : Nat) :
    ∀ v : Val, v.size < fuel → ProcessListFilters c fuel v ≠ .error .fuel := by
  induction fuel with
  | zero => intro v h; exact absurd h (Nat.not_lt_zero _)
  | succ fuel ih =>
    intro v hv h
    cases v with
    | dict d =>
      unfold ProcessListFilters at h
      simp only [Val.size] at hv
      cases h1 : filterLevel c d with
      | error e =>
        rw [h1] at h
        simp only [Except.error.injEq] at h
        exact filterLevel_fuel (h ▸ h1)
      | ok d1 =>
        rw [h1] at h
        simp only at h
        have hs := filterLevel_size h1 (n := Val.sizeDict d) fun e he => size_le_dict he
        cases h2 : d1.mapM (fun e => withKey e.1 (ProcessListFilters c fuel e.2)) with
        | error e =>
          rw [h2] at h
          simp only [Except.error.injEq] at h
          refine mapM_fuel ?_ (h ▸ h2)
          intro e he hw
          cases hp : ProcessListFilters c fuel e.2 with
          | error x =>
            rw [hp] at hw
            have : x = .fuel := by simpa [withKey] using hw
            have := hs e he
            exact ih e.2 (by omega) (by rw [hp]; simpa [withKey] using hw)
          | ok w => rw [hp] at hw; cases hw
        | ok r => rw [h2] at h; cases h
    | list l =>
      unfold ProcessListFilters at h
      simp only [Val.size] at hv
      cases h1 : l.mapM (ProcessListFilters c fuel) with
      | error e =>
        rw [h1] at h
        simp only [Except.error.injEq] at h
        refine mapM_fuel ?_ (h ▸ h1)
        intro x hx
        have := size_le_list hx
        exact ih x (by omega)
      | ok r => rw [h1] at h; cases h
    | str s => cases h
    | int i => cases h
    | other => cases h

/-! ### Examples -/

/-- Patterns that are searched for as they are, without special characters. -/
def plainFilters : FilterCtx where
  eq := Val.scalarEq
  compile p := some fun s => (List.range (s.length + 1)).any fun i => startsWith (s.drop i) p

/-- The example of the documentation: exclude all platforms, then include one again. -/
def filterSample : Dict :=
  [(c!"sources", .list [.str c!"a.c", .str c!"b_mac.c", .str c!"b_win.c", .str c!"z.c"]),
   (c!"sources!", .list [.str c!"z.c"]),
   (c!"sources/", .list [.list [.str c!"exclude", .str c!"_"], .list [.str c!"include", .str c!"_mac"]]),
   (c!"cflags!", .list [.str c!"-O"])]

example : ∃ r, ProcessListFilters plainFilters 4 (.dict filterSample) = .ok (.dict r) ∧
    Dict.get? r c!"sources" = some (.list [.str c!"a.c", .str c!"b_mac.c"]) ∧
    Dict.get? r c!"sources_excluded" = some (.list [.str c!"b_win.c", .str c!"z.c"]) ∧
    Dict.keys r = [c!"sources", c!"sources_excluded"] := ⟨_, rfl, rfl, rfl, rfl⟩

example : NoDoubleFilter filterSample := by
  have h : ∀ k ∈ filterSample.keys, k.dropLast.getLast? ≠ some '!' ∧
      k.dropLast.getLast? ≠ some '/' := by decide
  intro k hk _ h2
  obtain ⟨b, e | e⟩ := h2
  · exact (h k hk).1 (by rw [e]; simp)
  · exact (h k hk).2 (by rw [e]; simp)

end Gyp
