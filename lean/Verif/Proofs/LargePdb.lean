import Verif.Spec.LargePdb
/-
Facts for C122.
-/
namespace Gyp
open Spec

/-! ### Names -/

theorem suffixName_word (t w : Str) : WithWord w t (suffixName t w) := by
  unfold suffixName
  cases h : rsplit1 '#' t with
  | none => exact .inl ⟨rsplit1_none_iff.mp h, by simp⟩
  | some p =>
    obtain ⟨h1, h2⟩ := rsplit1_some h
    exact .inr ⟨p.1, p.2, h1, h2, by simp [joinWith]⟩

theorem word_suffixName {t w n : Str} (h : WithWord w t n) : n = suffixName t w := by
  unfold suffixName
  rcases h with ⟨h1, h2⟩ | ⟨a, b, h1, h2, h3⟩
  · rw [rsplit1_none_iff.mpr h1, h2]
    simp
  · subst h1
    rw [rsplit1_append h2, h3]
    simp [joinWith]

theorem suffixName_inj {t t' w w' : Str} (hw : '#' ∉ w) (hw' : '#' ∉ w') (hl : w.length = w'.length)
    (h : suffixName t w = suffixName t' w') : t = t' ∧ w = w' := by
  have key : ∀ {a a' : Str}, a ++ '_' :: w = a' ++ '_' :: w' → a = a' ∧ w = w' := by
    intro a a' e
    have := List.append_inj' e (by simp [hl])
    exact ⟨this.1, by simpa using this.2⟩
  rcases suffixName_word t w with ⟨h1, h2⟩ | ⟨a, b, h1, h2, h3⟩ <;>
    rcases suffixName_word t' w' with ⟨h1', h2'⟩ | ⟨a', b', h1', h2', h3'⟩
  · rw [h2, h2'] at h
    exact key h
  · rw [h2, h3'] at h
    have : '#' ∈ t ++ '_' :: w := by rw [h]; simp
    simp [h1, hw] at this
  · rw [h3, h2'] at h
    have : '#' ∈ t' ++ '_' :: w' := by rw [← h]; simp
    simp [h1', hw'] at this
  · rw [h3, h3'] at h
    have e := congrArg (rsplit1 '#') h
    rw [rsplit1_append h2, rsplit1_append h2'] at e
    simp only [Option.some.injEq, Prod.mk.injEq] at e
    obtain ⟨e1, e2⟩ := key e.1
    exact ⟨by rw [h1, h1', e1, e.2], e2⟩

theorem copyName_inj {t t' : Str} (h : suffixName t copySuffix = suffixName t' copySuffix) : t = t' :=
  (suffixName_inj (by decide) (by decide) rfl h).1

theorem shimName_inj {t t' : Str} (h : suffixName t shimSuffix = suffixName t' shimSuffix) : t = t' :=
  (suffixName_inj (by decide) (by decide) rfl h).1

theorem copy_ne_shim (t t' : Str) : suffixName t copySuffix ≠ suffixName t' shimSuffix := fun h =>
  absurd (suffixName_inj (w := copySuffix) (w' := shimSuffix) (by decide) (by decide) rfl h).2 (by decide)

/-! ### Paths -/

theorem targetTypeExt_iff {t e : Str} : aget targetTypeExt t = some e ↔ ProductExt t e := by
  constructor
  · intro h
    have := aget_some_mem h
    simp only [targetTypeExt, List.mem_cons, Prod.mk.injEq, List.not_mem_nil, or_false] at this
    rcases this with ⟨rfl, rfl⟩ | ⟨rfl, rfl⟩ | ⟨rfl, rfl⟩ | ⟨rfl, rfl⟩ | ⟨rfl, rfl⟩ <;> constructor
  · rintro (_ | _) <;> rfl

theorem pdbNotGiven_iff {o : Option Str} : PdbNotGiven o ↔ o.getD [] = [] := by
  unfold PdbNotGiven
  cases o <;> simp

theorem given_iff {o : Option Str} {p : Str} (hp : p ≠ []) : o = some p ↔ o.getD [] = p := by
  cases o with
  | none => simp [Ne.symm hp]
  | some x => simp

theorem getPdbPath_iff {v : PdbVars} {d : PdbTarget} {c : PdbConfig} {p : Str} :
    getPdbPath v d c = some p ↔ PdbOf v d c p := by
  unfold getPdbPath
  constructor
  · intro h
    simp only at h
    split at h
    · rename_i hne
      cases h
      exact .linker ((given_iff hne).mpr rfl) hne
    · rename_i h1
      simp only [ne_eq, not_not] at h1
      split at h
      · rename_i hne
        cases h
        exact .variable (pdbNotGiven_iff.mpr h1) ((given_iff hne).mpr rfl) hne
      · rename_i h2
        simp only [ne_eq, not_not] at h2
        rw [Option.map_eq_some_iff] at h
        obtain ⟨e, he, h⟩ := h
        have hb : d.productName = some (d.productName.getD d.name) ∨
            d.productName = none ∧ d.productName.getD d.name = d.name := by
          cases d.productName <;> simp
        have := PdbOf.product (v := v) (c := c) (pdbNotGiven_iff.mpr h1) (pdbNotGiven_iff.mpr h2) hb
          (targetTypeExt_iff.mp he)
        rw [← h]
        simpa using this
  · intro h
    cases h with
    | linker h hp =>
      have := (given_iff hp).mp h
      simp [this, hp]
    | «variable» h1 h2 hp =>
      have := (given_iff hp).mp h2
      simp [pdbNotGiven_iff.mp h1, this, hp]
    | product h1 h2 h3 h4 =>
      rename_i base ext
      have hb : d.productName.getD d.name = base := by
        rcases h3 with h | ⟨h, rfl⟩ <;> simp [h]
      simp [pdbNotGiven_iff.mp h1, pdbNotGiven_iff.mp h2, targetTypeExt_iff.mpr h4, hb]

theorem pdbMapM_forall₂ {α β : Type} {f : α → Option β} : ∀ {l : List α} {r : List β},
    l.mapM f = some r → List.Forall₂ (fun a b => f a = some b) l r
  | [], r, h => by
    simp only [List.mapM_nil, Option.pure_def, Option.some.injEq] at h
    subst h
    exact .nil
  | a :: l, r, h => by
    rw [List.mapM_cons] at h
    simp only [Option.bind_eq_bind, Option.bind_eq_some_iff, Option.pure_def, Option.some.injEq] at h
    obtain ⟨b, hb, bs, hbs, rfl⟩ := h
    exact .cons hb (pdbMapM_forall₂ hbs)

theorem mapM_isSome {α β : Type} {f : α → Option β} : ∀ {l : List α},
    (∀ a ∈ l, ∃ b, f a = some b) → ∃ r, l.mapM f = some r
  | [], _ => ⟨[], rfl⟩
  | a :: l, h => by
    obtain ⟨b, hb⟩ := h a (by simp)
    obtain ⟨r, hr⟩ := mapM_isSome (l := l) fun x hx => h x (by simp [hx])
    exact ⟨b :: r, by simp [List.mapM_cons, hb, hr]⟩

/-! ### The loop -/

/-- The names of the loop are no names that it adds. -/
def LoopFree (ts : List Str) : Prop :=
  ts.Nodup ∧ ∀ t ∈ ts, ∀ t' ∈ ts, t' ≠ suffixName t copySuffix ∧ t' ≠ suffixName t shimSuffix

theorem LoopFree.tail {t : Str} {ts : List Str} (h : LoopFree (t :: ts)) : LoopFree ts :=
  ⟨(List.nodup_cons.mp h.1).2, fun a ha b hb => h.2 a (by simp [ha]) b (by simp [hb])⟩

theorem insertShim_some {v : PdbVars} {st st' : List Str × List (Str × PdbTarget)} {t : Str}
    (h : insertShim v st t = some st') :
    ∃ d paths, aget st.2 t = some d ∧ pdbPaths v d = some paths ∧
      st'.1 = suffixName t shimSuffix :: suffixName t copySuffix :: st.1 ∧
      ∀ k, aget st'.2 k = if k = suffixName t shimSuffix then some (pdbShimDict v t d paths)
        else if k = suffixName t copySuffix then some (pdbCopyDict v d)
        else if k = t then some (pdbOwnDict t d paths) else aget st.2 k := by
  unfold insertShim at h
  split at h
  · cases h
  · rename_i d hd
    split at h
    · cases h
    · rename_i paths hp
      simp only [Option.some.injEq] at h
      subst h
      exact ⟨d, paths, hd, hp, rfl, fun k => by simp only [aget_aset]⟩

theorem loop_some {v : PdbVars} : ∀ (ts : List Str) (st st' : List Str × List (Str × PdbTarget)), LoopFree ts →
    ts.foldlM (insertShim v) st = some st' →
    st'.1 = (ts.reverse.flatMap fun t => [suffixName t shimSuffix, suffixName t copySuffix]) ++ st.1 ∧
    (∀ t ∈ ts, ∃ d paths, aget st.2 t = some d ∧ pdbPaths v d = some paths ∧
      aget st'.2 t = some (pdbOwnDict t d paths) ∧
      aget st'.2 (suffixName t copySuffix) = some (pdbCopyDict v d) ∧
      aget st'.2 (suffixName t shimSuffix) = some (pdbShimDict v t d paths)) ∧
    ∀ k, k ∉ ts → (∀ t ∈ ts, k ≠ suffixName t copySuffix ∧ k ≠ suffixName t shimSuffix) →
      aget st'.2 k = aget st.2 k
  | [], st, st', _, h => by
    simp only [List.foldlM_nil, Option.pure_def, Option.some.injEq] at h
    subst h
    simp
  | t :: ts, st, st', hl, h => by
    rw [List.foldlM_cons] at h
    simp only [Option.bind_eq_bind, Option.bind_eq_some_iff] at h
    obtain ⟨st1, h1, h2⟩ := h
    obtain ⟨d, paths, e1, e2, e3, e4⟩ := insertShim_some h1
    obtain ⟨i1, i2, i3⟩ := loop_some ts st1 st' hl.tail h2
    have htn : t ∉ ts := (List.nodup_cons.mp hl.1).1
    refine ⟨?_, ?_, ?_⟩
    · rw [i1, e3]
      simp
    · intro t' ht'
      rcases List.mem_cons.mp ht' with rfl | ht'
      · refine ⟨d, paths, e1, e2, ?_, ?_, ?_⟩
        · rw [i3 t' htn fun a ha => hl.2 a (by simp [ha]) t' (by simp), e4,
            if_neg (hl.2 t' (by simp) t' (by simp)).2, if_neg (hl.2 t' (by simp) t' (by simp)).1, if_pos rfl]
        · rw [i3, e4, if_neg (copy_ne_shim _ _), if_pos rfl]
          · exact fun hm => (hl.2 t' (by simp) _ (List.mem_cons_of_mem _ hm)).1 rfl
          · exact fun a ha => ⟨fun e => htn (copyName_inj e ▸ ha), copy_ne_shim _ _⟩
        · rw [i3, e4, if_pos rfl]
          · exact fun hm => (hl.2 t' (by simp) _ (List.mem_cons_of_mem _ hm)).2 rfl
          · exact fun a ha => ⟨(copy_ne_shim _ _).symm, fun e => htn (shimName_inj e ▸ ha)⟩
      · obtain ⟨d', paths', f1, f2, f3⟩ := i2 t' ht'
        refine ⟨d', paths', ?_, f2, f3⟩
        have hne := hl.2 t (by simp) t' (by simp [ht'])
        rw [← f1, e4, if_neg hne.2, if_neg hne.1, if_neg (fun e : t' = t => htn (e ▸ ht'))]
    · intro k hk hn
      simp only [List.mem_cons, not_or] at hk
      rw [i3 k hk.2 fun a ha => hn a (by simp [ha]), e4, if_neg (hn t (by simp)).2, if_neg (hn t (by simp)).1,
        if_neg hk.1]

theorem loop_isSome {v : PdbVars} : ∀ (ts : List Str) (st : List Str × List (Str × PdbTarget)), LoopFree ts →
    (∀ t ∈ ts, ∃ d paths, aget st.2 t = some d ∧ pdbPaths v d = some paths) →
    ∃ st', ts.foldlM (insertShim v) st = some st'
  | [], st, _, _ => ⟨st, rfl⟩
  | t :: ts, st, hl, h => by
    obtain ⟨d, paths, hd, hp⟩ := h t (by simp)
    have h1 : ∃ st1, insertShim v st t = some st1 := by
      unfold insertShim
      rw [hd]
      simp only [hp]
      exact ⟨_, rfl⟩
    obtain ⟨st1, h1⟩ := h1
    obtain ⟨_, _, -, -, -, e4⟩ := insertShim_some h1
    obtain ⟨st', h2⟩ := loop_isSome ts st1 hl.tail fun t' ht' => by
      obtain ⟨d', paths', f1, f2⟩ := h t' (by simp [ht'])
      refine ⟨d', paths', ?_, f2⟩
      have hne := hl.2 t (by simp) t' (by simp [ht'])
      rw [← f1, e4, if_neg hne.2, if_neg hne.1, if_neg (fun e : t' = t => (List.nodup_cons.mp hl.1).1 (e ▸ ht'))]
    exact ⟨st', by rw [List.foldlM_cons, h1]; exact h2⟩

theorem mem_targetsToShim {dicts : List (Str × PdbTarget)} {t : Str} :
    t ∈ targetsToShim dicts ↔ ∃ d, (t, d) ∈ dicts ∧ d.large = true := by
  simp [targetsToShim]

theorem clash_loopFree {dicts : List (Str × PdbTarget)} (h : NoPdbClash dicts) : LoopFree (targetsToShim dicts) := by
  refine ⟨List.Nodup.sublist (List.filter_sublist.map _) h.1, ?_⟩
  intro t ht t' ht'
  obtain ⟨d, hd, hl⟩ := mem_targetsToShim.mp ht
  obtain ⟨d', hd', -⟩ := mem_targetsToShim.mp ht'
  have := h.2 t d hd hl t' (List.mem_map.mpr ⟨_, hd', rfl⟩)
  exact ⟨fun e => this.1 (e ▸ suffixName_word _ _), fun e => this.2 (e ▸ suffixName_word _ _)⟩

theorem zip_configs {v : PdbVars} {d : PdbTarget} {f : PdbConfig → Str → PdbConfig} :
    ∀ {l : List (Str × PdbConfig)} {r : List Str},
      List.Forall₂ (fun a b => getPdbPath v d a.2 = some b) l r →
      List.Forall₂ (fun c c' => c'.1 = c.1 ∧ ∃ p, PdbOf v d c.2 p ∧ c'.2 = f c.2 p) l
        ((l.zip r).map fun x => (x.1.1, f x.1.2 x.2))
  | [], _, .nil => .nil
  | _ :: _, _, .cons h t => .cons ⟨rfl, _, getPdbPath_iff.mp h, rfl⟩ (zip_configs t)

end Gyp
