import Verif.Proofs.MsvsSettings
/-
The conversion, setting by setting.
-/
namespace Gyp
open Spec

theorem msGet_touch (s : MsSettings) (t T N : Str) : msGet (msTouch s t) T N = msGet s T N := by
  unfold msTouch
  cases h : aget s t with
  | some _ => rfl
  | none =>
    simp only [msGet, aget_aset]
    by_cases hT : T = t
    · subst hT; simp [h, aget]
    · simp [hT]

theorem msGet_put (s : MsSettings) (t n : Str) (v : MsVal) (T N : Str) :
    msGet (msPut s t n v) T N = if (T, N) = (t, n) then some v else msGet s T N := by
  unfold msPut
  rw [← msGet_touch s t T N]
  simp only [msGet, aget_aset, Prod.mk.injEq]
  by_cases hT : T = t
  · subst hT
    simp only [if_true, Option.bind_some, aget_aset, true_and]
    by_cases hN : N = n
    · simp [hN]
    · simp only [hN, if_false]
      cases aget (msTouch s T) T <;> simp [aget]
  · simp [hT]

theorem becomes_unique {d : MsDecl} {v : MsVal} {T N : Str} {w w' : MsVal}
    (h : Becomes d v T N w) (h' : Becomes d v T N w') : w = w' := by
  cases h with
  | same h1 => cases h' with | same h2 => rw [← convert_ok] at h1 h2; rw [h1] at h2; exact Except.ok.inj h2
  | renamed h1 => cases h' with | renamed h2 => rw [← convert_ok] at h1 h2; rw [h1] at h2; exact Except.ok.inj h2
  | moved h1 => cases h' with | moved h2 => rw [← convert_ok] at h1 h2; rw [h1] at h2; exact Except.ok.inj h2
  | movedAndRenamed h1 =>
    cases h' with
    | movedAndRenamed h2 => rw [← convert_ok] at h1 h2; rw [h1] at h2; exact Except.ok.inj h2
  | msbuildOnly => cases h'; rfl
  | toOption => cases h'; rfl
  | toFile _ => cases h'; rfl
  | lineNumbers _ => cases h'; rfl

theorem typed_unchanged {tool name : Str} {ty : MsType} {v : MsVal} {s : MsSettings} {T N : Str}
    (h : (T, N) = (tool, name) → ¬ ∃ w, Converted ty v w) :
    msGet (translateTyped tool name ty v s).1 T N = msGet s T N := by
  unfold translateTyped
  cases hc : ty.convert v with
  | error e => exact msGet_touch ..
  | ok w =>
    simp only
    rw [msGet_put, if_neg]
    intro he
    exact h he ⟨w, (convert_ok _ _ _).mp hc⟩

theorem typed_set {tool name : Str} {ty : MsType} {v w : MsVal} {s : MsSettings}
    (h : Converted ty v w) : msGet (translateTyped tool name ty v s).1 tool name = some w := by
  unfold translateTyped
  rw [(convert_ok _ _ _).mpr h]
  simp only
  rw [msGet_put, if_pos rfl]

/-- What a setting does not become is left alone. -/
theorem translate_unchanged {repr : List Str → Str} {d : MsDecl} {v : MsVal} {s : MsSettings}
    {T N : Str} (h : ¬ ∃ w, Becomes d v T N w) :
    msGet (d.translate repr v s).1 T N = msGet s T N := by
  cases d with
  | same t n ty =>
    apply typed_unchanged
    rintro he ⟨w, hw⟩
    cases he; exact h ⟨w, .same hw⟩
  | renamed t n new ty =>
    apply typed_unchanged
    rintro he ⟨w, hw⟩
    cases he; exact h ⟨w, .renamed hw⟩
  | moved t n tool ty =>
    apply typed_unchanged
    rintro he ⟨w, hw⟩
    cases he; exact h ⟨w, .moved hw⟩
  | movedAndRenamed t n tool new ty =>
    apply typed_unchanged
    rintro he ⟨w, hw⟩
    cases he; exact h ⟨w, .movedAndRenamed hw⟩
  | msvsOnly t n ty => rfl
  | msbuildOnly t n ty =>
    simp only [MsDecl.translate]
    rw [msGet_put, if_neg]
    intro he; cases he; exact h ⟨v, .msbuildOnly⟩
  | toOption t n flag =>
    simp only [MsDecl.translate]
    by_cases hv : v = .str c!"true"
    · rw [if_pos hv]
      subst hv
      have hne : (T, N) ≠ (t.msbuild, c!"AdditionalOptions") := by
        intro he; cases he; exact h ⟨_, .toOption⟩
      cases msGet (msTouch s t.msbuild) t.msbuild c!"AdditionalOptions" with
      | some old => simp only; rw [msGet_put, if_neg hne, msGet_touch]
      | none => simp only; rw [msGet_put, if_neg hne, msGet_touch]
    · rw [if_neg hv]
  | preprocessed t n =>
    simp only [MsDecl.translate]
    by_cases h0 : v = .str c!"0"
    · subst h0
      rw [if_pos rfl]; simp only
      rw [msGet_put, if_neg (by intro he; cases he; exact h ⟨_, .lineNumbers (by simp)⟩),
        msGet_put, if_neg (by intro he; cases he; exact h ⟨_, .toFile (by simp)⟩)]
    · rw [if_neg h0]
      by_cases h1 : v = .str c!"1"
      · subst h1
        rw [if_pos rfl]; simp only
        rw [msGet_put, if_neg (by intro he; cases he; exact h ⟨_, .lineNumbers (by simp)⟩),
          msGet_put, if_neg (by intro he; cases he; exact h ⟨_, .toFile (by simp)⟩)]
      · rw [if_neg h1]
        by_cases h2 : v = .str c!"2"
        · subst h2
          rw [if_pos rfl]; simp only
          rw [msGet_put, if_neg (by intro he; cases he; exact h ⟨_, .lineNumbers (by simp)⟩),
            msGet_put, if_neg (by intro he; cases he; exact h ⟨_, .toFile (by simp)⟩)]
        · rw [if_neg h2]; exact msGet_touch ..

/-- What a setting becomes is set, if nothing was there. -/
theorem translate_set {repr : List Str → Str} {d : MsDecl} {v : MsVal} {s : MsSettings}
    {T N : Str} {w : MsVal} (h : Becomes d v T N w) (hn : msGet s T N = none) :
    msGet (d.translate repr v s).1 T N = some w := by
  cases h with
  | same h => exact typed_set h
  | renamed h => exact typed_set h
  | moved h => exact typed_set h
  | movedAndRenamed h => exact typed_set h
  | msbuildOnly => simp only [MsDecl.translate]; rw [msGet_put, if_pos rfl]
  | toOption =>
    simp only [MsDecl.translate]
    simp only [if_true, msGet_touch, hn]
    rw [msGet_put, if_pos rfl]
  | toFile h =>
    rcases h with rfl | rfl | rfl <;> simp [MsDecl.translate, msGet_put]
  | lineNumbers h =>
    rcases h with rfl | rfl | rfl <;> simp [MsDecl.translate, msGet_put]

theorem typed_error (tool name : Str) (ty : MsType) (v : MsVal) (s : MsSettings) (e : MsErr) :
    (translateTyped tool name ty v s).2 = some e ↔ ty.convert v = .error e := by
  unfold translateTyped
  cases ty.convert v <;> simp

theorem translate_crash (repr : List Str → Str) (d : MsDecl) (v : MsVal) (s : MsSettings) :
    (d.translate repr v s).2 = some .crash ↔ ∃ ty, convertedType d = some ty ∧ Unusable ty v := by
  cases d <;> simp only [MsDecl.translate, convertedType, typed_error, convert_crash]
  all_goals (try simp)
  · split
    · split <;> simp
    · simp
  · repeat' split
    all_goals simp

theorem translate_value (repr : List Str → Str) (d : MsDecl) (v : MsVal) (s : MsSettings) :
    (d.translate repr v s).2 = some .value ↔ Invalid d v := by
  cases d <;> simp only [MsDecl.translate, Invalid, convertedType, typed_error, convert_value]
  all_goals (try simp)
  · split
    · split <;> simp
    · simp
  · repeat' split
    all_goals simp_all

/-! ### All the settings -/

/-- One step: a setting of a known tool, or an unknown tool. -/
def msItems (tools : List MsTool) (l : MsSettings) : List (Str × Option (Str × MsVal)) :=
  l.flatMap fun te =>
    if te.1 ∈ tools.map MsTool.msvs then te.2.map fun e => (te.1, some e) else [(te.1, none)]

/-- What is done for a step. -/
def msStep (repr : List Str → Str) (decls : List MsDecl) (st : MsSettings × List MsWarn)
    (i : Str × Option (Str × MsVal)) : Except Unit (MsSettings × List MsWarn) :=
  match i.2 with
  | some e => convertSetting repr decls i.1 st e
  | none => .ok (st.1, st.2 ++ [.tool i.1])

theorem convert_items (repr : List Str → Str) (tools : List MsTool) (decls : List MsDecl)
    (l : MsSettings) :
    ConvertToMSBuildSettings repr tools decls l =
      (msItems tools l).foldlM (msStep repr decls) ([], []) := by
  unfold ConvertToMSBuildSettings
  generalize (([], []) : MsSettings × List MsWarn) = st
  induction l generalizing st with
  | nil => rfl
  | cons te l ih =>
    have hit : msItems tools (te :: l) = (if te.1 ∈ tools.map MsTool.msvs then
        te.2.map fun e => (te.1, some e) else [(te.1, none)]) ++ msItems tools l := by
      simp [msItems]
    rw [hit, List.foldlM_append, List.foldlM_cons]
    have hstep : (if te.1 ∈ tools.map MsTool.msvs then te.2.foldlM (convertSetting repr decls te.1) st
        else .ok (st.1, st.2 ++ [.tool te.1])) =
        (if te.1 ∈ tools.map MsTool.msvs then te.2.map (fun e => (te.1, some e))
          else [(te.1, none)]).foldlM (msStep repr decls) st := by
      split
      · rw [List.foldlM_map]; rfl
      · rfl
    rw [hstep]
    congr 1
    funext st'
    exact ih st'

/-- A setting of the list, as a step. -/
theorem mem_items {l : MsSettings} {t n : Str} {v : MsVal} :
    (t, some (n, v)) ∈ msItems msTools l ↔ (t, n, v) ∈ given l ∧ t ∈ msTools.map MsTool.msvs := by
  unfold msItems given
  simp only [List.mem_flatMap, List.mem_map]
  constructor
  · rintro ⟨te, hte, hm⟩
    by_cases hk : ∃ a ∈ msTools, a.msvs = te.1
    · rw [if_pos hk] at hm
      obtain ⟨e, he, h⟩ := List.mem_map.mp hm
      cases h
      exact ⟨⟨te, hte, (n, v), he, rfl⟩, hk⟩
    · rw [if_neg hk] at hm
      simp at hm
  · rintro ⟨⟨te, hte, e, he, h⟩, hk⟩
    cases h
    refine ⟨te, hte, ?_⟩
    rw [if_pos hk]
    exact List.mem_map.mpr ⟨e, he, rfl⟩

theorem mem_items_none {l : MsSettings} {t : Str} :
    (t, none) ∈ msItems msTools l ↔ t ∈ akeys l ∧ t ∉ msTools.map MsTool.msvs := by
  unfold msItems akeys
  simp only [List.mem_flatMap]
  constructor
  · rintro ⟨te, hte, hm⟩
    by_cases hk : te.1 ∈ msTools.map MsTool.msvs
    · rw [if_pos hk] at hm
      simp at hm
    · rw [if_neg hk] at hm
      simp only [List.mem_singleton, Prod.mk.injEq, and_true] at hm
      subst hm
      exact ⟨List.mem_map.mpr ⟨te, hte, rfl⟩, hk⟩
  · rintro ⟨h, hk⟩
    obtain ⟨te, hte, rfl⟩ := List.mem_map.mp h
    exact ⟨te, hte, by rw [if_neg hk]; simp⟩

/-- What a step becomes. -/
def StepBecomes (i : Str × Option (Str × MsVal)) (T N : Str) (w : MsVal) : Prop :=
  ∃ n v d, i.2 = some (n, v) ∧ d ∈ msDecls ∧ d.key = (i.1, n) ∧ Becomes d v T N w

theorem step_ok {repr : List Str → Str} {st st' : MsSettings × List MsWarn}
    {i : Str × Option (Str × MsVal)} (h : msStep repr msDecls st i = .ok st') (T N : Str) :
    ((¬ ∃ w, StepBecomes i T N w) → msGet st'.1 T N = msGet st.1 T N) ∧
    (∀ w, StepBecomes i T N w → msGet st.1 T N = none → msGet st'.1 T N = some w) := by
  obtain ⟨t, e⟩ := i
  cases e with
  | none =>
    cases Except.ok.inj h
    refine ⟨fun _ => rfl, ?_⟩
    rintro w ⟨n, v, d, h, _⟩; cases h
  | some e =>
    simp only [msStep, convertSetting] at h
    cases hl : lastWith (msDecls.map fun d => (d.key, d)) (t, e.1) with
    | none =>
      rw [hl] at h
      cases Except.ok.inj h
      refine ⟨fun _ => rfl, ?_⟩
      rintro w ⟨n, v, d, h1, h2, h3, _⟩
      cases h1
      rw [(lookup_decl _ d).mpr ⟨h2, h3⟩] at hl; cases hl
    | some d =>
      rw [hl] at h
      obtain ⟨hd, hk⟩ := (lookup_decl _ _).mp hl
      simp only at h
      have h1 : st'.1 = (d.translate repr e.2 st.1).1 := by
        rcases hx : d.translate repr e.2 st.1 with ⟨s', _ | _ | _⟩
        · rw [hx] at h; cases Except.ok.inj h; rfl
        · rw [hx] at h; cases Except.ok.inj h; rfl
        · rw [hx] at h; cases h
      rw [h1]
      constructor
      · intro hno
        apply translate_unchanged
        rintro ⟨w, hw⟩
        exact hno ⟨w, e.1, e.2, d, rfl, hd, hk, hw⟩
      · rintro w ⟨n, v, d', h2, h3, h4, hw⟩ hn
        cases h2
        have : lastWith (msDecls.map fun d => (d.key, d)) (t, n) = some d' :=
          (lookup_decl _ _).mpr ⟨h3, h4⟩
        rw [this] at hl
        cases hl
        exact translate_set hw hn

theorem foldlM_ok_cons {α σ : Type} {f : σ → α → Except Unit σ} {st out : σ} {a : α} {l : List α}
    (h : (a :: l).foldlM f st = .ok out) : ∃ st', f st a = .ok st' ∧ l.foldlM f st' = .ok out := by
  rw [List.foldlM_cons] at h
  cases hf : f st a with
  | error e => rw [hf] at h; cases h
  | ok st' => rw [hf] at h; exact ⟨st', rfl, h⟩

theorem steps_unchanged {repr : List Str → Str} {T N : Str} {l : List (Str × Option (Str × MsVal))}
    (hno : ∀ i ∈ l, ¬ ∃ w, StepBecomes i T N w) {st out : MsSettings × List MsWarn}
    (h : l.foldlM (msStep repr msDecls) st = .ok out) : msGet out.1 T N = msGet st.1 T N := by
  induction l generalizing st with
  | nil => cases Except.ok.inj h; rfl
  | cons i l ih =>
    obtain ⟨st', h1, h2⟩ := foldlM_ok_cons h
    rw [ih (fun j hj => hno j (List.mem_cons_of_mem _ hj)) h2]
    exact (step_ok h1 T N).1 (hno i List.mem_cons_self)

/-- One step at most becomes the setting. -/
theorem steps_set {repr : List Str → Str} {T N : Str} {w : MsVal}
    {l : List (Str × Option (Str × MsVal))} (hn : l.Nodup) {i : Str × Option (Str × MsVal)}
    (hi : i ∈ l) (hw : StepBecomes i T N w)
    (hone : ∀ j ∈ l, (∃ w, StepBecomes j T N w) → j = i) {st out : MsSettings × List MsWarn}
    (hst : msGet st.1 T N = none)
    (h : l.foldlM (msStep repr msDecls) st = .ok out) : msGet out.1 T N = some w := by
  induction l generalizing st with
  | nil => cases hi
  | cons j l ih =>
    obtain ⟨st', h1, h2⟩ := foldlM_ok_cons h
    rw [List.nodup_cons] at hn
    by_cases hj : j = i
    · subst hj
      rw [steps_unchanged (fun k hk hb => by
        have := hone k (List.mem_cons_of_mem _ hk) hb
        exact hn.1 (this ▸ hk)) h2]
      exact (step_ok h1 T N).2 w hw hst
    · apply ih hn.2 ((List.mem_cons.mp hi).resolve_left fun e => hj e.symm)
        (fun k hk => hone k (List.mem_cons_of_mem _ hk)) _ h2
      rw [(step_ok h1 T N).1 fun hb => hj (hone j List.mem_cons_self hb), hst]

theorem items_nodup {l : MsSettings} (h : NoRepeats l) : (msItems msTools l).Nodup := by
  unfold msItems
  rw [List.nodup_flatMap]
  constructor
  · intro te hte
    split
    · have := h.2 te hte
      apply List.Nodup.map (fun a b hab => by simpa using hab)
      exact List.Nodup.of_map Prod.fst this
    · simp
  · have := h.1
    unfold akeys at this
    rw [List.Nodup, List.pairwise_map] at this
    refine this.imp ?_
    intro a b hab x hx hx'
    have key : ∀ te : Str × List (Str × MsVal), x ∈ (if te.1 ∈ msTools.map MsTool.msvs then
        te.2.map fun e => (te.1, some e) else [(te.1, none)]) → x.1 = te.1 := by
      intro te hte
      split at hte
      · obtain ⟨e, _, rfl⟩ := List.mem_map.mp hte; rfl
      · simp at hte; rw [hte]
    exact hab ((key a hx).symm.trans (key b hx'))

theorem given_unique {l : MsSettings} (h : NoRepeats l) {t n : Str} {v v' : MsVal}
    (h1 : (t, n, v) ∈ given l) (h2 : (t, n, v') ∈ given l) : v = v' := by
  unfold given at h1 h2
  simp only [List.mem_flatMap, List.mem_map, Prod.mk.injEq] at h1 h2
  obtain ⟨te, hte, e, he, a1, a2, a3⟩ := h1
  obtain ⟨te', hte', e', he', b1, b2, b3⟩ := h2
  have hs : te = te' := List.inj_on_of_nodup_map h.1 hte hte' (a1.trans b1.symm)
  subst hs
  have := List.inj_on_of_nodup_map (h.2 te hte) he he' (a2.trans b2.symm)
  rw [← a3, ← b3, this]

theorem settings_spec {repr : List Str → Str} {l : MsSettings} {out : MsSettings}
    {warns : List MsWarn} (hl : NoRepeats l)
    (h : ConvertToMSBuildSettings repr msTools msDecls l = .ok (out, warns)) (T N : Str)
    (hr : (T, N) ∈ sharedPlaces → NoRivals l) (w : MsVal) :
    msGet out T N = some w ↔
      ∃ t n v d, (t, n, v) ∈ given l ∧ d ∈ msDecls ∧ d.key = (t, n) ∧ Becomes d v T N w := by
  rw [convert_items] at h
  have hstep : ∀ i ∈ msItems msTools l, ∀ w, StepBecomes i T N w →
      ∃ t n v d, i = (t, some (n, v)) ∧ (t, n, v) ∈ given l ∧ d ∈ msDecls ∧ d.key = (t, n) ∧
        Becomes d v T N w := by
    rintro ⟨t, e⟩ hi w ⟨n, v, d, h1, h2, h3, h4⟩
    simp only at h1 h3
    subst h1
    exact ⟨t, n, v, d, rfl, (mem_items.mp hi).1, h2, h3, h4⟩
  have hone : ∀ i ∈ msItems msTools l, ∀ j ∈ msItems msTools l, (∃ w, StepBecomes i T N w) →
      (∃ w, StepBecomes j T N w) → j = i := by
    rintro i hi j hj ⟨w, hw⟩ ⟨w', hw'⟩
    obtain ⟨t, n, v, d, rfl, g, hd, hk, hb⟩ := hstep i hi w hw
    obtain ⟨t', n', v', d', rfl, g', hd', hk', hb'⟩ := hstep j hj w' hw'
    have hkk : d.key = d'.key := by
      rcases places_apart d hd d' hd' ⟨(T, N), becomes_place hb, becomes_place hb'⟩ with h | h
      · exact h
      · exfalso
        have hsh : ∀ r ∈ rivals, ∀ d ∈ msDecls, d.key = r.1 → ∀ p ∈ placesOf d, p ∈ sharedPlaces := by
          decide +kernel
        refine hr (hsh _ h d hd rfl _ (becomes_place hb)) _ h ⟨⟨v, ?_⟩, ⟨v', ?_⟩⟩
        · simp only; rw [hk]; exact g
        · simp only; rw [hk']; exact g'
    rw [hk, hk'] at hkk
    cases hkk
    rw [given_unique hl g g']
  constructor
  · intro hg
    by_cases hex : ∃ i ∈ msItems msTools l, ∃ w, StepBecomes i T N w
    · obtain ⟨i, hi, w', hw'⟩ := hex
      have := steps_set (items_nodup hl) hi hw' (fun j hj hb => hone i hi j hj ⟨w', hw'⟩ hb) rfl h
      simp only at this
      rw [hg] at this
      cases this
      obtain ⟨t, n, v, d, _, h⟩ := hstep i hi w hw'
      exact ⟨t, n, v, d, h⟩
    · have := steps_unchanged (T := T) (N := N) (fun i hi hb => hex ⟨i, hi, hb⟩) h
      simp only at this
      rw [this] at hg; cases hg
  · rintro ⟨t, n, v, d, hg, hd, hk, hb⟩
    have hi : (t, some (n, v)) ∈ msItems msTools l :=
      mem_items.mpr ⟨hg, by have := decl_tool d hd; rw [hk] at this; exact this⟩
    have hw : StepBecomes (t, some (n, v)) T N w := ⟨n, v, d, rfl, hd, hk, hb⟩
    exact steps_set (items_nodup hl) hi hw (fun j hj hb => hone _ hi j hj ⟨w, hw⟩ hb) rfl h

/-! ### Failures and warnings -/

theorem foldlM_error_iff {α σ : Type} {f : σ → α → Except Unit σ} {P : α → Prop}
    (hf : ∀ st a, f st a = .error () ↔ P a) (l : List α) (st : σ) :
    l.foldlM f st = .error () ↔ ∃ a ∈ l, P a := by
  induction l generalizing st with
  | nil => simp [pure, Except.pure]
  | cons a l ih =>
    rw [List.foldlM_cons]
    cases h : f st a with
    | error e =>
      have : P a := (hf st a).mp (by rw [h])
      simp only [List.mem_cons, exists_eq_or_imp, this, true_or, iff_true]
      rfl
    | ok st' =>
      have hn : ¬ P a := fun hp => by rw [(hf st a).mpr hp] at h; cases h
      simp only [List.mem_cons, exists_eq_or_imp, hn, false_or]
      exact ih st'

theorem step_error (repr : List Str → Str) (st : MsSettings × List MsWarn)
    (i : Str × Option (Str × MsVal)) : msStep repr msDecls st i = .error () ↔
      ∃ n v d ty, i.2 = some (n, v) ∧ d ∈ msDecls ∧ d.key = (i.1, n) ∧ convertedType d = some ty ∧
        Unusable ty v := by
  obtain ⟨t, e⟩ := i
  cases e with
  | none => simp [msStep]
  | some e =>
    simp only [msStep, convertSetting]
    cases hl : lastWith (msDecls.map fun d => (d.key, d)) (t, e.1) with
    | none =>
      simp only [reduceCtorEq, false_iff]
      rintro ⟨n, v, d, ty, h1, h2, h3, _⟩
      cases h1
      rw [(lookup_decl _ d).mpr ⟨h2, h3⟩] at hl; cases hl
    | some d =>
      obtain ⟨hd, hk⟩ := (lookup_decl _ _).mp hl
      have := translate_crash repr d e.2 st.1
      have hiff : (∃ n v d' ty, (some e : Option (Str × MsVal)) = some (n, v) ∧ d' ∈ msDecls ∧
          d'.key = (t, n) ∧ convertedType d' = some ty ∧ Unusable ty v) ↔
          ∃ ty, convertedType d = some ty ∧ Unusable ty e.2 := by
        constructor
        · rintro ⟨n, v, d', ty, h1, h2, h3, h4⟩
          cases h1
          rw [(lookup_decl _ d').mpr ⟨h2, h3⟩] at hl
          cases hl
          exact ⟨ty, h4⟩
        · rintro ⟨ty, h⟩
          exact ⟨e.1, e.2, d, ty, rfl, hd, hk, h⟩
      rw [hiff, ← this]
      simp only
      rcases hx : d.translate repr e.2 st.1 with ⟨s', _ | _ | _⟩ <;> simp

theorem endsWith_append_iff (s p : Str) : endsWith s p = true ↔ ∃ b, b ++ p = s := by
  unfold endsWith
  rw [List.isSuffixOf_iff_suffix]
  rfl

theorem step_warns {repr : List Str → Str} {st st' : MsSettings × List MsWarn}
    {i : Str × Option (Str × MsVal)} (h : msStep repr msDecls st i = .ok st') (w : MsWarn) :
    w ∈ st'.2 ↔ w ∈ st.2 ∨
      (i.2 = none ∧ w = .tool i.1) ∨
      (∃ n v d, i.2 = some (n, v) ∧ d ∈ msDecls ∧ d.key = (i.1, n) ∧ Invalid d v ∧
        w = .failed i.1 n) ∨
      (∃ n v, i.2 = some (n, v) ∧ (∀ d ∈ msDecls, d.key ≠ (i.1, n)) ∧
        (¬ ∃ b, n = b ++ c!"_excluded" ∧ ∃ d ∈ msDecls, d.key = (i.1, b)) ∧
        w = .setting i.1 n) := by
  obtain ⟨t, e⟩ := i
  cases e with
  | none =>
    cases Except.ok.inj h
    simp
  | some e =>
    simp only [msStep, convertSetting] at h
    cases hl : lastWith (msDecls.map fun d => (d.key, d)) (t, e.1) with
    | none =>
      rw [hl] at h
      have hno : ∀ d ∈ msDecls, d.key ≠ (t, e.1) := by
        intro d hd hk
        rw [(lookup_decl _ d).mpr ⟨hd, hk⟩] at hl; cases hl
      cases Except.ok.inj h
      have hex : exclusionWarns (fun n =>
          (lastWith (msDecls.map fun d => (d.key, d)) (t, n)).isSome) e.1 = true ↔
          ¬ ∃ b, e.1 = b ++ c!"_excluded" ∧ ∃ d ∈ msDecls, d.key = (t, b) := by
        unfold exclusionWarns
        by_cases hend : endsWith e.1 c!"_excluded" = true
        · rw [if_pos hend]
          obtain ⟨b, hb⟩ := (endsWith_append_iff _ _).mp hend
          have htake : e.1.take (e.1.length - 9) = b := by
            rw [← hb]; simp
          rw [htake]
          simp only [Bool.not_eq_true', ← Bool.not_eq_true]
          apply not_congr
          rw [Option.isSome_iff_exists]
          constructor
          · rintro ⟨d, hd⟩
            obtain ⟨h1, h2⟩ := (lookup_decl _ _).mp hd
            exact ⟨b, hb.symm, d, h1, h2⟩
          · rintro ⟨b', hb', d, h1, h2⟩
            have : b' = b := List.append_cancel_right (hb'.symm.trans hb.symm)
            subst this
            exact ⟨d, (lookup_decl _ _).mpr ⟨h1, h2⟩⟩
        · rw [if_neg hend]
          simp only [true_iff]
          rintro ⟨b, hb, _⟩
          exact hend ((endsWith_append_iff _ _).mpr ⟨b, hb.symm⟩)
      simp only [List.mem_append, reduceCtorEq, false_and, false_or, Option.some.injEq]
      apply or_congr_right
      constructor
      · intro hw
        split at hw
        · rename_i hx
          right
          rw [List.mem_singleton] at hw
          exact ⟨e.1, e.2, rfl, hno, hex.mp hx, hw⟩
        · cases hw
      · rintro (⟨n, v, d, h1, h2, h3, _⟩ | ⟨n, v, h1, _, h2, h3⟩)
        · cases h1; exact absurd h3 (hno d h2)
        · cases h1
          rw [if_pos (hex.mpr h2)]
          simp [h3]
    | some d =>
      obtain ⟨hd, hk⟩ := (lookup_decl _ _).mp hl
      rw [hl] at h
      simp only at h
      have hval := translate_value repr d e.2 st.1
      have hR : ((∃ n v d', (some e : Option (Str × MsVal)) = some (n, v) ∧ d' ∈ msDecls ∧
          d'.key = (t, n) ∧ Invalid d' v ∧ w = .failed t n) ∨
          (∃ n v, (some e : Option (Str × MsVal)) = some (n, v) ∧ (∀ d ∈ msDecls, d.key ≠ (t, n)) ∧
            (¬ ∃ b, n = b ++ c!"_excluded" ∧ ∃ d ∈ msDecls, d.key = (t, b)) ∧
            w = .setting t n)) ↔ Invalid d e.2 ∧ w = .failed t e.1 := by
        constructor
        · rintro (⟨n, v, d', h1, h2, h3, h4⟩ | ⟨n, v, h1, h2, _⟩)
          · cases h1
            rw [(lookup_decl _ d').mpr ⟨h2, h3⟩] at hl
            cases hl
            exact h4
          · cases h1; exact absurd hk (h2 d hd)
        · intro h
          exact .inl ⟨e.1, e.2, d, rfl, hd, hk, h⟩
      simp only [reduceCtorEq, false_and, false_or]
      rw [hR, ← hval]
      rcases hx : d.translate repr e.2 st.1 with ⟨s', _ | _ | _⟩
      · rw [hx] at h; cases Except.ok.inj h; simp
      · rw [hx] at h; cases Except.ok.inj h; simp
      · rw [hx] at h; cases h

theorem steps_warns {repr : List Str → Str} {l : List (Str × Option (Str × MsVal))}
    {st out : MsSettings × List MsWarn} (h : l.foldlM (msStep repr msDecls) st = .ok out)
    (w : MsWarn) : w ∈ out.2 ↔ w ∈ st.2 ∨ ∃ i ∈ l,
      ((i.2 = none ∧ w = .tool i.1) ∨
      (∃ n v d, i.2 = some (n, v) ∧ d ∈ msDecls ∧ d.key = (i.1, n) ∧ Invalid d v ∧
        w = .failed i.1 n) ∨
      (∃ n v, i.2 = some (n, v) ∧ (∀ d ∈ msDecls, d.key ≠ (i.1, n)) ∧
        (¬ ∃ b, n = b ++ c!"_excluded" ∧ ∃ d ∈ msDecls, d.key = (i.1, b)) ∧
        w = .setting i.1 n)) := by
  induction l generalizing st with
  | nil => cases Except.ok.inj h; simp
  | cons i l ih =>
    obtain ⟨st', h1, h2⟩ := foldlM_ok_cons h
    rw [ih h2, step_warns h1 w]
    simp only [List.mem_cons, exists_eq_or_imp]
    rw [or_assoc]

end Gyp
