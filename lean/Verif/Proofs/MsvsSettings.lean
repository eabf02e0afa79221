import Verif.Proofs.MsvsMacros
import Verif.Props.Options
/-
Where a setting ends up.
-/
namespace Gyp
open Spec

theorem forall₂_eq_map {f : Str → Str} {l ts : List Str} :
    List.Forall₂ (fun s t => f s = t) l ts ↔ l.map f = ts := by
  induction l generalizing ts with
  | nil => simp [List.forall₂_nil_left_iff, eq_comm]
  | cons a l ih =>
    cases ts with
    | nil => simp
    | cons b ts => simp [ih]

theorem convert_ok (ty : MsType) (v w : MsVal) : ty.convert v = .ok w ↔ Converted ty v w := by
  cases ty with
  | string =>
    cases v with
    | str s => simp [MsType.convert, Converted, macrosConverted_iff, eq_comm]
    | list l =>
      simp only [MsType.convert, Converted]
      split
      · rename_i h; simp [h]
      · rename_i h; simp only [Except.ok.injEq]; constructor
        · rintro rfl; exact ⟨rfl, h⟩
        · rintro ⟨rfl, _⟩; rfl
  | stringList =>
    cases v with
    | str s => simp [MsType.convert, Converted, macrosConverted_iff, eq_comm]
    | list l =>
      simp only [MsType.convert, Converted, Except.ok.injEq]
      constructor
      · rintro rfl
        exact ⟨_, rfl, by
          have := (forall₂_eq_map (f := ConvertVCMacrosToMSBuild) (l := l)).mpr rfl
          exact this.imp fun a b h => (macrosConverted_iff a b).mpr h⟩
      · rintro ⟨ts, rfl, h⟩
        rw [forall₂_eq_map.mp (h.imp fun a b h => (macrosConverted_iff a b).mp h)]
  | boolean =>
    cases v with
    | str s =>
      simp only [MsType.convert, Converted, MsVal.str.injEq]
      split
      · rename_i h; simp [h, eq_comm]
      · rename_i h; simp [h]
    | list l => simp [MsType.convert, Converted]
  | integer hex =>
    cases v with
    | str s =>
      simp only [MsType.convert, Converted]
      cases hp : pyIntText s with
      | none =>
        constructor
        · intro h; cases h
        · rintro ⟨s', i, h1, h2, _⟩
          cases h1
          rw [← pyIntText_spec, hp] at h2; cases h2
      | some i =>
        constructor
        · intro h
          exact ⟨s, i, rfl, (pyIntText_spec s i).mp hp, (Except.ok.inj h).symm⟩
        · rintro ⟨s', i', h1, h2, rfl⟩
          cases h1
          rw [← pyIntText_spec, hp] at h2
          cases h2; rfl
    | list l => simp [MsType.convert, Converted]
  | enumeration labels new =>
    cases v with
    | str s =>
      simp only [MsType.convert, Converted]
      cases hp : pyIntText s with
      | none =>
        constructor
        · intro h; cases h
        · rintro ⟨s', i, l, h1, h2, _⟩
          cases h1
          rw [← pyIntText_spec, hp] at h2; cases h2
      | some i =>
        simp only
        constructor
        · intro h
          split at h
          · cases h
          · rename_i hr
            split at h
            · rename_i label hl
              refine ⟨s, i.toNat, label, rfl, (pyIntText_spec s _).mp ?_, hl, (Except.ok.inj h).symm⟩
              rw [hp]; simp; omega
            · cases h
        · rintro ⟨s', n, l, h1, h2, h3, rfl⟩
          cases h1
          rw [← pyIntText_spec, hp] at h2
          cases h2
          obtain ⟨hlt, _⟩ := List.getElem?_eq_some_iff.mp h3
          rw [if_neg (by
            rintro (h | h)
            · exact absurd h (by simp)
            · have : labels.length ≤ n := Int.ofNat_le.mp h
              omega)]
          have : (Int.ofNat n).toNat = n := rfl
          rw [this, h3]
    | list l => simp [MsType.convert, Converted]

theorem convert_crash (ty : MsType) (v : MsVal) : ty.convert v = .error .crash ↔ Unusable ty v := by
  cases ty <;> cases v <;> simp only [MsType.convert, Unusable]
  all_goals (try simp)
  all_goals (repeat' split)
  all_goals simp_all

theorem convert_value (ty : MsType) (v : MsVal) :
    ty.convert v = .error .value ↔ (¬ ∃ w, Converted ty v w) ∧ ¬ Unusable ty v := by
  rw [← convert_crash]
  simp only [← convert_ok]
  cases h : ty.convert v with
  | ok w => simp
  | error e => cases e <;> simp


/-! ### The table -/

theorem lastWith_of_nodup {α β : Type} [DecidableEq α] {l : List (α × β)}
    (hn : (l.map Prod.fst).Nodup) (k : α) (v : β) : lastWith l k = some v ↔ (k, v) ∈ l := by
  unfold lastWith
  constructor
  · intro h
    obtain ⟨e, he, h2⟩ := Option.map_eq_some_iff.mp h
    have h1 := List.find?_some he
    have h3 := List.mem_of_find?_eq_some he
    simp only [decide_eq_true_eq] at h1
    rw [← h1, ← h2]
    exact List.mem_reverse.mp h3
  · intro h
    have hs : (l.reverse.find? fun e => decide (e.1 = k)).isSome := by
      rw [List.find?_isSome]
      exact ⟨(k, v), List.mem_reverse.mpr h, by simp⟩
    obtain ⟨e, he⟩ := Option.isSome_iff_exists.mp hs
    have h1 := List.find?_some he
    have h3 := List.mem_reverse.mp (List.mem_of_find?_eq_some he)
    simp only [decide_eq_true_eq] at h1
    rw [he, Option.map_some]
    have : e = (k, v) := List.inj_on_of_nodup_map hn h3 h h1
    rw [this]

set_option maxRecDepth 20000 in
theorem keys_nodup : (msDecls.map MsDecl.key).Nodup := by decide +kernel

theorem lookup_decl (k : Str × Str) (d : MsDecl) :
    lastWith (msDecls.map fun d => (d.key, d)) k = some d ↔ d ∈ msDecls ∧ d.key = k := by
  rw [lastWith_of_nodup (by
    have := keys_nodup
    rwa [List.map_map])]
  simp only [List.mem_map, Prod.mk.injEq]
  constructor
  · rintro ⟨d', h, h1, rfl⟩; exact ⟨h, h1⟩
  · rintro ⟨h, rfl⟩; exact ⟨d, h, rfl, rfl⟩

theorem decl_tool : ∀ d ∈ msDecls, d.key.1 ∈ msTools.map MsTool.msvs := by decide +kernel

/-- The settings of MSBuild a declaration can set. -/
def placesOf : MsDecl → List (Str × Str)
  | .same t n _ => [(t.msbuild, n)]
  | .renamed t _ new _ => [(t.msbuild, new)]
  | .moved _ n newTool _ => [(newTool, n)]
  | .movedAndRenamed _ _ newTool new _ => [(newTool, new)]
  | .msvsOnly _ _ _ => []
  | .msbuildOnly t n _ => [(t.msbuild, n)]
  | .toOption t _ _ => [(t.msbuild, c!"AdditionalOptions")]
  | .preprocessed t _ =>
    [(t.msbuild, c!"PreprocessToFile"), (t.msbuild, c!"PreprocessSuppressLineNumbers")]

theorem becomes_place {d : MsDecl} {v : MsVal} {T N : Str} {w : MsVal} (h : Becomes d v T N w) :
    (T, N) ∈ placesOf d := by
  cases h <;> simp [placesOf]

set_option maxRecDepth 20000 in
theorem places_apart : ∀ d ∈ msDecls, ∀ d' ∈ msDecls, (∃ p ∈ placesOf d, p ∈ placesOf d') →
    d.key = d'.key ∨ (d.key, d'.key) ∈ rivals := by decide +kernel

end Gyp
