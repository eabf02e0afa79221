import Verif.Model.VsVersion
import Verif.Spec.VsVersion
import Verif.Proofs.MsvsProject
/-
C92: which version of Visual Studio projects are made for, and which compilers are set up.
-/
namespace Gyp

open Spec

/-! ### The version that is named -/

theorem createVersion_isSome (m : VsMachine) (name : Str) (path : Option Str) (sdk : Bool) :
    (createVersion m name path sdk).isSome ↔ name ∈ vsEditions := by
  unfold createVersion
  rw [Option.isSome_map, List.find?_isSome]
  simp only [vsTable, vsEditions, List.mem_cons, List.not_mem_nil, or_false, decide_eq_true_eq]
  constructor
  · rintro ⟨x, hx, rfl⟩
    rcases hx with rfl | rfl | rfl | rfl | rfl | rfl | rfl | rfl | rfl | rfl | rfl | rfl | rfl | rfl <;> simp
  · intro h
    rcases h with rfl | rfl | rfl | rfl | rfl | rfl | rfl | rfl | rfl | rfl | rfl | rfl | rfl | rfl <;> simp

theorem createVersion_fields {m : VsMachine} {name : Str} {path : Option Str} {sdk : Bool} {v : VsVersion}
    (h : createVersion m name path sdk = some v) :
    v.shortName = name ∧ v.sdkBased = sdk ∧ v.path = path.map fun p => if p = [] then p else m.norm p := by
  unfold createVersion at h
  rw [Option.map_eq_some_iff] at h
  obtain ⟨r, _, rfl⟩ := h
  exact ⟨rfl, rfl, rfl⟩

/-- **C92** When `GYP_MSVS_OVERRIDE_PATH` is set, as `node-gyp configure` does, the version is the one
that `GYP_MSVS_VERSION` names, at that path, whatever is installed and whatever the caller asks for;
it is refused exactly when `GYP_MSVS_VERSION` does not name an edition. -/
theorem C92_override {m : VsMachine} {path : Str} (hp : m.env c!"GYP_MSVS_OVERRIDE_PATH" = some path)
    (hne : path ≠ []) (version : Str) (fallback : Bool) :
    ((selectVersion m version fallback).isSome ↔ ∃ name ∈ vsEditions, m.env c!"GYP_MSVS_VERSION" = some name) ∧
    ∀ v, selectVersion m version fallback = some v →
      m.env c!"GYP_MSVS_VERSION" = some v.shortName ∧ v.path = some (m.norm path) ∧ v.sdkBased = true := by
  unfold selectVersion
  simp only [hp, Option.getD_some, ne_eq, hne, not_false_iff, if_true]
  cases hv : m.env c!"GYP_MSVS_VERSION" with
  | none => simp
  | some name =>
    simp only [Option.getD_some]
    by_cases hn : name = []
    · subst hn
      simp only [if_true]
      refine ⟨Iff.intro (fun h => by cases h) ?_, fun v h => by cases h⟩
      rintro ⟨n, hn, he⟩
      cases he
      exact absurd hn (by decide)
    · rw [if_neg hn]
      refine ⟨?_, ?_⟩
      · rw [createVersion_isSome]
        simp
      · intro v h
        obtain ⟨h1, h2, h3⟩ := createVersion_fields h
        simp [h1, h2, h3, hne]

/-! ### Detection -/

/-- What is looked for at one place. -/
def placeVersions (m : VsMachine) (force : Bool) (v : Str) (place : Str × Str) : Option (List VsVersion) :=
  if place.2 = c!"InstallDir" then detectInstalled m force v place.1 else detectSxs m v place.1

theorem versionYear_of {v year : Str} (h : (v, year) ∈ vsYears) : versionYear v = year := by
  simp only [vsYears, List.mem_cons, List.not_mem_nil, or_false, Prod.mk.injEq] at h
  rcases h with ⟨rfl, rfl⟩ | ⟨rfl, rfl⟩ | ⟨rfl, rfl⟩ | ⟨rfl, rfl⟩ | ⟨rfl, rfl⟩ | ⟨rfl, rfl⟩ | ⟨rfl, rfl⟩ |
    ⟨rfl, rfl⟩ | ⟨rfl, rfl⟩ <;> rfl

theorem createVersion_cases (m : VsMachine) (name path : Str) (hp : path ≠ []) (sdk : Bool) :
    (createVersion m name (some path) sdk = none ∧ name ∉ vsEditions) ∨
    ∃ x, createVersion m name (some path) sdk = some x ∧ x.shortName = name ∧ x.path = some (m.norm path) ∧
      x.sdkBased = sdk ∧ name ∈ vsEditions := by
  have := createVersion_isSome m name (some path) sdk
  cases h : createVersion m name (some path) sdk with
  | none =>
    rw [h] at this
    exact Or.inl ⟨rfl, fun hm => by have := this.mpr hm; cases this⟩
  | some x =>
    rw [h] at this
    obtain ⟨h1, h2, h3⟩ := createVersion_fields h
    exact Or.inr ⟨x, rfl, h1, by simpa [hp] using h3, h2, this.mp rfl⟩

/-- What is found at a place: nothing, an edition there is, or one that there is not. -/
def PlaceResult (m : VsMachine) (force : Bool) (v year : Str) (place : Str × Str)
    (r : Option (List VsVersion)) : Prop :=
  (r = some [] ∧ ¬ ∃ name path sdk, FoundVs m force v year place name path sdk) ∨
  ∃ name path sdk, FoundVs m force v year place name path sdk ∧
    ((r = none ∧ name ∉ vsEditions) ∨
      ∃ x, r = some [x] ∧ x.shortName = name ∧ x.path = some path ∧ x.sdkBased = sdk ∧ name ∈ vsEditions)

theorem placeResult_of {m : VsMachine} {force : Bool} {v year : Str} {place : Str × Str} {name path : Str}
    {sdk : Bool} (h : FoundVs m force v year place name (m.norm path) sdk) (hp : path ≠ []) :
    PlaceResult m force v year place ((createVersion m name (some path) sdk).map ([·])) := by
  refine Or.inr ⟨name, m.norm path, sdk, h, ?_⟩
  rcases createVersion_cases m name path hp sdk with ⟨h1, h2⟩ | ⟨x, h1, h2⟩
  · exact Or.inl ⟨by rw [h1]; rfl, h2⟩
  · exact Or.inr ⟨x, by rw [h1]; rfl, h2⟩

theorem installed_found {m : VsMachine} (hj : ∀ a l, a ≠ [] → m.join (a :: l) ≠ []) (force : Bool)
    {v year : Str} (hv : (v, year) ∈ vsYears) (key : Str) :
    PlaceResult m force v year (key, c!"InstallDir") (detectInstalled m force v key) := by
  have hvn : v ≠ c!"InstallDir" := by
    have : ∀ x ∈ vsYears, x.1 ≠ c!"InstallDir" := by decide
    exact this _ hv
  have hinv : ∀ {name path sdk}, FoundVs m force v year (key, c!"InstallDir") name path sdk →
      ∃ dir, m.registry key c!"InstallDir" = some dir ∧ dir ≠ [] ∧
        ((force = false ∧ m.fileExists (m.join [dir, c!"devenv.exe"]) = true) ∨
          ((force = true ∨ m.fileExists (m.join [dir, c!"devenv.exe"]) = false) ∧ m.expressIn dir = true)) := by
    intro name path sdk h
    generalize hpl : ((key, c!"InstallDir") : Str × Str) = place at h
    cases h with
    | full k dir h1 h2 h3 h4 => cases hpl; exact ⟨dir, h1, h2, Or.inl ⟨h3, h4⟩⟩
    | express k dir h1 h2 h3 h4 => cases hpl; exact ⟨dir, h1, h2, Or.inr ⟨h3, h4⟩⟩
    | fifteen k dir h1 h2 h3 h4 => exact absurd (Prod.mk.inj hpl).2.symm hvn
    | compilers k dir h1 h2 h3 h4 => exact absurd (Prod.mk.inj hpl).2.symm hvn
  unfold detectInstalled
  cases hr : m.registry key c!"InstallDir" with
  | none =>
    refine Or.inl ⟨rfl, ?_⟩
    rintro ⟨n, p, s, h⟩
    obtain ⟨dir, h1, _⟩ := hinv h
    rw [hr] at h1; cases h1
  | some dir =>
    simp only
    by_cases hd : dir = []
    · rw [if_pos hd]
      refine Or.inl ⟨rfl, ?_⟩
      rintro ⟨n, p, s, h⟩
      obtain ⟨dir', h1, h2, _⟩ := hinv h
      rw [hr] at h1
      exact h2 (Option.some.inj h1 ▸ hd)
    · rw [if_neg hd]
      split
      · rename_i hc
        simp only [Bool.and_eq_true, Bool.not_eq_true'] at hc
        rw [versionYear_of hv]
        exact placeResult_of (.full key dir hr hd hc.1 hc.2) (hj _ _ hd)
      · rename_i hc
        have hc' : force = true ∨ m.fileExists (m.join [dir, c!"devenv.exe"]) = false := by
          cases force
          · right; simpa using hc
          · left; rfl
        split
        · rename_i he
          rw [versionYear_of hv]
          exact placeResult_of (.express key dir hr hd hc' he) (hj _ _ hd)
        · rename_i he
          refine Or.inl ⟨rfl, ?_⟩
          rintro ⟨n, p, s, h⟩
          obtain ⟨dir', h1, h2, h3⟩ := hinv h
          rw [hr] at h1
          cases h1
          rcases h3 with ⟨h3, h4⟩ | ⟨_, h4⟩
          · rcases hc' with h5 | h5
            · rw [h3] at h5; cases h5
            · rw [h4] at h5; cases h5
          · exact he h4

theorem sxs_found {m : VsMachine} (hj : ∀ a l, a ≠ [] → m.join (a :: l) ≠ []) (force : Bool)
    {v year : Str} (hv : (v, year) ∈ vsYears) (key : Str) :
    PlaceResult m force v year (key, v) (detectSxs m v key) := by
  have hvn : v ≠ c!"InstallDir" := by
    have : ∀ x ∈ vsYears, x.1 ≠ c!"InstallDir" := by decide
    exact this _ hv
  have h15 : v = c!"15.0" → year = c!"2017" := by
    have : ∀ x ∈ vsYears, x.1 = c!"15.0" → x.2 = c!"2017" := by decide
    exact this _ hv
  have hinv : ∀ {name path sdk}, FoundVs m force v year (key, v) name path sdk →
      ∃ dir, m.registry key v = some dir ∧ dir ≠ [] ∧
        ((v = c!"15.0" ∧ m.fileExists dir = true) ∨ (v ≠ c!"15.0" ∧ v ≠ c!"14.0")) := by
    intro name path sdk h
    generalize hpl : ((key, v) : Str × Str) = place at h
    cases h with
    | full k dir h1 h2 h3 h4 => exact absurd (Prod.mk.inj hpl).2 hvn
    | express k dir h1 h2 h3 h4 => exact absurd (Prod.mk.inj hpl).2 hvn
    | fifteen k dir h1 h2 h3 h4 => cases hpl; exact ⟨dir, h1, h2, Or.inl ⟨h3, h4⟩⟩
    | compilers k dir h1 h2 h3 h4 => cases hpl; exact ⟨dir, h1, h2, Or.inr ⟨h3, h4⟩⟩
  unfold detectSxs
  cases hr : m.registry key v with
  | none =>
    refine Or.inl ⟨rfl, ?_⟩
    rintro ⟨n, p, s, h⟩
    obtain ⟨dir, h1, _⟩ := hinv h
    rw [hr] at h1; cases h1
  | some dir =>
    simp only
    by_cases hd : dir = []
    · rw [if_pos hd]
      refine Or.inl ⟨rfl, ?_⟩
      rintro ⟨n, p, s, h⟩
      obtain ⟨dir', h1, h2, _⟩ := hinv h
      rw [hr] at h1
      exact h2 (Option.some.inj h1 ▸ hd)
    · rw [if_neg hd]
      by_cases hv15 : v = c!"15.0"
      · rw [if_pos hv15]
        split
        · rename_i he
          have := FoundVs.fifteen (m := m) (express := force) (v := v) (year := year) key dir hr hd hv15 he
          rw [h15 hv15] at this ⊢
          exact placeResult_of this hd
        · rename_i he
          refine Or.inl ⟨rfl, ?_⟩
          rintro ⟨n, p, s, h⟩
          obtain ⟨dir', h1, h2, h3⟩ := hinv h
          rw [hr] at h1
          cases h1
          rcases h3 with ⟨_, h3⟩ | ⟨h3, _⟩
          · exact he h3
          · exact h3 hv15
      · rw [if_neg hv15]
        split
        · rename_i h14
          rw [versionYear_of hv]
          exact placeResult_of (.compilers key dir hr hd hv15 h14) (hj _ _ hd)
        · rename_i h14
          refine Or.inl ⟨rfl, ?_⟩
          rintro ⟨n, p, s, h⟩
          obtain ⟨dir', h1, h2, h3⟩ := hinv h
          rcases h3 with ⟨h3, _⟩ | ⟨_, h3⟩
          · exact hv15 h3
          · exact h14 h3

/-! ### All versions -/

/-- A version at a place, for the search. -/
def vsAllPlaces (vs : List Str) : List (Str × Str × Str) :=
  vs.flatMap fun v => (vsPlaces v).map fun p => (v, p)

theorem placeVersions_result {m : VsMachine} (hj : ∀ a l, a ≠ [] → m.join (a :: l) ≠ []) (force : Bool)
    {v year : Str} (hv : (v, year) ∈ vsYears) {place : Str × Str} (hp : place ∈ vsPlaces v) :
    PlaceResult m force v year place (placeVersions m force v place) := by
  have hvn : v ≠ c!"InstallDir" := by
    have : ∀ x ∈ vsYears, x.1 ≠ c!"InstallDir" := by decide
    exact this _ hv
  have h1 : ∀ key, PlaceResult m force v year (key, c!"InstallDir") (placeVersions m force v (key, c!"InstallDir")) := by
    intro key
    unfold placeVersions
    rw [if_pos rfl]
    exact installed_found hj force hv key
  have h2 : ∀ key, PlaceResult m force v year (key, v) (placeVersions m force v (key, v)) := by
    intro key
    unfold placeVersions
    rw [if_neg hvn]
    exact sxs_found hj force hv key
  simp only [vsPlaces, List.mem_cons, List.not_mem_nil, or_false] at hp
  rcases hp with rfl | rfl | rfl | rfl | rfl | rfl | rfl | rfl
  · exact h1 _
  · exact h1 _
  · exact h1 _
  · exact h1 _
  · exact h2 _
  · exact h2 _
  · exact h2 _
  · exact h2 _

theorem mapM_flatten_append {α β : Type} (f : α → Option (List β)) (a b : List α) :
    ((a ++ b).mapM f).map List.flatten =
      (a.mapM f).bind fun x => (b.mapM f).map fun y => x.flatten ++ y.flatten := by
  rw [List.mapM_append]
  cases a.mapM f with
  | none => rfl
  | some x =>
    cases b.mapM f with
    | none => rfl
    | some y => simp

theorem detect_places (m : VsMachine) (force : Bool) (vs : List Str) (hvs : ∀ v ∈ vs, v ≠ c!"InstallDir") :
    detectVersions m force vs =
      ((vsAllPlaces vs).mapM fun x => placeVersions m force x.1 x.2).map List.flatten := by
  have hone : ∀ v ∈ vs, (do
      let a ← (installKeys v).mapM (detectInstalled m force v)
      let b ← sxsKeys.mapM (detectSxs m v)
      some (a.flatten ++ b.flatten)) =
      (((vsPlaces v).map fun p => (v, p)).mapM fun x => placeVersions m force x.1 x.2).map List.flatten := by
    intro v hv
    have hvn := hvs v hv
    have hs : (vsPlaces v).map (fun p => (v, p)) = (installKeys v).map (fun k => (v, k, c!"InstallDir")) ++
        sxsKeys.map (fun k => (v, k, v)) := rfl
    rw [hs, mapM_flatten_append, List.mapM_map, List.mapM_map]
    have e1 : ((fun x : Str × Str × Str => placeVersions m force x.1 x.2) ∘ fun k => (v, k, c!"InstallDir")) =
        detectInstalled m force v := by
      funext k
      simp [placeVersions]
    have e2 : ((fun x : Str × Str × Str => placeVersions m force x.1 x.2) ∘ fun k => (v, k, v)) =
        detectSxs m v := by
      funext k
      simp [placeVersions, hvn]
    rw [e1, e2]
    cases (installKeys v).mapM (detectInstalled m force v) with
    | none => rfl
    | some a =>
      cases sxsKeys.mapM (detectSxs m v) with
      | none => rfl
      | some b => rfl
  unfold detectVersions
  induction vs with
  | nil => rfl
  | cons v vs ih =>
    have hcons : vsAllPlaces (v :: vs) = (vsPlaces v).map (fun p => (v, p)) ++ vsAllPlaces vs := rfl
    have ih' := ih (fun u hu => hvs u (by simp [hu])) (fun u hu => hone u (by simp [hu]))
    rw [hcons, mapM_flatten_append]
    rw [List.mapM_cons, hone v (by simp)]
    cases h1 : ((vsPlaces v).map fun p => (v, p)).mapM fun x => placeVersions m force x.1 x.2 with
    | none => rfl
    | some a =>
      cases h2 : (vsAllPlaces vs).mapM fun x => placeVersions m force x.1 x.2 with
      | none =>
        rw [h2] at ih'
        simp only [Option.map_none, Option.bind_eq_bind, Option.bind_eq_none_iff] at ih'
        simp only [Option.map_some, Option.bind_eq_bind, Option.bind_some, Option.map_none]
        cases h3 : vs.mapM fun v => do
            let a ← (installKeys v).mapM (detectInstalled m force v)
            let b ← sxsKeys.mapM (detectSxs m v)
            some (a.flatten ++ b.flatten) with
        | none => rfl
        | some z => exact absurd (ih' z h3) (by simp)
      | some b =>
        rw [h2] at ih'
        simp only [Option.map_some, Option.bind_eq_bind, Option.bind_eq_some_iff] at ih'
        obtain ⟨z, h3, h4⟩ := ih'
        simp only [Option.map_some, Option.bind_eq_bind, Option.bind_some, h3]
        simp only [Option.some.injEq] at h4
        simp [h4]

/-- What is found at a place has one name. -/
theorem foundVs_name {m : VsMachine} {force : Bool} {v year : Str} (hv : (v, year) ∈ vsYears)
    {place : Str × Str} {n p n' p' : Str} {s s' : Bool} (h : FoundVs m force v year place n p s)
    (h' : FoundVs m force v year place n' p' s') : n = n' := by
  have hvn : v ≠ c!"InstallDir" := by
    have : ∀ x ∈ vsYears, x.1 ≠ c!"InstallDir" := by decide
    exact this _ hv
  generalize hpl : place = place' at h'
  cases h with
  | full k dir h1 h2 h3 h4 =>
    cases h' with
    | full k' dir' h1' h2' h3' h4' => rfl
    | express k' dir' h1' h2' h3' h4' =>
      cases hpl
      rw [h1] at h1'
      cases h1'
      rcases h3' with h5 | h5
      · rw [h3] at h5; cases h5
      · rw [h4] at h5; cases h5
    | fifteen k' dir' _ _ _ _ => exact absurd (Prod.mk.inj hpl).2.symm hvn
    | compilers k' dir' _ _ _ _ => exact absurd (Prod.mk.inj hpl).2.symm hvn
  | express k dir h1 h2 h3 h4 =>
    cases h' with
    | full k' dir' h1' h2' h3' h4' =>
      cases hpl
      rw [h1] at h1'
      cases h1'
      rcases h3 with h5 | h5
      · rw [h3'] at h5; cases h5
      · rw [h4'] at h5; cases h5
    | express k' dir' h1' h2' h3' h4' => rfl
    | fifteen k' dir' _ _ _ _ => exact absurd (Prod.mk.inj hpl).2.symm hvn
    | compilers k' dir' _ _ _ _ => exact absurd (Prod.mk.inj hpl).2.symm hvn
  | fifteen k dir _ _ h3 _ =>
    cases h' with
    | full k' dir' _ _ _ _ => exact absurd (Prod.mk.inj hpl).2 hvn
    | express k' dir' _ _ _ _ => exact absurd (Prod.mk.inj hpl).2 hvn
    | fifteen k' dir' _ _ _ _ => rfl
    | compilers k' dir' _ _ h3' _ => exact absurd h3 h3'
  | compilers k dir _ _ h3 _ =>
    cases h' with
    | full k' dir' _ _ _ _ => exact absurd (Prod.mk.inj hpl).2 hvn
    | express k' dir' _ _ _ _ => exact absurd (Prod.mk.inj hpl).2 hvn
    | fifteen k' dir' _ _ h3' _ => exact absurd h3' h3
    | compilers k' dir' _ _ _ _ => rfl

/-- The results of the places of a list, one after the other: nothing, an edition, or an error. -/
theorem places_search {m : VsMachine} (asked : Str) (f : Str × Str × Str → Option (List VsVersion))
    (l : List (Str × Str × Str))
    (hres : ∀ x ∈ l, ∃ year, (x.1, year) ∈ vsYears ∧
      PlaceResult m (decide ('e' ∈ asked)) x.1 year x.2 (f x)) :
    match (l.mapM f).map List.flatten with
    | none => ∃ x ∈ l, ∃ name path sdk, FoundAt m asked x name path sdk ∧ name ∉ vsEditions
    | some [] => ∀ x ∈ l, ¬ ∃ name path sdk, FoundAt m asked x name path sdk
    | some (r :: _) => (∃ before x after path, l = before ++ x :: after ∧
        (∀ y ∈ before, ¬ ∃ name path sdk, FoundAt m asked y name path sdk) ∧
        FoundAt m asked x r.shortName path r.sdkBased ∧ r.path = some path ∧ r.shortName ∈ vsEditions) := by
  induction l with
  | nil => intro x hx; cases hx
  | cons x l ih =>
    have ih' := ih fun y hy => hres y (by simp [hy])
    obtain ⟨year, hy, hx⟩ := hres x (by simp)
    have huniq : ∀ year', (x.1, year') ∈ vsYears → year' = year := by
      intro year' h'
      rw [← versionYear_of h', versionYear_of hy]
    rcases hx with ⟨h1, h2⟩ | ⟨name, path, sdk, h1, h2⟩
    · have hno : ¬ ∃ name path sdk, FoundAt m asked x name path sdk := by
        rintro ⟨n, p, s, year', hy', hf⟩
        rw [huniq year' hy'] at hf
        exact h2 ⟨n, p, s, hf⟩
      have he : ((x :: l).mapM f).map List.flatten = (l.mapM f).map List.flatten := by
        rw [List.mapM_cons, h1]
        cases l.mapM f with
        | none => rfl
        | some z => simp
      rw [he]
      cases hr : (l.mapM f).map List.flatten with
      | none =>
        rw [hr] at ih'
        obtain ⟨y, hy, rest⟩ := ih'
        exact ⟨y, List.mem_cons_of_mem _ hy, rest⟩
      | some rs =>
        rw [hr] at ih'
        cases rs with
        | nil =>
          intro y hy
          rcases List.mem_cons.mp hy with rfl | hy
          · exact hno
          · exact ih' y hy
        | cons r rs =>
          obtain ⟨before, z, after, path, hl, hb, rest⟩ := ih'
          refine ⟨x :: before, z, after, path, by rw [hl]; rfl, ?_, rest⟩
          intro y hy
          rcases List.mem_cons.mp hy with rfl | hy
          · exact hno
          · exact hb y hy
    · have hfound : FoundAt m asked x name path sdk := ⟨year, hy, h1⟩
      rcases h2 with ⟨h2, h3⟩ | ⟨v, h2, rfl, h4, rfl, h6⟩
      · have he : ((x :: l).mapM f).map List.flatten = none := by
          rw [List.mapM_cons, h2]; rfl
        rw [he]
        exact ⟨x, by simp, name, path, sdk, hfound, h3⟩
      · cases hm : l.mapM f with
        | none =>
          have he : ((x :: l).mapM f).map List.flatten = none := by
            rw [List.mapM_cons, h2, hm]; rfl
          rw [he]
          rw [hm] at ih'
          obtain ⟨y, hy, rest⟩ := ih'
          exact ⟨y, List.mem_cons_of_mem _ hy, rest⟩
        | some z =>
          have he : ((x :: l).mapM f).map List.flatten = some (v :: z.flatten) := by
            rw [List.mapM_cons, h2, hm]
            simp
          rw [he]
          exact ⟨[], x, l, path, rfl, fun y hy => (List.not_mem_nil hy).elim, hfound, h4, h6⟩

theorem candidates_map {asked : Str} (h : asked = c!"auto" ∨ asked ∈ vsEditions) :
    aget versionMap asked = some (vsCandidates asked) := by
  rcases h with rfl | h
  · rfl
  · have : ∀ a ∈ vsEditions, aget versionMap a = some (vsCandidates a) := by decide
    exact this _ h

theorem candidates_none {asked : Str} (h : ¬ (asked = c!"auto" ∨ asked ∈ vsEditions)) :
    aget versionMap asked = none := by
  cases ha : aget versionMap asked with
  | none => rfl
  | some vs =>
    have hm : asked ∈ akeys versionMap := (aget_isSome _ _).mp (by rw [ha]; rfl)
    have : ∀ a ∈ akeys versionMap, a = c!"auto" ∨ a ∈ vsEditions := by decide
    exact absurd (this _ hm) h

theorem candidates_years {asked : Str} : ∀ v ∈ vsCandidates asked, ∃ year, (v, year) ∈ vsYears := by
  intro v hv
  unfold vsCandidates at hv
  split at hv
  · have : ∀ v ∈ vsPreferred, v ∈ vsYears.map (·.1) := by decide
    obtain ⟨⟨a, b⟩, h1, rfl⟩ := List.mem_map.mp (this v hv)
    exact ⟨b, h1⟩
  · obtain ⟨⟨a, b⟩, h1, rfl⟩ := List.mem_map.mp hv
    exact ⟨b, (List.mem_filter.mp h1).1⟩

/-- What the detection gives for what is asked. -/
theorem detect_search {m : VsMachine} (hj : ∀ a l, a ≠ [] → m.join (a :: l) ≠ []) (asked : Str) :
    detectVersions m (decide ('e' ∈ asked)) (vsCandidates asked) =
        ((vsSearch asked).mapM fun x => placeVersions m (decide ('e' ∈ asked)) x.1 x.2).map List.flatten ∧
    ∀ x ∈ vsSearch asked, ∃ year, (x.1, year) ∈ vsYears ∧
      PlaceResult m (decide ('e' ∈ asked)) x.1 year x.2 (placeVersions m (decide ('e' ∈ asked)) x.1 x.2) := by
  refine ⟨?_, ?_⟩
  · rw [detect_places]
    · rfl
    · intro v hv
      obtain ⟨year, hy⟩ := candidates_years v hv
      have : ∀ x ∈ vsYears, x.1 ≠ c!"InstallDir" := by decide
      exact this _ hy
  · intro x hx
    unfold vsSearch at hx
    obtain ⟨v, hv, hx⟩ := List.mem_flatMap.mp hx
    obtain ⟨p, hp, rfl⟩ := List.mem_map.mp hx
    obtain ⟨year, hy⟩ := candidates_years v hv
    exact ⟨year, hy, placeVersions_result hj _ hy hp⟩

theorem select_search {m : VsMachine} (hno : (m.env c!"GYP_MSVS_OVERRIDE_PATH").getD [] = []) (version : Str)
    (fallback : Bool) :
    selectVersion m version fallback = (aget versionMap (vsAsked m version)).bind fun vs =>
      (detectVersions m (decide ('e' ∈ vsAsked m version)) vs).bind fun versions =>
        match versions with
        | first :: _ => some first
        | [] =>
          if !fallback then none
          else if vsAsked m version = c!"auto" then createVersion m c!"2005" none false
          else createVersion m (vsAsked m version) none false := by
  have he : (if version = c!"auto" then (m.env c!"GYP_MSVS_VERSION").getD c!"auto" else version) =
      vsAsked m version := by
    unfold vsAsked
    by_cases h : version = c!"auto"
    · rw [if_pos h, if_neg (not_not.mpr h)]
    · rw [if_neg h, if_pos h]
  unfold selectVersion
  simp only [hno, he, ne_eq, not_true_eq_false, if_false]
  rfl

/-- **C92** Without an override, a version is refused exactly when what is asked for is not known,
when something is found that would be an edition that there is not, or when nothing is found and
there must not be a fallback. -/
theorem C92_refused {m : VsMachine} (hj : ∀ a l, a ≠ [] → m.join (a :: l) ≠ [])
    (hno : (m.env c!"GYP_MSVS_OVERRIDE_PATH").getD [] = []) (version : Str) (fallback : Bool) :
    selectVersion m version fallback = none ↔
      ¬ (vsAsked m version = c!"auto" ∨ vsAsked m version ∈ vsEditions) ∨
      (∃ x ∈ vsSearch (vsAsked m version), ∃ name path sdk,
        FoundAt m (vsAsked m version) x name path sdk ∧ name ∉ vsEditions) ∨
      (fallback = false ∧ ∀ x ∈ vsSearch (vsAsked m version), ¬ ∃ name path sdk,
        FoundAt m (vsAsked m version) x name path sdk) := by
  rw [select_search hno]
  by_cases hask : vsAsked m version = c!"auto" ∨ vsAsked m version ∈ vsEditions
  · rw [candidates_map hask, Option.bind_some]
    obtain ⟨h1, h2⟩ := detect_search hj (vsAsked m version)
    have h3 := places_search (vsAsked m version) _ _ h2
    rw [← h1] at h3
    cases hd : detectVersions m (decide ('e' ∈ vsAsked m version)) (vsCandidates (vsAsked m version)) with
    | none =>
      rw [hd] at h3
      exact iff_of_true rfl (Or.inr (Or.inl h3))
    | some rs =>
      have hbad : ¬ ∃ x ∈ vsSearch (vsAsked m version), ∃ name path sdk,
          FoundAt m (vsAsked m version) x name path sdk ∧ name ∉ vsEditions := by
        rintro ⟨x, hx, name, path, sdk, ⟨year, hy, hfound⟩, hn⟩
        obtain ⟨year', hy', hr⟩ := h2 x hx
        have : year' = year := by rw [← versionYear_of hy', versionYear_of hy]
        subst this
        have hnone : placeVersions m (decide ('e' ∈ vsAsked m version)) x.1 x.2 = none := by
          rcases hr with ⟨_, hno'⟩ | ⟨n', p', s', hf', hcase⟩
          · exact absurd ⟨_, _, _, hfound⟩ hno'
          · have := foundVs_name hy hfound hf'
            rcases hcase with ⟨hc, _⟩ | ⟨_, _, _, _, _, hc⟩
            · exact hc
            · exact absurd (this ▸ hc) hn
        rw [h1, Option.map_eq_some_iff] at hd
        obtain ⟨z, hz, _⟩ := hd
        obtain ⟨_, hsome⟩ := mapM_some_map _ [] hz
        have hw := hsome x hx
        rw [hnone] at hw
        cases hw
      rw [hd] at h3
      rw [Option.bind_some]
      cases rs with
      | cons a rs =>
        refine iff_of_false (by simp) ?_
        rintro (hc | hc | ⟨_, hc⟩)
        · exact hc hask
        · exact hbad hc
        · obtain ⟨before, x, after, path, hl, _, hx, _⟩ := h3
          exact hc x (by rw [hl]; simp) ⟨_, _, _, hx⟩
      | nil =>
        cases fallback with
        | false => exact iff_of_true rfl (Or.inr (Or.inr ⟨rfl, h3⟩))
        | true =>
          refine iff_of_false ?_ ?_
          · simp only [Bool.not_true, Bool.false_eq_true, if_false]
            intro hc
            split at hc
            · have := (createVersion_isSome m c!"2005" none false).mpr (by decide)
              rw [hc] at this; cases this
            · rename_i hne
              have := (createVersion_isSome m (vsAsked m version) none false).mpr (hask.resolve_left hne)
              rw [hc] at this; cases this
          · rintro (hc | hc | ⟨hc, _⟩)
            · exact hc hask
            · exact hbad hc
            · cases hc
  · rw [candidates_none hask]
    exact iff_of_true rfl (Or.inl hask)

/-- **C92** Without an override, and when something is found, the version is what is found first:
the versions that are asked for are looked for in their order, each at its places in their order. -/
theorem C92_selected {m : VsMachine} (hj : ∀ a l, a ≠ [] → m.join (a :: l) ≠ [])
    (hno : (m.env c!"GYP_MSVS_OVERRIDE_PATH").getD [] = []) {version : Str} {fallback : Bool} {r : VsVersion}
    (h : selectVersion m version fallback = some r)
    (hf : ∃ x ∈ vsSearch (vsAsked m version), ∃ name path sdk, FoundAt m (vsAsked m version) x name path sdk) :
    ∃ before x after path, vsSearch (vsAsked m version) = before ++ x :: after ∧
      (∀ y ∈ before, ¬ ∃ name path sdk, FoundAt m (vsAsked m version) y name path sdk) ∧
      FoundAt m (vsAsked m version) x r.shortName path r.sdkBased ∧ r.path = some path ∧
      r.shortName ∈ vsEditions := by
  rw [select_search hno, Option.bind_eq_some_iff] at h
  obtain ⟨vs, hvs, h⟩ := h
  have hask : vsAsked m version = c!"auto" ∨ vsAsked m version ∈ vsEditions := by
    by_contra hc
    rw [candidates_none hc] at hvs
    cases hvs
  rw [candidates_map hask] at hvs
  cases hvs
  obtain ⟨h1, h2⟩ := detect_search hj (vsAsked m version)
  have h3 := places_search (vsAsked m version) _ _ h2
  rw [← h1] at h3
  cases hd : detectVersions m (decide ('e' ∈ vsAsked m version)) (vsCandidates (vsAsked m version)) with
  | none => rw [hd] at h; cases h
  | some rs =>
    rw [hd] at h h3
    cases rs with
    | nil =>
      obtain ⟨x, hx, hx'⟩ := hf
      exact absurd hx' (h3 x hx)
    | cons a rs =>
      cases h
      exact h3

/-- **C92** When nothing is found, the projects are for the version that is asked for, and for 2005
when none is; it is at no path. -/
theorem C92_fallback {m : VsMachine} (hj : ∀ a l, a ≠ [] → m.join (a :: l) ≠ [])
    (hno : (m.env c!"GYP_MSVS_OVERRIDE_PATH").getD [] = []) {version : Str} {fallback : Bool} {r : VsVersion}
    (h : selectVersion m version fallback = some r)
    (hf : ∀ x ∈ vsSearch (vsAsked m version), ¬ ∃ name path sdk, FoundAt m (vsAsked m version) x name path sdk) :
    fallback = true ∧ r.path = none ∧
    r.shortName = if vsAsked m version = c!"auto" then c!"2005" else vsAsked m version := by
  rw [select_search hno, Option.bind_eq_some_iff] at h
  obtain ⟨vs, hvs, h⟩ := h
  have hask : vsAsked m version = c!"auto" ∨ vsAsked m version ∈ vsEditions := by
    by_contra hc
    rw [candidates_none hc] at hvs
    cases hvs
  rw [candidates_map hask] at hvs
  cases hvs
  obtain ⟨h1, h2⟩ := detect_search hj (vsAsked m version)
  have h3 := places_search (vsAsked m version) _ _ h2
  rw [← h1] at h3
  cases hd : detectVersions m (decide ('e' ∈ vsAsked m version)) (vsCandidates (vsAsked m version)) with
  | none => rw [hd] at h; cases h
  | some rs =>
    rw [hd] at h h3
    cases rs with
    | cons a rs =>
      obtain ⟨before, x, after, path, hl, _, hx, _⟩ := h3
      exact absurd ⟨_, _, _, hx⟩ (hf x (by rw [hl]; simp))
    | nil =>
      simp only [Option.bind_some] at h
      cases fallback with
      | false => simp at h
      | true =>
        simp only [Bool.not_true, Bool.false_eq_true, if_false] at h
        split at h
        · rename_i ha
          obtain ⟨e1, e2, e3⟩ := createVersion_fields h
          exact ⟨rfl, e3, by rw [e1, if_pos ha]⟩
        · rename_i ha
          obtain ⟨e1, e2, e3⟩ := createVersion_fields h
          exact ⟨rfl, e3, by rw [e1, if_neg ha]⟩

/-- **C92** What is asked for by its year is what comes: that year or its Express edition, and the
Express edition when that is asked for. -/
theorem C92_asked {m : VsMachine} (hj : ∀ a l, a ≠ [] → m.join (a :: l) ≠ [])
    (hno : (m.env c!"GYP_MSVS_OVERRIDE_PATH").getD [] = []) {version : Str} {fallback : Bool} {r : VsVersion}
    (h : selectVersion m version fallback = some r) (ha : vsAsked m version ≠ c!"auto") :
    r.shortName = vsAsked m version ∨
      ('e' ∉ vsAsked m version ∧ r.shortName = vsAsked m version ++ c!"e") := by
  by_cases hf : ∃ x ∈ vsSearch (vsAsked m version), ∃ name path sdk, FoundAt m (vsAsked m version) x name path sdk
  · obtain ⟨before, x, after, path, hl, _, ⟨year, hy, hfound⟩, _, hed⟩ := C92_selected hj hno h hf
    have hx : x ∈ vsSearch (vsAsked m version) := by rw [hl]; simp
    unfold vsSearch at hx
    obtain ⟨v, hv, hx⟩ := List.mem_flatMap.mp hx
    obtain ⟨p, hp, rfl⟩ := List.mem_map.mp hx
    unfold vsCandidates at hv
    rw [if_neg ha] at hv
    obtain ⟨⟨a, b⟩, h1, rfl⟩ := List.mem_map.mp hv
    obtain ⟨h1, h2⟩ := List.mem_filter.mp h1
    simp only at hy hfound h2
    have hb : b = year := by rw [← versionYear_of h1, versionYear_of hy]
    subst hb
    have hne : 'e' ∉ b := by
      have : ∀ x ∈ vsYears, 'e' ∉ x.2 := by decide
      exact this _ h1
    have hname : (r.shortName = b ∧ ('e' ∉ vsAsked m version ∨ a = c!"15.0")) ∨ r.shortName = b ++ c!"e" := by
      generalize r.shortName = n at hfound
      generalize r.sdkBased = s at hfound
      cases hfound with
      | full k dir _ _ h3 _ => exact Or.inl ⟨rfl, Or.inl (by simpa using h3)⟩
      | express k dir _ _ _ _ => exact Or.inr rfl
      | fifteen k dir _ _ h3 _ => exact Or.inl ⟨rfl, Or.inr h3⟩
      | compilers k dir _ _ _ _ => exact Or.inr rfl
    have hask : vsAsked m version ∈ vsEditions := by
      by_contra hc
      rw [select_search hno, candidates_none (fun h => h.elim ha hc)] at h
      cases h
    have h15 : a = c!"15.0" → vsAsked m version = b := by
      intro h15
      subst h15
      have hb : b = c!"2017" := (versionYear_of h1).symm
      subst hb
      have : ∀ e ∈ vsEditions, e = c!"2017" ∨ e = c!"2017" ++ c!"e" → e = c!"2017" := by decide
      exact this _ hask (by simpa using h2)
    simp only [decide_eq_true_eq] at h2
    rcases h2 with h2 | h2
    · rcases hname with ⟨h3, _⟩ | h3
      · exact Or.inl (by rw [h3, h2])
      · exact Or.inr ⟨by rw [h2]; exact hne, by rw [h3, h2]⟩
    · rcases hname with ⟨h3, h4 | h4⟩ | h3
      · exact absurd (by rw [h2]; simp) h4
      · exact Or.inl (by rw [h3, h15 h4])
      · exact Or.inl (by rw [h3, h2])
  · have := C92_fallback hj hno h (fun x hx hx' => hf ⟨x, hx, hx'⟩)
    rw [if_neg ha] at this
    exact Or.inl this.2.2

/-! ### The script that sets up the compilers -/

/-- **C92** The script that is run is there, and sets up a compiler that compiles for the target and
runs on this machine: one for 64-bit processors is only set up on such a machine. -/
theorem C92_setup {m : VsMachine} {v : VsVersion} {target : Str} {data : List Str}
    (h : setupScript m v target = some data) :
    ∃ dir script arg host, (script, arg, host, target) ∈ scriptCompilers ∧
      data = m.norm (m.join (dir ++ [script])) :: arg.toList ∧
      m.fileExists (m.norm (m.join (dir ++ [script]))) = true ∧ (host = c!"x64" → Is64 m) := by
  unfold setupScript at h
  rw [Option.bind_eq_some_iff] at h
  obtain ⟨d, hd, h⟩ := h
  split at h
  · rename_i hex
    cases h
    suffices hs : ∃ dir script arg host, (script, arg, host, target) ∈ scriptCompilers ∧
        data = m.norm (m.join (dir ++ [script])) :: arg.toList ∧ (host = c!"x64" → Is64 m) by
      obtain ⟨dir, script, arg, host, h1, h2, h3⟩ := hs
      refine ⟨dir, script, arg, host, h1, h2, ?_, h3⟩
      rw [h2] at hex
      exact hex
    clear hex
    unfold setupScriptInternal at hd
    split at hd
    · cases hd
    · rename_i ht
      have ht' : target = c!"x86" ∨ target = c!"x64" := by
        by_contra hc
        rw [not_or] at hc
        exact ht hc
      simp only at hd
      split at hd
      · cases hd
        rcases ht' with rfl | rfl
        · exact ⟨[_, c!"Bin"], c!"SetEnv.Cmd", some c!"/x86", c!"x86", by decide, rfl, fun h => by cases h⟩
        · exact ⟨[_, c!"Bin"], c!"SetEnv.Cmd", some c!"/x64", c!"x86", by decide, rfl, fun h => by cases h⟩
      · rw [Option.bind_eq_some_iff] at hd
        obtain ⟨path, _, hd⟩ := hd
        split at hd
        · by_cases hh : m.env c!"PROCESSOR_ARCHITECTURE" = some c!"AMD64" ∨
              m.env c!"PROCESSOR_ARCHITEW6432" = some c!"AMD64"
          · simp only [hh, if_true] at hd
            rcases ht' with rfl | rfl
            · cases hd
              exact ⟨[path, c!"VC", c!"Auxiliary", c!"Build"], c!"vcvarsall.bat", some c!"amd64_x86", c!"x64",
                by decide, rfl, fun _ => hh⟩
            · cases hd
              exact ⟨[path, c!"VC", c!"Auxiliary", c!"Build"], c!"vcvarsall.bat", some c!"amd64", c!"x64",
                by decide, rfl, fun _ => hh⟩
          · simp only [hh, if_false] at hd
            rcases ht' with rfl | rfl
            · cases hd
              exact ⟨[path, c!"VC", c!"Auxiliary", c!"Build"], c!"vcvarsall.bat", some c!"x86", c!"x86",
                by decide, rfl, fun h => by cases h⟩
            · cases hd
              exact ⟨[path, c!"VC", c!"Auxiliary", c!"Build"], c!"vcvarsall.bat", some c!"x86_amd64", c!"x86",
                by decide, rfl, fun h => by cases h⟩
        · rcases ht' with rfl | rfl
          · rw [if_pos rfl] at hd
            split at hd
            · rename_i hc
              cases hd
              exact ⟨[path, c!"VC"], c!"vcvarsall.bat", some c!"amd64_x86", c!"x64", by decide, rfl, fun _ => hc.2.2⟩
            · cases hd
              exact ⟨[path, c!"Common7", c!"Tools"], c!"vsvars32.bat", none, c!"x86", by decide, rfl,
                fun h => by cases h⟩
          · rw [if_neg (by decide)] at hd
            split at hd
            · rename_i hc
              cases hd
              exact ⟨[path, c!"VC"], c!"vcvarsall.bat", some c!"amd64", c!"x64", by decide, rfl, fun _ => hc.2⟩
            · cases hd
              exact ⟨[path, c!"VC"], c!"vcvarsall.bat", some c!"x86_amd64", c!"x86", by decide, rfl,
                fun h => by cases h⟩
  · cases h

/-- **C92** On a 64-bit machine the full editions from 2013 on use the compiler that runs as 64-bit
code (when the script is not that of the SDK). -/
theorem C92_setup_native {m : VsMachine} {v : VsVersion} {target : Str} {data : List Str}
    (h : setupScript m v target = some data) (h64 : Is64 m)
    (hname : v.shortName ∈ [c!"2013", c!"2015", c!"2017", c!"2019", c!"2022"])
    (hsdk : v.sdkBased = false ∨ m.env c!"WindowsSDKDir" = none) :
    ∃ script arg, (script, some arg, c!"x64", target) ∈ scriptCompilers ∧ data.tail = [arg] := by
  unfold setupScript at h
  rw [Option.bind_eq_some_iff] at h
  obtain ⟨d, hd, h⟩ := h
  split at h
  · cases h
    unfold setupScriptInternal at hd
    split at hd
    · cases hd
    · rename_i ht
      have ht' : target = c!"x86" ∨ target = c!"x64" := by
        by_contra hc
        rw [not_or] at hc
        exact ht hc
      have hs : (v.sdkBased && decide ((m.env c!"WindowsSDKDir").getD [] ≠ []) &&
          m.fileExists (m.norm (m.join [(m.env c!"WindowsSDKDir").getD [], c!"Bin", c!"SetEnv.Cmd"]))) = false := by
        rcases hsdk with hs | hs <;> rw [hs] <;> simp
      simp only [hs, Bool.false_eq_true, if_false] at hd
      rw [Option.bind_eq_some_iff] at hd
      obtain ⟨path, _, hd⟩ := hd
      have h64' : ((m.env c!"PROCESSOR_ARCHITECTURE" = some c!"AMD64" ∨
          m.env c!"PROCESSOR_ARCHITEW6432" = some c!"AMD64") ↔ True) := iff_true_intro h64
      simp only [h64', if_true, and_true] at hd
      have hle : strLe c!"2013" v.shortName = true ∧ ¬ v.shortName.getLast? = some 'e' := by
        have : ∀ n ∈ [c!"2013", c!"2015", c!"2017", c!"2019", c!"2022"], strLe c!"2013" n = true ∧
            ¬ n.getLast? = some 'e' := by decide
        exact this _ hname
      split at hd
      · rcases ht' with rfl | rfl
        · cases hd; exact ⟨c!"vcvarsall.bat", c!"amd64_x86", by decide, rfl⟩
        · cases hd; exact ⟨c!"vcvarsall.bat", c!"amd64", by decide, rfl⟩
      · rcases ht' with rfl | rfl
        · rw [if_pos rfl] at hd
          first | rw [if_pos hle] at hd | skip
          cases hd; exact ⟨c!"vcvarsall.bat", c!"amd64_x86", by decide, rfl⟩
        · rw [if_neg (by decide)] at hd
          first | rw [if_pos hle.2] at hd | skip
          cases hd; exact ⟨c!"vcvarsall.bat", c!"amd64", by decide, rfl⟩
  · cases h

/-! ### Examples -/

/-- A machine with Visual Studio 2013 and 2010, and all files. -/
def vsMachine : VsMachine where
  registry := fun key value =>
    if key = c!"HKLM\\Software\\Microsoft\\VisualStudio\\12.0" ∧ value = c!"InstallDir" then some c!"C:\\vs12\\ide"
    else if key = c!"HKLM\\Software\\Wow6432Node\\Microsoft\\VisualStudio\\10.0" ∧ value = c!"InstallDir" then
      some c!"C:\\vs10\\ide"
    else none
  fileExists := fun _ => true
  expressIn := fun _ => false
  join := fun l => joinWith c!"\\" l
  norm := id
  env := fun n => if n = c!"PROCESSOR_ARCHITECTURE" then some c!"AMD64" else none

theorem vsMachine_join : ∀ a l, a ≠ [] → vsMachine.join (a :: l) ≠ [] := by
  intro a l ha h
  cases l with
  | nil => exact ha h
  | cons b l =>
    have : a ++ c!"\\" ++ joinWith c!"\\" (b :: l) = [] := h
    simp at this

example : selectVersion vsMachine c!"auto" false = some
    { shortName := c!"2013", solutionVersion := c!"13.00", projectVersion := c!"12.0", flatSln := false,
      usesVcxproj := true, path := some c!"C:\\vs12\\ide\\..\\..", sdkBased := false,
      defaultToolset := some c!"v120" } := by decide +kernel

/-- The hypotheses of `C92_selected`. -/
example : vsMachine.env c!"GYP_MSVS_OVERRIDE_PATH" = none ∧ vsAsked vsMachine c!"auto" = c!"auto" ∧
    ∃ x ∈ vsSearch c!"auto", FoundAt vsMachine c!"auto" x c!"2010" c!"C:\\vs10\\ide\\..\\.." false := by
  refine ⟨by decide, by decide, (c!"10.0", c!"HKLM\\Software\\Wow6432Node\\Microsoft\\VisualStudio\\10.0", c!"InstallDir"),
    by decide +kernel, c!"2010", by decide, ?_⟩
  exact .full (m := vsMachine) _ c!"C:\\vs10\\ide" (by decide +kernel) (by decide) (by decide) (by decide)

example : (selectVersion vsMachine c!"2010" false).map (·.shortName) = some c!"2010" ∧
    (selectVersion vsMachine c!"2015" true).map (·.shortName) = some c!"2015" ∧
    selectVersion vsMachine c!"2015" false = none ∧ selectVersion vsMachine c!"2011" true = none := by
  decide +kernel

/-- What `node-gyp configure` sets. -/
example : (selectVersion { vsMachine with env := fun n =>
      if n = c!"GYP_MSVS_OVERRIDE_PATH" then some c!"C:\\vs17" else if n = c!"GYP_MSVS_VERSION" then some c!"2015"
      else none } c!"auto" true).map (fun v => (v.shortName, v.path, v.sdkBased)) =
    some (c!"2015", some c!"C:\\vs17", true) := by decide +kernel

example : ((selectVersion vsMachine c!"2013" false).bind fun v => setupScript vsMachine v c!"x86") =
    some [c!"C:\\vs12\\ide\\..\\..\\VC\\vcvarsall.bat", c!"amd64_x86"] := by decide +kernel

/-! ### What goes wrong -/

/-- Visual Studio 2019 in full, where the registry also names its directory under `SxS`: there is no
edition `2019e`, so that the search ends with `KeyError`, also when another version is installed and
comes first (MSVSVersion.py:516-522, 424). -/
theorem C92_sxs :
    let m := { vsMachine with registry := fun key value =>
      if key = c!"HKLM\\Software\\Microsoft\\VisualStudio\\16.0" ∧ value = c!"InstallDir" then some c!"C:\\vs16\\ide"
      else if key = c!"HKLM\\Software\\Microsoft\\VisualStudio\\SxS\\VS7" ∧ value = c!"16.0" then some c!"C:\\vs16"
      else none }
    (∃ x ∈ vsSearch c!"2019", FoundAt m c!"2019" x c!"2019" c!"C:\\vs16\\ide\\..\\.." false) ∧
    selectVersion m c!"2019" true = none ∧ selectVersion m c!"auto" true = none := by
  refine ⟨⟨(c!"16.0", c!"HKLM\\Software\\Microsoft\\VisualStudio\\16.0", c!"InstallDir"), by decide +kernel,
    c!"2019", by decide, ?_⟩, by decide +kernel, by decide +kernel⟩
  exact .full (m := { vsMachine with registry := _ }) _ c!"C:\\vs16\\ide" (by decide +kernel) (by decide) (by decide)
    (by decide)

/-- The environment wins over the version that the caller asks for, when it names a path
(MSVSVersion.py:555-562). -/
theorem C92_override_wins :
    (selectVersion { vsMachine with env := fun n =>
      if n = c!"GYP_MSVS_OVERRIDE_PATH" then some c!"C:\\vs17" else if n = c!"GYP_MSVS_VERSION" then some c!"2015"
      else none } c!"2019" true).map (·.shortName) = some c!"2015" := by decide +kernel

/-- Versions of 2012 are preferred least when none is asked for (MSVSVersion.py:539). -/
theorem C92_2012_last : vsPreferred.getLast? = some c!"11.0" ∧
    (selectVersion { vsMachine with registry := fun key value =>
      if (key = c!"HKLM\\Software\\Microsoft\\VisualStudio\\11.0" ∨
          key = c!"HKLM\\Software\\Microsoft\\VisualStudio\\8.0") ∧ value = c!"InstallDir" then some c!"C:\\vs"
      else none } c!"auto" true).map (·.shortName) = some c!"2005" := by
  refine ⟨by decide, by decide +kernel⟩

end Gyp
