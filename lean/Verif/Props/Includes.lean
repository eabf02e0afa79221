import Verif.Model.Includes
import Verif.Model.Load
import Verif.Spec.Includes
import Verif.Props.Load
import Verif.Props.MergeDicts
/-
C67: a build file is completed by the files it includes, whatever has been read before.
-/
namespace Gyp
open Spec

/-- The sources as the loader sees them; `T` are the build files loaded before. -/
def sourcesOf (w : IncWorld) (T : List (Str × Dict)) : Sources where
  content p := (w.read p).join
  worked := aget T
  merge p q d x := (MergeDicts ⟨w.cwd, w.pathSections, p, q⟩ d x).toOption
  locate := includePath

theorem strItems_some : ∀ {l : List Val} {names : List Str}, strItems l = some names →
    l = names.map .str
  | [], names, h => by simp [strItems] at h; subst h; rfl
  | .str s :: l, names, h => by
    simp only [strItems, Option.map_eq_some_iff] at h
    obtain ⟨r, hr, rfl⟩ := h
    rw [strItems_some hr]; rfl
  | .int _ :: _, _, h => by simp [strItems] at h
  | .list _ :: _, _, h => by simp [strItems] at h
  | .dict _ :: _, _, h => by simp [strItems] at h
  | .other :: _, _, h => by simp [strItems] at h

theorem strItems_map : ∀ (names : List Str), strItems (names.map .str) = some names
  | [] => rfl
  | s :: l => by simp [strItems, strItems_map l]

theorem includeNames_asks {p : Str} {d : Dict} {names : List Str} :
    includeNames p d = .ok names ↔ Asks d names := by
  unfold includeNames
  constructor
  · intro h
    cases e : Dict.get? d c!"includes" with
    | none => rw [e] at h; cases h; exact .nothing e
    | some v =>
      rw [e] at h
      cases v with
      | str s => cases h; exact .text s e
      | int i => cases h
      | list l =>
        simp only at h
        cases hs : strItems l with
        | none => rw [hs] at h; cases h
        | some ns =>
          rw [hs] at h; cases h
          exact .names _ (by rw [e, strItems_some hs])
      | dict t => cases h; exact .table t e
      | other => cases h
  · intro h
    cases h with
    | nothing e => rw [e]
    | names l e => rw [e]; simp [strItems_map]
    | text s e => rw [e]
    | table t e => rw [e]; rfl

theorem skip_true {d : Dict} : skipIncludes d = some true ↔ Skips d := by
  unfold skipIncludes
  constructor
  · intro h
    cases e : Dict.get? d c!"skip_includes" with
    | none => rw [e] at h; cases h
    | some v =>
      rw [e] at h
      cases v with
      | str s =>
        cases s with
        | nil => simp at h
        | cons c s => exact .text c s e
      | int i =>
        simp only [Option.some.injEq, decide_eq_true_eq] at h
        exact .number i h e
      | list l =>
        cases l with
        | nil => simp at h
        | cons v l => exact .items v l e
      | dict t =>
        cases t with
        | nil => simp at h
        | cons v l => exact .table v l e
      | other => cases h
  · intro h
    cases h with
    | text c s e => rw [e]; rfl
    | number i hi e => rw [e]; simp [hi]
    | items v l e => rw [e]; rfl
    | table v l e => rw [e]; rfl

/-! ### What the loader has done is right -/

/-- The build files loaded before are there; every other finished file is what its includes
make of it, and its list of included files holds exactly these, all of them finished; files
being loaded are not finished. -/
structure IncSound (w : IncWorld) (T : List (Str × Dict)) (st : IncState) : Prop where
  old : ∀ p d, aget T p = some d → aget st.data p = some d
  done : ∀ p d, aget T p = none → aget st.data p = some d → ∃ u, CompletesTo (sourcesOf w T) (.file p []) (.dict d) u ∧
    aget st.aux p = some u ∧ ∀ q ∈ u, (aget st.data q).isSome
  apart : ∀ p ∈ st.opened, aget st.data p = none

theorem IncSound.gives {w : IncWorld} {T : List (Str × Dict)} {st : IncState}
    (h : IncSound w T st) {p : Str} {d : Dict} (hd : aget st.data p = some d) :
    ∃ u, CompletesTo (sourcesOf w T) (.file p []) (.dict d) u := by
  cases e : aget T p with
  | none =>
    obtain ⟨u, h1, -, -⟩ := h.done p d e hd
    exact ⟨u, h1⟩
  | some x =>
    have := h.old p x e
    rw [hd] at this; cases this
    exact ⟨[], .worked e⟩

theorem IncSound.fresh {w : IncWorld} {T : List (Str × Dict)} {st : IncState}
    (h : IncSound w T st) {p : Str} (hd : aget st.data p = none) : aget T p = none := by
  cases e : aget T p with
  | none => rfl
  | some x => have := h.old p x e; rw [hd] at this; cases this

/-- Work on file `path` that merges in the files `u`. -/
structure IncStep (w : IncWorld) (T : List (Str × Dict)) (path : Str) (u : List Str) (st st' : IncState) : Prop where
  sound : IncSound w T st'
  opened : st'.opened = st.opened
  mono : ∀ p d, aget st.data p = some d → aget st'.data p = some d
  kept : ∀ p, p ≠ path → p ∈ st.opened → aget st'.aux p = aget st.aux p
  noted : ∀ a, aget st.aux path = some a → aget st'.aux path = some (a ++ u)
  filed : ∀ q ∈ u, (aget st'.data q).isSome

theorem IncStep.refl {w : IncWorld} {T : List (Str × Dict)} {path : Str} {st : IncState} (h : IncSound w T st) :
    IncStep w T path [] st st :=
  ⟨h, rfl, fun _ _ h => h, fun _ _ _ => rfl, fun a h => by simpa using h, by simp⟩

theorem IncStep.trans {w : IncWorld} {T : List (Str × Dict)} {path : Str} {u1 u2 : List Str} {st st1 st2 : IncState}
    (h1 : IncStep w T path u1 st st1) (h2 : IncStep w T path u2 st1 st2) :
    IncStep w T path (u1 ++ u2) st st2 where
  sound := h2.sound
  opened := h2.opened.trans h1.opened
  mono p d h := h2.mono p d (h1.mono p d h)
  kept p hp ho := (h2.kept p hp (h1.opened ▸ ho)).trans (h1.kept p hp ho)
  noted a h := by rw [← List.append_assoc]; exact h2.noted _ (h1.noted a h)
  filed q hq := by
    rcases List.mem_append.mp hq with hq | hq
    · obtain ⟨d, hd⟩ := Option.isSome_iff_exists.mp (h1.filed q hq)
      rw [h2.mono q d hd]; rfl
    · exact h2.filed q hq

/-- The result of loading an included file. -/
structure IncOne (w : IncWorld) (T : List (Str × Dict)) (path : Str) (d : Dict) (st st' : IncState) : Prop where
  sound : IncSound w T st'
  opened : st'.opened = st.opened
  mono : ∀ p d, aget st.data p = some d → aget st'.data p = some d
  kept : ∀ p ∈ st.opened, aget st'.aux p = aget st.aux p
  there : aget st'.data path = some d

theorem note_sound {w : IncWorld} {T : List (Str × Dict)} {st : IncState} (h : IncSound w T st) {path : Str}
    (ho : path ∈ st.opened) (incl : Str) : IncSound w T (noteIncluded st path incl) where
  old := h.old
  done p d ht hd := by
    obtain ⟨u, h1, h2, h3⟩ := h.done p d ht hd
    refine ⟨u, h1, ?_, h3⟩
    have : p ≠ path := by
      rintro rfl
      simp only [noteIncluded] at hd
      rw [h.apart p ho] at hd; cases hd
    simp only [noteIncluded]
    rw [aget_aset, if_neg this, h2]
  apart := h.apart

theorem note_step {w : IncWorld} {T : List (Str × Dict)} {st st' : IncState} {path incl : Str}
    (ho : path ∈ st.opened) {x : Dict} (h1 : IncOne w T incl x (noteIncluded st path incl) st') :
    IncStep w T path [incl] st st' where
  sound := h1.sound
  opened := h1.opened
  mono := h1.mono
  kept p hp hpo := by
    rw [h1.kept p hpo]
    simp only [noteIncluded]
    rw [aget_aset, if_neg hp]
  noted a ha := by
    rw [h1.kept path ho]
    simp only [noteIncluded]
    rw [aget_aset, if_pos rfl, ha]; rfl
  filed q hq := by
    rw [List.mem_singleton] at hq
    rw [hq, h1.there]; rfl

/-- Opening a file keeps the tables right. -/
theorem open_sound {w : IncWorld} {T : List (Str × Dict)} {st : IncState} (h : IncSound w T st) {path : Str}
    (hd : aget st.data path = none) :
    IncSound w T { st with aux := aset st.aux path [], opened := path :: st.opened } where
  old := h.old
  done p d ht hp := by
    obtain ⟨u, h1, h2, h3⟩ := h.done p d ht hp
    refine ⟨u, h1, ?_, h3⟩
    have : p ≠ path := by rintro rfl; rw [hd] at hp; cases hp
    simp only
    rw [aget_aset, if_neg this, h2]
  apart p hp := by
    rcases List.mem_cons.mp hp with rfl | hp
    · exact hd
    · exact h.apart p hp

theorem close_one {w : IncWorld} {T : List (Str × Dict)} {st st2 : IncState} {path : Str} {d : Dict}
    {u : List Str} (hd : aget st.data path = none) (hno : path ∉ st.opened)
    (hs : IncStep w T path u { st with aux := aset st.aux path [], opened := path :: st.opened } st2)
    (hg : CompletesTo (sourcesOf w T) (.file path []) (.dict d) u) :
    IncOne w T path d st { st2 with data := aset st2.data path d, opened := st.opened } where
  sound :=
    { old := by
        intro p e he
        have h1 := hs.sound.old p e he
        have : p ≠ path := by
          rintro rfl
          have h2 := hs.sound.apart p (by rw [hs.opened]; simp)
          rw [h2] at h1; cases h1
        simp only
        rw [aget_aset, if_neg this]; exact h1
      done := by
        intro p e ht he
        simp only at he ⊢
        rw [aget_aset] at he
        by_cases hp : p = path
        · subst hp
          rw [if_pos rfl] at he; cases he
          refine ⟨u, hg, ?_, ?_⟩
          · have := hs.noted [] (by simp only; rw [aget_aset, if_pos rfl])
            simpa using this
          · intro q hq
            rw [aget_aset]
            by_cases hq' : q = p
            · rw [if_pos hq']; rfl
            · rw [if_neg hq']; exact hs.filed q hq
        · rw [if_neg hp] at he
          obtain ⟨u', h1, h2, h3⟩ := hs.sound.done p e ht he
          refine ⟨u', h1, h2, ?_⟩
          intro q hq
          rw [aget_aset]
          by_cases hq' : q = path
          · rw [if_pos hq']; rfl
          · rw [if_neg hq']; exact h3 q hq
      apart := by
        intro p hp
        simp only at hp ⊢
        have : p ≠ path := by rintro rfl; exact hno hp
        rw [aget_aset, if_neg this]
        exact hs.sound.apart p (by rw [hs.opened]; exact List.mem_cons_of_mem _ hp) }
  opened := rfl
  mono p e he := by
    have : p ≠ path := by rintro rfl; rw [hd] at he; cases he
    simp only
    rw [aget_aset, if_neg this]
    exact hs.mono p e he
  kept p hp := by
    have : p ≠ path := by rintro rfl; exact hno hp
    simp only
    rw [hs.kept p this (List.mem_cons_of_mem _ hp)]
    simp only
    rw [aget_aset, if_neg this]
  there := by simp only; rw [aget_aset, if_pos rfl]

/-- The five loops at one depth. -/
structure IncRight (w : IncWorld) (T : List (Str × Dict)) (n : Nat) : Prop where
  one : ∀ st path st' d, IncSound w T st → LoadOneBuildFile w n st path [] = .ok (st', d) →
    IncOne w T path d st st'
  dict : ∀ st path d extra st' d', IncSound w T st → path ∈ st.opened →
    LoadBuildFileIncludesIntoDict w n st path d extra = .ok (st', d') →
    ∃ u, CompletesTo (sourcesOf w T) (.dict path extra d) (.dict d') u ∧ IncStep w T path u st st'
  merging : ∀ incs st path d st' d', IncSound w T st → path ∈ st.opened →
    mergeIncludes w n incs st path d = .ok (st', d') →
    ∃ u, CompletesTo (sourcesOf w T) (.merging path incs d) (.dict d') u ∧ IncStep w T path u st st'
  entries : ∀ st path d st' d', IncSound w T st → path ∈ st.opened →
    includesInEntries w n st path d = .ok (st', d') →
    ∃ u, CompletesTo (sourcesOf w T) (.entries path d) (.dict d') u ∧ IncStep w T path u st st'
  value : ∀ st path v st' v', IncSound w T st → path ∈ st.opened →
    includesInValue w n st path v = .ok (st', v') →
    ∃ u, CompletesTo (sourcesOf w T) (.value path v) v' u ∧ IncStep w T path u st st'
  items : ∀ st path l st' l', IncSound w T st → path ∈ st.opened →
    LoadBuildFileIncludesIntoList w n st path l = .ok (st', l') →
    ∃ u, CompletesTo (sourcesOf w T) (.items path l) (.list l') u ∧ IncStep w T path u st st'

theorem content_of_read {w : IncWorld} {T : List (Str × Dict)} {p : Str} {v : Val} (h : w.read p = some (some v)) :
    (sourcesOf w T).content p = some v := by
  simp [sourcesOf, h]

theorem incRight (w : IncWorld) (T : List (Str × Dict)) : ∀ n, IncRight w T n
  | 0 => by
    constructor
    · intro st path st' d _ h; simp [LoadOneBuildFile] at h
    · intro st path d extra st' d' _ _ h; simp [LoadBuildFileIncludesIntoDict] at h
    · intro incs st path d st' d' _ _ h; simp [mergeIncludes] at h
    · intro st path d st' d' _ _ h; simp [includesInEntries] at h
    · intro st path v st' v' _ _ h; simp [includesInValue] at h
    · intro st path l st' l' _ _ h; simp [LoadBuildFileIncludesIntoList] at h
  | n + 1 => by
    have ih := incRight w T n
    constructor
    · intro st path st' d hs h
      unfold LoadOneBuildFile at h
      cases hd : aget st.data path with
      | some e =>
        rw [hd] at h; cases h
        exact ⟨hs, rfl, fun _ _ h => h, fun _ _ => rfl, hd⟩
      | none =>
        rw [hd] at h
        simp only at h
        by_cases ho : path ∈ st.opened
        · rw [if_pos ho] at h; cases h
        · rw [if_neg ho] at h
          cases hr : w.read path with
          | none => rw [hr] at h; cases h
          | some o =>
            cases o with
            | none => rw [hr] at h; cases h
            | some v =>
              rw [hr] at h
              cases v with
              | dict e =>
                simp only at h
                have hos := open_sound hs hd
                cases hk : skipIncludes e with
                | none => rw [hk] at h; cases h
                | some b =>
                  rw [hk] at h
                  cases b with
                  | true =>
                    cases h
                    exact close_one hd ho (IncStep.refl hos)
                      (.skipped (hs.fresh hd) (content_of_read hr) (skip_true.mp hk))
                  | false =>
                    simp only at h
                    split at h
                    · cases h
                    · rename_i st2 d2 he
                      cases h
                      obtain ⟨u, hg, hst⟩ := ih.dict _ path e [] st2 _ hos (by simp) he
                      refine close_one hd ho hst (.file (hs.fresh hd) (content_of_read hr) ?_ hg)
                      intro hsk
                      rw [skip_true.mpr hsk] at hk; cases hk
              | str s => cases h
              | int s => cases h
              | list s => cases h
              | other => cases h
    · intro st path d extra st' d' hs ho h
      unfold LoadBuildFileIncludesIntoDict at h
      split at h
      · cases h
      · rename_i names hn
        split at h
        · cases h
        · rename_i st1 d1 he
          obtain ⟨u1, g1, s1⟩ := ih.merging _ st path _ st1 d1 hs ho he
          obtain ⟨u2, g2, s2⟩ := ih.entries st1 path d1 st' d' s1.sound (s1.opened ▸ ho) h
          exact ⟨u1 ++ u2, .dict (includeNames_asks.mp hn) g1 g2, s1.trans s2⟩
    · intro incs st path d st' d' hs ho h
      cases incs with
      | nil =>
        unfold mergeIncludes at h; cases h
        exact ⟨[], .mergedAll, IncStep.refl hs⟩
      | cons q rest =>
        unfold mergeIncludes at h
        split at h
        · cases h
        · rename_i st1 x he
          split at h
          · cases h
          · rename_i d1 hm
            have h1 := ih.one _ q st1 x (note_sound hs ho q) he
            have s1 := note_step ho h1
            obtain ⟨u, g, s2⟩ := ih.merging rest st1 path d1 st' d' s1.sound (s1.opened ▸ ho) h
            obtain ⟨u', gq⟩ := h1.sound.gives h1.there
            refine ⟨q :: u, .mergeOne gq ?_ g, s1.trans s2⟩
            simp [sourcesOf, hm, Except.toOption]
    · intro st path d st' d' hs ho h
      cases d with
      | nil =>
        unfold includesInEntries at h; cases h
        exact ⟨[], .noEntries, IncStep.refl hs⟩
      | cons e rest =>
        obtain ⟨k, v⟩ := e
        unfold includesInEntries at h
        split at h
        · cases h
        · rename_i st1 v1 he
          split at h
          · cases h
          · rename_i st2 r2 hr
            cases h
            obtain ⟨u1, g1, s1⟩ := ih.value st path v st1 v1 hs ho he
            obtain ⟨u2, g2, s2⟩ := ih.entries st1 path rest _ r2 s1.sound (s1.opened ▸ ho) hr
            exact ⟨u1 ++ u2, .entry g1 g2, s1.trans s2⟩
    · intro st path v st' v' hs ho h
      cases v with
      | dict d =>
        unfold includesInValue at h
        split at h
        · cases h
        · rename_i st1 d1 he
          cases h
          obtain ⟨u, g, s⟩ := ih.dict st path d [] _ d1 hs ho he
          exact ⟨u, .inDict g, s⟩
      | list l =>
        unfold includesInValue at h
        split at h
        · cases h
        · rename_i st1 l1 he
          cases h
          obtain ⟨u, g, s⟩ := ih.items st path l _ l1 hs ho he
          exact ⟨u, .inList g, s⟩
      | str s =>
        unfold includesInValue at h; cases h
        exact ⟨[], .plain (by simp) (by simp), IncStep.refl hs⟩
      | int s =>
        unfold includesInValue at h; cases h
        exact ⟨[], .plain (by simp) (by simp), IncStep.refl hs⟩
      | other =>
        unfold includesInValue at h; cases h
        exact ⟨[], .plain (by simp) (by simp), IncStep.refl hs⟩
    · intro st path l st' l' hs ho h
      cases l with
      | nil =>
        unfold LoadBuildFileIncludesIntoList at h; cases h
        exact ⟨[], .noItems, IncStep.refl hs⟩
      | cons v rest =>
        unfold LoadBuildFileIncludesIntoList at h
        split at h
        · cases h
        · rename_i st1 v1 he
          split at h
          · cases h
          · rename_i st2 r2 hr
            cases h
            obtain ⟨u1, g1, s1⟩ := ih.value st path v st1 v1 hs ho he
            obtain ⟨u2, g2, s2⟩ := ih.items st1 path rest _ r2 s1.sound (s1.opened ▸ ho) hr
            exact ⟨u1 ++ u2, .item g1 g2, s1.trans s2⟩

/-! ### One result -/

theorem asks_unique {d : Dict} {a b : List Str} (ha : Asks d a) (hb : Asks d b) : a = b := by
  have h1 := (includeNames_asks (p := [])).mpr ha
  have h2 := (includeNames_asks (p := [])).mpr hb
  rw [h1] at h2
  exact Except.ok.inj h2

/-- A part has one completion. -/
theorem gives_unique {S : Sources} {part : Part} {v : Val} {u : List Str} (h : CompletesTo S part v u) :
    ∀ {v' u'}, CompletesTo S part v' u' → v' = v ∧ u' = u := by
  induction h with
  | worked hw =>
    intro v' u' h'
    cases h' with
    | worked hw' => rw [hw] at hw'; cases hw'; exact ⟨rfl, rfl⟩
    | skipped hw' => rw [hw] at hw'; cases hw'
    | file hw' => rw [hw] at hw'; cases hw'
  | skipped hw hc hk =>
    intro v' u' h'
    cases h' with
    | worked hw' => rw [hw] at hw'; cases hw'
    | skipped hw' hc' hk' => rw [hc] at hc'; cases hc'; exact ⟨rfl, rfl⟩
    | file hw' hc' hk' _ => rw [hc] at hc'; cases hc'; exact absurd hk hk'
  | file hw hc hk hg ih =>
    intro v' u' h'
    cases h' with
    | worked hw' => rw [hw] at hw'; cases hw'
    | skipped hw' hc' hk' => rw [hc] at hc'; cases hc'; exact absurd hk' hk
    | file hw' hc' hk' hg' => rw [hc] at hc'; cases hc'; exact ih hg'
  | dict ha h1 h2 ih1 ih2 =>
    intro v' u' h'
    cases h' with
    | dict ha' h1' h2' =>
      cases asks_unique ha ha'
      obtain ⟨e1, e2⟩ := ih1 h1'
      cases e1; cases e2
      obtain ⟨e1, e2⟩ := ih2 h2'
      cases e1; cases e2
      exact ⟨rfl, rfl⟩
  | mergedAll => intro v' u' h'; cases h'; exact ⟨rfl, rfl⟩
  | mergeOne h1 hm h2 ih1 ih2 =>
    intro v' u' h'
    cases h' with
    | mergeOne h1' hm' h2' =>
      obtain ⟨e1, e2⟩ := ih1 h1'
      cases e1; cases e2
      rw [hm] at hm'; cases hm'
      obtain ⟨e1, e2⟩ := ih2 h2'
      cases e1; cases e2
      exact ⟨rfl, rfl⟩
  | noEntries => intro v' u' h'; cases h'; exact ⟨rfl, rfl⟩
  | entry h1 h2 ih1 ih2 =>
    intro v' u' h'
    cases h' with
    | entry h1' h2' =>
      obtain ⟨e1, e2⟩ := ih1 h1'
      cases e1; cases e2
      obtain ⟨e1, e2⟩ := ih2 h2'
      cases e1; cases e2
      exact ⟨rfl, rfl⟩
  | inDict h1 ih1 =>
    intro v' u' h'
    cases h' with
    | inDict h1' => exact ih1 h1'
    | plain h1' h2' => exact absurd rfl (h1' _)
  | inList h1 ih1 =>
    intro v' u' h'
    cases h' with
    | inList h1' => exact ih1 h1'
    | plain h1' h2' => exact absurd rfl (h2' _)
  | plain h1 h2 =>
    intro v' u' h'
    cases h' with
    | inDict h1' => exact absurd rfl (h1 _)
    | inList h1' => exact absurd rfl (h2 _)
    | plain h1' h2' => exact ⟨rfl, rfl⟩
  | noItems => intro v' u' h'; cases h'; exact ⟨rfl, rfl⟩
  | item h1 h2 ih1 ih2 =>
    intro v' u' h'
    cases h' with
    | item h1' h2' =>
      obtain ⟨e1, e2⟩ := ih1 h1'
      cases e1; cases e2
      obtain ⟨e1, e2⟩ := ih2 h2'
      cases e1; cases e2
      exact ⟨rfl, rfl⟩

/-! ### The loader finds it -/

/-- The files a completion uses do not include themselves. -/
theorem gives_acc {S : Sources} {part : Part} {v : Val} {u : List Str} (h : CompletesTo S part v u) :
    ∀ r ∈ u, Acc (fun a b => Includes S b a) r := by
  induction h with
  | worked _ => simp
  | skipped _ _ _ => simp
  | file _ _ _ _ ih => exact ih
  | dict _ _ _ ih1 ih2 =>
    intro r hr
    rcases List.mem_append.mp hr with hr | hr
    · exact ih1 r hr
    · exact ih2 r hr
  | mergedAll => simp
  | mergeOne h1 _ _ ih1 ih2 =>
    intro r hr
    rcases List.mem_cons.mp hr with rfl | hr
    · constructor
      rintro y ⟨v, u, hg, hy⟩
      rw [(gives_unique h1 hg).2] at hy
      exact ih1 y hy
    · exact ih2 r hr
  | noEntries => simp
  | entry _ _ ih1 ih2 =>
    intro r hr
    rcases List.mem_append.mp hr with hr | hr
    · exact ih1 r hr
    · exact ih2 r hr
  | inDict _ ih => exact ih
  | inList _ ih => exact ih
  | plain _ _ => simp
  | noItems => simp
  | item _ _ ih1 ih2 =>
    intro r hr
    rcases List.mem_append.mp hr with hr | hr
    · exact ih1 r hr
    · exact ih2 r hr

/-- A file that has a completion does not include itself, not even through other files. -/
theorem gives_acyclic {S : Sources} {p : Str} {v : Val} {u : List Str}
    (h : CompletesTo S (.file p []) v u) {r : Str} (hr : r ∈ u) :
    ¬ Relation.ReflTransGen (Includes S) r p := by
  intro hp
  have hacc : Acc (fun a b => Includes S b a) p := by
    constructor
    rintro y ⟨v', u', hg, hy⟩
    rw [(gives_unique h hg).2] at hy
    exact gives_acc h y hy
  have h2 : Relation.TransGen (Includes S) p p := .head' ⟨v, u, h, hr⟩ hp
  have h3 := acc_irrefl hacc.transGen
  refine h3 ?_
  have := Relation.transGen_swap (r := Includes S) (a := p) (b := p)
  exact this.mpr h2

/-- Nothing that is used is being loaded. -/
def IncClear (w : IncWorld) (T : List (Str × Dict)) (u : List Str) (opened : List Str) : Prop :=
  ∀ r ∈ u, ∀ q, Relation.ReflTransGen (Includes (sourcesOf w T)) r q → q ∉ opened

theorem IncClear.left {w : IncWorld} {T : List (Str × Dict)} {u1 u2 o : List Str} (h : IncClear w T (u1 ++ u2) o) :
    IncClear w T u1 o := fun r hr => h r (List.mem_append_left _ hr)

theorem IncClear.right {w : IncWorld} {T : List (Str × Dict)} {u1 u2 o : List Str} (h : IncClear w T (u1 ++ u2) o) :
    IncClear w T u2 o := fun r hr => h r (List.mem_append_right _ hr)

/-- With enough depth the loader computes the completion of a part. -/
def IncRuns (w : IncWorld) (T : List (Str × Dict)) (v : Val) (u : List Str) : Part → Prop
  | .file p extra => extra = [] → ∀ st, IncSound w T st → p ∉ st.opened → IncClear w T u st.opened →
      ∃ d, v = .dict d ∧ ∃ N st', ∀ n, N ≤ n → LoadOneBuildFile w n st p [] = .ok (st', d)
  | .dict p extra d => ∀ st, IncSound w T st → p ∈ st.opened → IncClear w T u st.opened →
      ∃ d', v = .dict d' ∧ ∃ N st', ∀ n, N ≤ n →
        LoadBuildFileIncludesIntoDict w n st p d extra = .ok (st', d')
  | .merging p incs d => ∀ st, IncSound w T st → p ∈ st.opened → IncClear w T u st.opened →
      ∃ d', v = .dict d' ∧ ∃ N st', ∀ n, N ≤ n → mergeIncludes w n incs st p d = .ok (st', d')
  | .entries p d => ∀ st, IncSound w T st → p ∈ st.opened → IncClear w T u st.opened →
      ∃ d', v = .dict d' ∧ ∃ N st', ∀ n, N ≤ n → includesInEntries w n st p d = .ok (st', d')
  | .value p x => ∀ st, IncSound w T st → p ∈ st.opened → IncClear w T u st.opened →
      ∃ N st', ∀ n, N ≤ n → includesInValue w n st p x = .ok (st', v)
  | .items p l => ∀ st, IncSound w T st → p ∈ st.opened → IncClear w T u st.opened →
      ∃ l', v = .list l' ∧ ∃ N st', ∀ n, N ≤ n →
        LoadBuildFileIncludesIntoList w n st p l = .ok (st', l')

theorem merge_of_toOption {w : IncWorld} {T : List (Str × Dict)} {p q : Str} {d x d1 : Dict}
    (h : (sourcesOf w T).merge p q d x = some d1) :
    MergeDicts ⟨w.cwd, w.pathSections, p, q⟩ d x = .ok d1 := by
  simp only [sourcesOf] at h
  cases e : MergeDicts ⟨w.cwd, w.pathSections, p, q⟩ d x with
  | error _ => rw [e] at h; cases h
  | ok y => rw [e] at h; simp only [Except.toOption, Option.some.injEq] at h; rw [h]

theorem read_of_content {w : IncWorld} {T : List (Str × Dict)} {p : Str} {v : Val}
    (h : (sourcesOf w T).content p = some v) : w.read p = some (some v) := by
  simp only [sourcesOf] at h
  cases e : w.read p with
  | none => rw [e] at h; cases h
  | some o => cases o with
    | none => rw [e] at h; cases h
    | some y => rw [e] at h; simp only [Option.join_some, Option.some.injEq] at h; rw [h]

/-- No file has a `skip_includes` of a type outside the model. -/
def PlainSkips (w : IncWorld) : Prop :=
  ∀ p d, w.read p = some (some (.dict d)) → ∀ v, Dict.get? d c!"skip_includes" = some v → v ≠ .other

theorem skip_false {w : IncWorld} (hw : PlainSkips w) {p : Str} {d : Dict}
    (hr : w.read p = some (some (.dict d))) (h : ¬ Skips d) : skipIncludes d = some false := by
  cases e : skipIncludes d with
  | some b => cases b with
    | false => rfl
    | true => exact absurd (skip_true.mp e) h
  | none =>
    exfalso
    unfold skipIncludes at e
    cases e' : Dict.get? d c!"skip_includes" with
    | none => rw [e'] at e; cases e
    | some v =>
      have := hw p d hr v e'
      rw [e'] at e
      cases v <;> first | exact this rfl | cases e

theorem incRuns (w : IncWorld) (T : List (Str × Dict)) (hw : PlainSkips w) {part : Part} {v : Val} {u : List Str}
    (h : CompletesTo (sourcesOf w T) part v u) : IncRuns w T v u part := by
  induction h with
  | @worked p d ht =>
    intro _ st hs ho hcl
    refine ⟨d, rfl, 1, st, ?_⟩
    intro n hn
    obtain ⟨n, rfl⟩ : ∃ m, n = m + 1 := ⟨n - 1, by omega⟩
    unfold LoadOneBuildFile
    rw [hs.old p d ht]
  | @skipped p extra d ht hc hk =>
    rintro rfl st hs ho hcl
    cases hd : aget st.data p with
    | some e =>
      obtain ⟨u', hg⟩ := hs.gives hd
      refine ⟨d, rfl, 1, st, ?_⟩
      intro n hn
      obtain ⟨n, rfl⟩ : ∃ m, n = m + 1 := ⟨n - 1, by omega⟩
      unfold LoadOneBuildFile
      rw [hd]
      have := (gives_unique (.skipped ht hc hk) hg).1
      cases this; rfl
    | none =>
      refine ⟨d, rfl, 1, ⟨aset st.data p d, aset st.aux p [], st.opened⟩, ?_⟩
      intro n hn
      obtain ⟨n, rfl⟩ : ∃ m, n = m + 1 := ⟨n - 1, by omega⟩
      unfold LoadOneBuildFile
      rw [hd]
      simp only
      rw [if_neg ho, read_of_content hc]
      simp only
      rw [skip_true.mpr hk]
  | @file p extra d v u ht hc hk hg ih =>
    rintro rfl st hs ho hcl
    have hfile : CompletesTo (sourcesOf w T) (.file p []) v u := .file ht hc hk hg
    cases hd : aget st.data p with
    | some e =>
      obtain ⟨u', hg'⟩ := hs.gives hd
      have := (gives_unique hfile hg').1
      refine ⟨e, this.symm, 1, st, ?_⟩
      intro n hn
      obtain ⟨n, rfl⟩ : ∃ m, n = m + 1 := ⟨n - 1, by omega⟩
      unfold LoadOneBuildFile
      rw [hd]
    | none =>
      obtain ⟨d', hv, N, st', hN⟩ := ih _ (open_sound hs hd) (by simp) (by
        intro r hr q hq hm
        rcases List.mem_cons.mp hm with rfl | hm
        · exact gives_acyclic hfile hr hq
        · exact hcl r hr q hq hm)
      refine ⟨d', hv, N + 1, ⟨aset st'.data p d', st'.aux, st.opened⟩, ?_⟩
      intro n hn
      obtain ⟨n, rfl⟩ : ∃ m, n = m + 1 := ⟨n - 1, by omega⟩
      unfold LoadOneBuildFile
      rw [hd]
      simp only
      rw [if_neg ho, read_of_content hc]
      simp only
      rw [skip_false hw (read_of_content hc) hk, hN n (by omega)]
  | @dict p extra d names d1 v u1 u2 ha h1 h2 ih1 ih2 =>
    intro st hs ho hcl
    obtain ⟨d', hv, N, st1, hN⟩ := ih1 st hs ho hcl.left
    cases hv
    obtain ⟨_, _, s1⟩ := (incRight w T N).merging _ st p _ st1 d1 hs ho (hN N le_rfl)
    obtain ⟨d2, hv2, N2, st2, hN2⟩ := ih2 st1 s1.sound (s1.opened ▸ ho) (s1.opened ▸ hcl.right)
    refine ⟨d2, hv2, max N N2 + 1, st2, ?_⟩
    intro n hn
    obtain ⟨n, rfl⟩ : ∃ m, n = m + 1 := ⟨n - 1, by omega⟩
    unfold LoadBuildFileIncludesIntoDict
    rw [includeNames_asks.mpr ha]
    simp only
    have e1 := hN n (by omega)
    simp only [sourcesOf] at e1
    rw [e1]
    exact hN2 n (by omega)
  | @mergedAll p d =>
    intro st hs ho hcl
    refine ⟨d, rfl, 1, st, ?_⟩
    intro n hn
    obtain ⟨n, rfl⟩ : ∃ m, n = m + 1 := ⟨n - 1, by omega⟩
    rfl
  | @mergeOne p q rest d x d1 v u u' h1 hm h2 ih1 ih2 =>
    intro st hs ho hcl
    have hq : q ∉ st.opened := hcl q (by simp) q .refl
    obtain ⟨x', hv, N, st1, hN⟩ := ih1 rfl (noteIncluded st p q) (note_sound hs ho q) hq (by
      intro r hr y hy
      exact hcl q (by simp) y (.head ⟨_, _, h1, hr⟩ hy))
    cases hv
    have h3 := (incRight w T N).one _ q st1 x (note_sound hs ho q) (hN N le_rfl)
    have s1 := note_step ho h3
    obtain ⟨d2, hv2, N2, st2, hN2⟩ := ih2 st1 s1.sound (s1.opened ▸ ho)
      (s1.opened ▸ fun r hr => hcl r (List.mem_cons_of_mem _ hr))
    refine ⟨d2, hv2, max N N2 + 1, st2, ?_⟩
    intro n hn
    obtain ⟨n, rfl⟩ : ∃ m, n = m + 1 := ⟨n - 1, by omega⟩
    unfold mergeIncludes
    rw [hN n (by omega)]
    simp only
    rw [merge_of_toOption hm]
    exact hN2 n (by omega)
  | @noEntries p =>
    intro st hs ho hcl
    refine ⟨[], rfl, 1, st, ?_⟩
    intro n hn
    obtain ⟨n, rfl⟩ : ∃ m, n = m + 1 := ⟨n - 1, by omega⟩
    rfl
  | @entry p k v v1 rest rest1 u1 u2 h1 h2 ih1 ih2 =>
    intro st hs ho hcl
    obtain ⟨N, st1, hN⟩ := ih1 st hs ho hcl.left
    obtain ⟨_, _, s1⟩ := (incRight w T N).value st p v st1 v1 hs ho (hN N le_rfl)
    obtain ⟨d2, hv2, N2, st2, hN2⟩ := ih2 st1 s1.sound (s1.opened ▸ ho) (s1.opened ▸ hcl.right)
    cases hv2
    refine ⟨_, rfl, max N N2 + 1, st2, ?_⟩
    intro n hn
    obtain ⟨n, rfl⟩ : ∃ m, n = m + 1 := ⟨n - 1, by omega⟩
    unfold includesInEntries
    rw [hN n (by omega)]
    simp only
    rw [hN2 n (by omega)]
  | @inDict p d v u h1 ih1 =>
    intro st hs ho hcl
    obtain ⟨d', hv, N, st1, hN⟩ := ih1 st hs ho hcl
    subst hv
    refine ⟨N + 1, st1, ?_⟩
    intro n hn
    obtain ⟨n, rfl⟩ : ∃ m, n = m + 1 := ⟨n - 1, by omega⟩
    unfold includesInValue
    rw [hN n (by omega)]
  | @inList p l v u h1 ih1 =>
    intro st hs ho hcl
    obtain ⟨d', hv, N, st1, hN⟩ := ih1 st hs ho hcl
    subst hv
    refine ⟨N + 1, st1, ?_⟩
    intro n hn
    obtain ⟨n, rfl⟩ : ∃ m, n = m + 1 := ⟨n - 1, by omega⟩
    unfold includesInValue
    rw [hN n (by omega)]
  | @plain p v h1 h2 =>
    intro st hs ho hcl
    refine ⟨1, st, ?_⟩
    intro n hn
    obtain ⟨n, rfl⟩ : ∃ m, n = m + 1 := ⟨n - 1, by omega⟩
    cases v with
    | dict d => exact absurd rfl (h1 d)
    | list l => exact absurd rfl (h2 l)
    | str s => rfl
    | int s => rfl
    | other => rfl
  | @noItems p =>
    intro st hs ho hcl
    refine ⟨[], rfl, 1, st, ?_⟩
    intro n hn
    obtain ⟨n, rfl⟩ : ∃ m, n = m + 1 := ⟨n - 1, by omega⟩
    rfl
  | @item p v v1 rest rest1 u1 u2 h1 h2 ih1 ih2 =>
    intro st hs ho hcl
    obtain ⟨N, st1, hN⟩ := ih1 st hs ho hcl.left
    obtain ⟨_, _, s1⟩ := (incRight w T N).value st p v st1 v1 hs ho (hN N le_rfl)
    obtain ⟨d2, hv2, N2, st2, hN2⟩ := ih2 st1 s1.sound (s1.opened ▸ ho) (s1.opened ▸ hcl.right)
    cases hv2
    refine ⟨_, rfl, max N N2 + 1, st2, ?_⟩
    intro n hn
    obtain ⟨n, rfl⟩ : ∃ m, n = m + 1 := ⟨n - 1, by omega⟩
    unfold LoadBuildFileIncludesIntoList
    rw [hN n (by omega)]
    simp only
    rw [hN2 n (by omega)]

/-! ### Build files one after the other -/

/-- The states of the loader between build files: at first nothing is loaded; then one build
file after the other is loaded, and its dictionary changed afterwards in an arbitrary way.
The table holds the changed dictionaries. -/
inductive Loaded (w : IncWorld) : List (Str × Dict) → IncState → Prop
  | start : Loaded w [] ⟨[], [], []⟩
  | next {T st n path extra st' d d'} : Loaded w T st → aget st.data path = none →
      LoadOneBuildFile w n st path extra = .ok (st', d) →
      Loaded w (aset T path d') { st' with data := aset st'.data path d' }

/-- Loading a build file opens it, completes its dictionary and closes it. -/
theorem load_top {w : IncWorld} {T : List (Str × Dict)} {st st' : IncState} {n : Nat}
    {path : Str} {extra : List Str} {d : Dict} (hs : IncSound w T st)
    (hd : aget st.data path = none) (h : LoadOneBuildFile w n st path extra = .ok (st', d)) :
    ∃ u st2, CompletesTo (sourcesOf w T) (.file path extra) (.dict d) u ∧
      IncStep w T path u
        { st with aux := aset st.aux path [], opened := path :: st.opened } st2 ∧
      st' = { st2 with data := aset st2.data path d, opened := st.opened } := by
  cases n with
  | zero => simp [LoadOneBuildFile] at h
  | succ n =>
    unfold LoadOneBuildFile at h
    rw [hd] at h
    simp only at h
    by_cases ho : path ∈ st.opened
    · rw [if_pos ho] at h; cases h
    · rw [if_neg ho] at h
      have hos := open_sound hs hd
      cases hr : w.read path with
      | none => rw [hr] at h; cases h
      | some o =>
        cases o with
        | none => rw [hr] at h; cases h
        | some v =>
          rw [hr] at h
          cases v with
          | dict e =>
            simp only at h
            cases hk : skipIncludes e with
            | none => rw [hk] at h; cases h
            | some b =>
              rw [hk] at h
              cases b with
              | true =>
                cases h
                exact ⟨[], _, .skipped (hs.fresh hd) (content_of_read hr) (skip_true.mp hk),
                  IncStep.refl hos, rfl⟩
              | false =>
                simp only at h
                split at h
                · cases h
                · rename_i st2 d2 he
                  cases h
                  obtain ⟨u, hg, hst⟩ := (incRight w T n).dict _ path e extra st2 _ hos (by simp) he
                  refine ⟨u, st2, .file (hs.fresh hd) (content_of_read hr) ?_ hg, hst, rfl⟩
                  intro hsk
                  rw [skip_true.mpr hsk] at hk; cases hk
          | str s => cases h
          | int s => cases h
          | list s => cases h
          | other => cases h

/-- The file a part belongs to, if the part is a whole file. -/
def partFile : Part → Option Str
  | .file p _ => some p
  | _ => none

/-- A completion that does not use a file does not depend on it. -/
theorem gives_other {w : IncWorld} {T : List (Str × Dict)} {path : Str} {d' : Dict} {part : Part}
    {v : Val} {u : List Str} (h : CompletesTo (sourcesOf w T) part v u) :
    partFile part ≠ some path →
    (∀ r ∈ u, ∀ q, Relation.ReflTransGen (Includes (sourcesOf w T)) r q → q ≠ path) →
    CompletesTo (sourcesOf w (aset T path d')) part v u := by
  have hwk : ∀ p, p ≠ path → aget (aset T path d') p = aget T p := by
    intro p hp; rw [aget_aset, if_neg hp]
  induction h with
  | @worked p d ht =>
    intro hp _
    have : p ≠ path := fun e => hp (by simp [partFile, e])
    exact .worked ((hwk p this).trans ht)
  | @skipped p extra d ht hc hk =>
    intro hp _
    have : p ≠ path := fun e => hp (by simp [partFile, e])
    exact .skipped ((hwk p this).trans ht) hc hk
  | @file p extra d v u ht hc hk hg ih =>
    intro hp hu
    have : p ≠ path := fun e => hp (by simp [partFile, e])
    exact .file ((hwk p this).trans ht) hc hk (ih (by simp [partFile]) hu)
  | dict ha h1 h2 ih1 ih2 =>
    intro _ hu
    exact .dict ha (ih1 (by simp [partFile]) fun r hr => hu r (List.mem_append_left _ hr))
      (ih2 (by simp [partFile]) fun r hr => hu r (List.mem_append_right _ hr))
  | mergedAll => intro _ _; exact .mergedAll
  | @mergeOne p q rest d x d1 v u u' h1 hm h2 ih1 ih2 =>
    intro _ hu
    have hq := hu q (by simp) q .refl
    refine .mergeOne (ih1 (by simp [partFile, hq]) ?_) hm
      (ih2 (by simp [partFile]) fun r hr => hu r (List.mem_cons_of_mem _ hr))
    intro r hr y hy
    exact hu q (by simp) y (.head ⟨_, _, h1, hr⟩ hy)
  | noEntries => intro _ _; exact .noEntries
  | entry h1 h2 ih1 ih2 =>
    intro _ hu
    exact .entry (ih1 (by simp [partFile]) fun r hr => hu r (List.mem_append_left _ hr))
      (ih2 (by simp [partFile]) fun r hr => hu r (List.mem_append_right _ hr))
  | inDict h1 ih1 => intro _ hu; exact .inDict (ih1 (by simp [partFile]) hu)
  | inList h1 ih1 => intro _ hu; exact .inList (ih1 (by simp [partFile]) hu)
  | plain h1 h2 => intro _ _; exact .plain h1 h2
  | noItems => intro _ _; exact .noItems
  | item h1 h2 ih1 ih2 =>
    intro _ hu
    exact .item (ih1 (by simp [partFile]) fun r hr => hu r (List.mem_append_left _ hr))
      (ih2 (by simp [partFile]) fun r hr => hu r (List.mem_append_right _ hr))

/-- Whatever a finished file uses is finished. -/
theorem sound_reach {w : IncWorld} {T : List (Str × Dict)} {st : IncState} (hs : IncSound w T st)
    {p q : Str} (hp : (aget st.data p).isSome)
    (h : Relation.ReflTransGen (Includes (sourcesOf w T)) p q) : (aget st.data q).isSome := by
  induction h with
  | refl => exact hp
  | @tail b c _ hi ih =>
    obtain ⟨v, u, hg, hc⟩ := hi
    obtain ⟨d, hd⟩ := Option.isSome_iff_exists.mp ih
    cases ht : aget T b with
    | some x =>
      have := (gives_unique (S := sourcesOf w T) (.worked ht) hg).2
      rw [this] at hc; cases hc
    | none =>
      obtain ⟨u', hg', -, hf⟩ := hs.done b d ht hd
      rw [(gives_unique hg' hg).2] at hc
      exact hf c hc

/-- What the loader knows between build files is right. -/
theorem loaded_sound {w : IncWorld} {T : List (Str × Dict)} {st : IncState} (h : Loaded w T st) :
    IncSound w T st ∧ st.opened = [] := by
  induction h with
  | start =>
    refine ⟨⟨?_, ?_, ?_⟩, rfl⟩
    · intro p d h; simp [aget] at h
    · intro p d _ h; simp [aget] at h
    · simp
  | @next T st n path extra st' d d' h hd hl ih =>
    obtain ⟨hs, ho⟩ := ih
    obtain ⟨u, st2, hg, hst, rfl⟩ := load_top hs hd hl
    have hnone : aget st2.data path = none := hst.sound.apart path (by rw [hst.opened]; simp)
    refine ⟨⟨?_, ?_, ?_⟩, ho⟩
    · intro p e he
      simp only
      rw [aget_aset] at he ⊢
      by_cases hp : p = path
      · rw [if_pos hp] at he ⊢; exact he
      · rw [if_neg hp] at he ⊢
        rw [aget_aset, if_neg hp]
        exact hst.sound.old p e he
    · intro p e ht he
      simp only at he ⊢
      rw [aget_aset] at ht he
      by_cases hp : p = path
      · rw [if_pos hp] at ht; cases ht
      · rw [if_neg hp] at ht he
        rw [aget_aset, if_neg hp] at he
        obtain ⟨u', h1, h2, h3⟩ := hst.sound.done p e ht he
        refine ⟨u', gives_other h1 (by simp [partFile, hp]) ?_, h2, ?_⟩
        · rintro r hr q hq rfl
          have := sound_reach hst.sound (h3 r hr) hq
          rw [hnone] at this; cases this
        · intro q hq
          rw [aget_aset]
          by_cases hq' : q = path
          · rw [if_pos hq']; rfl
          · rw [if_neg hq', aget_aset, if_neg hq']; exact h3 q hq
    · intro p hp; rw [ho] at hp; cases hp

/-- C67: a build file that loads is its own dictionary, completed by the included files: first
the additional ones, then those it lists, in this order, each completed in the same way; and
the same for every dictionary in it. This does not depend on what was read before. -/
theorem C67_completed (w : IncWorld) (T : List (Str × Dict)) (st st' : IncState) (n : Nat)
    (path : Str) (extra : List Str) (d : Dict) (hst : Loaded w T st)
    (hd : aget st.data path = none) (h : LoadOneBuildFile w n st path extra = .ok (st', d)) :
    aget st'.data path = some d ∧
    ∃ used, CompletesTo (sourcesOf w T) (.file path extra) (.dict d) used ∧
      ∀ v used', CompletesTo (sourcesOf w T) (.file path extra) v used' → v = .dict d ∧ used' = used := by
  obtain ⟨u, st2, hg, -, rfl⟩ := load_top (loaded_sound hst).1 hd h
  refine ⟨by simp only; rw [aget_aset, if_pos rfl], u, hg, ?_⟩
  intro v u' hg'
  exact gives_unique hg hg'

/-- C67: a build file that can be completed, and does not include itself, is loaded. -/
theorem C67_found (w : IncWorld) (T : List (Str × Dict)) (st : IncState)
    (path : Str) (extra : List Str) (d : Dict) (used : List Str) (hst : Loaded w T st)
    (hw : PlainSkips w) (hd : aget st.data path = none)
    (hg : CompletesTo (sourcesOf w T) (.file path extra) (.dict d) used)
    (hself : ∀ r ∈ used, ¬ Relation.ReflTransGen (Includes (sourcesOf w T)) r path) :
    ∃ N, ∀ n, N ≤ n → ∃ st', LoadOneBuildFile w n st path extra = .ok (st', d) := by
  obtain ⟨hs, ho⟩ := loaded_sound hst
  cases hg with
  | worked ht => have := hs.old path d ht; rw [hd] at this; cases this
  | skipped ht hc hk =>
    refine ⟨1, fun n hn => ?_⟩
    obtain ⟨n, rfl⟩ : ∃ m, n = m + 1 := ⟨n - 1, by omega⟩
    unfold LoadOneBuildFile
    rw [hd, ho]
    simp only [List.not_mem_nil, if_false]
    rw [read_of_content hc]
    simp only
    rw [skip_true.mpr hk]
    exact ⟨_, rfl⟩
  | file ht hc hk hg =>
    obtain ⟨d', hv, N, st2, hN⟩ := incRuns w T hw hg _ (open_sound hs hd) (by simp) (by
      intro r hr q hq hm
      simp only [ho, List.mem_singleton] at hm
      subst hm
      exact hself r hr hq)
    cases hv
    refine ⟨N + 1, fun n hn => ?_⟩
    obtain ⟨n, rfl⟩ : ∃ m, n = m + 1 := ⟨n - 1, by omega⟩
    unfold LoadOneBuildFile
    rw [hd]
    simp only
    rw [if_neg (by rw [ho]; simp), read_of_content hc]
    simp only
    rw [skip_false hw (read_of_content hc) hk, hN n (by omega)]
    exact ⟨_, rfl⟩

/-- The include lists of the loader reach what the includes of the files reach. -/
theorem edges_reach {w : IncWorld} {T : List (Str × Dict)} {st : IncState} (hs : IncSound w T st)
    {p q : Str} (hp : (aget st.data p).isSome)
    (hT : ∀ x, Relation.ReflTransGen (Includes (sourcesOf w T)) p x → aget T x = none) :
    Relation.ReflTransGen (Includes (sourcesOf w T)) p q →
      Reach (includeEdges (aget st.aux)) p q := by
  intro h
  induction h with
  | refl => exact .refl
  | @tail b c hb hi ih =>
    refine ih.tail ?_
    obtain ⟨v, u, hg, hc⟩ := hi
    obtain ⟨d, hd⟩ := Option.isSome_iff_exists.mp (sound_reach hs hp hb)
    obtain ⟨u', hg', ha, hf⟩ := hs.done b d (hT b hb) hd
    rw [(gives_unique hg' hg).2] at hc
    simpa [includeEdges, ha] using hc

theorem reach_edges {w : IncWorld} {T : List (Str × Dict)} {st : IncState} (hs : IncSound w T st)
    {p q : Str} (hp : (aget st.data p).isSome)
    (hT : ∀ x, Relation.ReflTransGen (Includes (sourcesOf w T)) p x → aget T x = none)
    (h : Reach (includeEdges (aget st.aux)) p q) :
    Relation.ReflTransGen (Includes (sourcesOf w T)) p q := by
  induction h with
  | refl => exact .refl
  | @tail b c _ hi ih =>
    obtain ⟨d, hd⟩ := Option.isSome_iff_exists.mp (sound_reach hs hp ih)
    obtain ⟨u, hg, ha, hf⟩ := hs.done b d (hT b ih) hd
    refine ih.tail ⟨_, u, hg, ?_⟩
    simpa [includeEdges, ha] using hi

/-- C67: the recorded list of included files of a build file names exactly the files that
contributed to it, each once, the build file first (no other build file being included). -/
theorem C67_contributors (w : IncWorld) (T : List (Str × Dict)) (st st' : IncState) (n : Nat)
    (path : Str) (extra : List Str) (d : Dict) (hst : Loaded w T st)
    (hd : aget st.data path = none) (h : LoadOneBuildFile w n st path extra = .ok (st', d))
    (hT : ∀ x, Contributes (sourcesOf w T) path extra x → aget T x = none)
    (fuel : Nat) (hfuel : st'.data.length + 1 < fuel) :
    ∃ l, GetIncludedBuildFiles (aget st'.aux) fuel [] path = .ok (path :: l) ∧
      (path :: l).Nodup ∧ ∀ x, x ∈ path :: l ↔ Contributes (sourcesOf w T) path extra x := by
  obtain ⟨hs, ho⟩ := loaded_sound hst
  obtain ⟨u, st2, hg, hst2, rfl⟩ := load_top hs hd h
  have hnone : aget st2.data path = none := hst2.sound.apart path (by rw [hst2.opened]; simp)
  have haux : aget st2.aux path = some u := by
    have := hst2.noted [] (by simp only; rw [aget_aset, if_pos rfl])
    simpa using this
  have hTu : ∀ r ∈ u, ∀ x, Relation.ReflTransGen (Includes (sourcesOf w T)) r x →
      aget T x = none := fun r hr x hx => hT x (Or.inr ⟨_, u, r, hg, hr, hx⟩)
  -- what can be reached from the build file
  have hreach : ∀ x, Reach (includeEdges (aget st2.aux)) path x ↔
      Contributes (sourcesOf w T) path extra x := by
    intro x
    constructor
    · intro hx
      rcases Relation.ReflTransGen.cases_head hx with rfl | ⟨r, hr, hx⟩
      · exact Or.inl rfl
      · have hr' : r ∈ u := by simpa [includeEdges, haux] using hr
        exact Or.inr ⟨_, u, r, hg, hr', reach_edges hst2.sound (hst2.filed r hr') (hTu r hr') hx⟩
    · rintro (rfl | ⟨v, u', r, hg', hr, hx⟩)
      · exact .refl
      · rw [(gives_unique hg hg').2] at hr
        exact .head (by simpa [includeEdges, haux] using hr)
          (edges_reach hst2.sound (hst2.filed r hr) (hTu r hr) hx)
  have hfin : ∀ x, Contributes (sourcesOf w T) path extra x →
      x = path ∨ (aget st2.data x).isSome := by
    rintro x (rfl | ⟨v, u', r, hg', hr, hx⟩)
    · exact Or.inl rfl
    · rw [(gives_unique hg hg').2] at hr
      exact Or.inr (sound_reach hst2.sound (hst2.filed r hr) hx)
  have hknown : ∀ x, Reach (includeEdges (aget st2.aux)) path x → (aget st2.aux x).isSome := by
    intro x hx
    have hc := (hreach x).mp hx
    rcases hfin x hc with rfl | hf
    · rw [haux]; rfl
    · obtain ⟨e, he⟩ := Option.isSome_iff_exists.mp hf
      obtain ⟨u', -, ha, -⟩ := hst2.sound.done x e (hT x hc) he
      rw [ha]; rfl
  -- the finite set of these files
  classical
  let U := (path :: akeys st2.data).filter fun x => Contributes (sourcesOf w T) path extra x
  have hU : Closed (includeEdges (aget st2.aux)) U := by
    intro x hx y hy
    have hx' := (List.mem_filter.mp hx).2
    simp only [decide_eq_true_eq] at hx'
    have hyc := (hreach y).mp (((hreach x).mpr hx').tail hy)
    refine List.mem_filter.mpr ⟨?_, by simpa using hyc⟩
    rcases hfin y hyc with rfl | hf
    · simp
    · exact List.mem_cons_of_mem _ ((aget_isSome _ _).mp hf)
  have hpU : path ∈ U := List.mem_filter.mpr ⟨by simp, decide_eq_true (Or.inl rfl)⟩
  have hlen : U.length < fuel := by
    have h1 : U.length ≤ (path :: akeys st2.data).length := List.length_filter_le _ _
    have h2 : (aset st2.data path d).length = st2.data.length + 1 := by
      rw [aset_new (fun hm => by rw [← aget_isSome, hnone] at hm; cases hm)]
      simp
    simp only [List.length_cons, akeys, List.length_map] at h1
    simp only at hfuel
    omega
  obtain ⟨l, e, hn, hm⟩ := C27_included (aget st2.aux) U hU path hpU fuel hlen hknown
  exact ⟨l, e, hn, fun x => (hm x).trans (hreach x)⟩

/-- C67: a build file loads only if every file that contributes to it is there and evaluates to
a dictionary (or was loaded as a build file before). -/
theorem C67_present (w : IncWorld) (T : List (Str × Dict)) (st st' : IncState) (n : Nat)
    (path : Str) (extra : List Str) (d : Dict) (hst : Loaded w T st)
    (hd : aget st.data path = none) (h : LoadOneBuildFile w n st path extra = .ok (st', d))
    (x : Str) (hx : Contributes (sourcesOf w T) path extra x) :
    (∃ e, w.read x = some (some (.dict e))) ∨ ∃ e, aget T x = some e := by
  have key : ∀ {p ex v u}, CompletesTo (sourcesOf w T) (.file p ex) v u →
      (∃ e, w.read p = some (some (.dict e))) ∨ ∃ e, aget T p = some e := by
    intro p ex v u hg
    cases hg with
    | worked ht => exact Or.inr ⟨_, ht⟩
    | skipped _ hc _ => exact Or.inl ⟨_, read_of_content hc⟩
    | file _ hc _ _ => exact Or.inl ⟨_, read_of_content hc⟩
  obtain ⟨hs, ho⟩ := loaded_sound hst
  obtain ⟨u, st2, hg, hst2, rfl⟩ := load_top hs hd h
  rcases hx with rfl | ⟨v, u', r, hg', hr, hx⟩
  · exact key hg
  · rw [(gives_unique hg hg').2] at hr
    obtain ⟨e, he⟩ := Option.isSome_iff_exists.mp
      (sound_reach hst2.sound (hst2.filed r hr) hx)
    obtain ⟨u3, h3⟩ := hst2.sound.gives he
    exact key h3

/-- C67: a name in `includes` is looked up from the directory of the file that has it. -/
theorem C67_location (path name : Str) (here : Loc) :
    walk here (includePath path name) = walk (walk here (dirname path)) name := by
  unfold includePath
  rw [walk_normpath, walk_join]

/-- What a dictionary says under a key with a text or number is not changed by its parts. -/
theorem entries_scalar {S : Sources} {p : Str} {d d' : Dict} {u : List Str}
    (h : CompletesTo S (.entries p d) (.dict d') u) (k : Str) (v : Val) (hv : v.isScalar = true) :
    d'.get? k = some v ↔ d.get? k = some v := by
  induction d generalizing d' u with
  | nil => cases h; rfl
  | cons e d ih =>
    obtain ⟨k', v'⟩ := e
    cases h with
    | entry h1 h2 =>
      simp only [Dict.get?]
      by_cases hk : k' = k
      · rw [if_pos hk, if_pos hk]
        cases h1 with
        | plain _ _ => rfl
        | inDict h =>
          constructor
          · intro e
            cases e
            cases h with
            | dict _ _ h2 => cases h2 <;> cases hv
          · intro e; cases e; cases hv
        | inList h =>
          constructor
          · intro e
            cases e
            cases h <;> cases hv
          · intro e; cases e; cases hv
      · rw [if_neg hk, if_neg hk]
        exact ih h2

/-- The included dictionary does not touch a key. -/
def Silent (k : Str) (y : Dict) : Prop :=
  k ∉ y.keys ∧ ∀ l, (k ++ c!"=", .list l) ∉ y ∧ (k ++ c!"+", .list l) ∉ y ∧
    (k ++ c!"?", .list l) ∉ y

theorem merging_silent {w : IncWorld} {T : List (Str × Dict)} {p k : Str} {files : List Str}
    {d d' : Dict} {u : List Str}
    (h : CompletesTo (sourcesOf w T) (.merging p files d) (.dict d') u)
    (hs : ∀ r ∈ files, ∀ y uy, CompletesTo (sourcesOf w T) (.file r []) (.dict y) uy → Silent k y) :
    d'.get? k = d.get? k := by
  induction files generalizing d u with
  | nil => cases h; rfl
  | cons r files ih =>
    cases h with
    | mergeOne g1 gm g2 =>
      obtain ⟨n1, n2⟩ := hs r (by simp) _ _ g1
      rw [ih g2 fun r hr => hs r (List.mem_cons_of_mem _ hr),
        C22_untouched _ _ _ _ (merge_of_toOption gm) k n1 n2]

theorem merging_last {w : IncWorld} {T : List (Str × Dict)} {p q k s : Str}
    {before after : List Str} {d d' x : Dict} {u ux : List Str}
    (h : CompletesTo (sourcesOf w T) (.merging p (before ++ q :: after) d) (.dict d') u)
    (hq : CompletesTo (sourcesOf w T) (.file q []) (.dict x) ux) (hn : x.keys.Nodup)
    (hk : (k, .str s) ∈ x) (hpath : IsPathSection w.pathSections k = false)
    (hs : ∀ r ∈ after, ∀ y uy, CompletesTo (sourcesOf w T) (.file r []) (.dict y) uy → Silent k y) :
    d'.get? k = some (.str s) := by
  induction before generalizing d u with
  | nil =>
    simp only [List.nil_append] at h
    cases h with
    | mergeOne h1 hm h2 =>
      have hx := (gives_unique hq h1).1
      cases hx
      have h3 := (C22_scalar _ _ _ _ hn (merge_of_toOption hm) k (.str s) rfl hk).1
      simp only [scalarUnder, hpath, Bool.false_eq_true, if_false] at h3
      rw [merging_silent h2 hs]; exact h3
  | cons b before ih =>
    simp only [List.cons_append] at h
    cases h with
    | mergeOne h1 hm h2 => exact ih h2

/-- The stages of a file that is completed. -/
theorem file_stages {S : Sources} {path : Str} {extra names used : List Str} {d0 d : Dict}
    (hc : S.content path = some (.dict d0)) (hk : ¬ Skips d0) (ha : Asks d0 names)
    (ht : S.worked path = none) (hg : CompletesTo S (.file path extra) (.dict d) used) :
    ∃ d1 u1 u2, CompletesTo S (.merging path (extra ++ names.map (S.locate path))
      (d0.del c!"includes")) (.dict d1) u1 ∧ CompletesTo S (.entries path d1) (.dict d) u2 := by
  cases hg with
  | worked ht' => rw [ht] at ht'; cases ht'
  | skipped _ hc' hk' => rw [hc] at hc'; cases hc'; exact absurd hk' hk
  | file _ hc' _ hg =>
    rw [hc] at hc'; cases hc'
    cases hg with
    | dict ha' h1 h2 =>
      cases asks_unique ha ha'
      exact ⟨_, _, _, h1, h2⟩

/-- C67: a text set by several files has the value of the last one, the additional files coming
before the listed ones and the file itself before all of them (paths, which are adjusted, are
the subject of C23). -/
theorem C67_last_wins (w : IncWorld) (T : List (Str × Dict)) (st st' : IncState) (n : Nat)
    (path : Str) (extra : List Str) (d0 d : Dict) (names : List Str) (hst : Loaded w T st)
    (hd : aget st.data path = none) (h : LoadOneBuildFile w n st path extra = .ok (st', d))
    (hr : w.read path = some (some (.dict d0))) (hskip : ¬ Skips d0) (ha : Asks d0 names)
    (k s : Str) (hpath : IsPathSection w.pathSections k = false)
    (before after : List Str) (q : Str)
    (hfiles : extra ++ names.map (includePath path) = before ++ q :: after)
    (x : Dict) (ux : List Str) (hq : CompletesTo (sourcesOf w T) (.file q []) (.dict x) ux)
    (hn : x.keys.Nodup) (hk : (k, .str s) ∈ x)
    (hs : ∀ r ∈ after, ∀ y uy, CompletesTo (sourcesOf w T) (.file r []) (.dict y) uy → Silent k y) :
    d.get? k = some (.str s) := by
  obtain ⟨hsound, -⟩ := loaded_sound hst
  obtain ⟨u, st2, hg, -, rfl⟩ := load_top hsound hd h
  obtain ⟨d1, u1, u2, h1, h2⟩ :=
    file_stages (content_of_read hr) hskip ha (hsound.fresh hd) hg
  have e : extra ++ names.map ((sourcesOf w T).locate path) = before ++ q :: after := hfiles
  rw [e] at h1
  exact (entries_scalar h2 k (.str s) rfl).mpr (merging_last h1 hq hn hk hpath hs)

/-- C67: a text or number that no included file mentions is as in the file itself. -/
theorem C67_own (w : IncWorld) (T : List (Str × Dict)) (st st' : IncState) (n : Nat)
    (path : Str) (extra : List Str) (d0 d : Dict) (names : List Str) (hst : Loaded w T st)
    (hd : aget st.data path = none) (h : LoadOneBuildFile w n st path extra = .ok (st', d))
    (hr : w.read path = some (some (.dict d0))) (hskip : ¬ Skips d0) (ha : Asks d0 names)
    (k : Str) (v : Val) (hv : v.isScalar = true) (hki : k ≠ c!"includes")
    (hs : ∀ r ∈ extra ++ names.map (includePath path),
      ∀ y uy, CompletesTo (sourcesOf w T) (.file r []) (.dict y) uy → Silent k y) :
    d.get? k = some v ↔ d0.get? k = some v := by
  obtain ⟨hsound, -⟩ := loaded_sound hst
  obtain ⟨u, st2, hg, -, rfl⟩ := load_top hsound hd h
  obtain ⟨d1, u1, u2, h1, h2⟩ :=
    file_stages (content_of_read hr) hskip ha (hsound.fresh hd) hg
  rw [entries_scalar h2 k v hv, merging_silent h1 hs, Dict.get?_del_ne _ hki]

/-! ### A sample -/

/-- `a/x.gyp` includes `b.gypi`, and in a nested dictionary `../c.gypi`, which includes
`b.gypi` of its own directory. -/
def incWorld : IncWorld where
  read p :=
    if p = c!"a/x.gyp" then some (some (.dict
      [(c!"k", .str c!"own"), (c!"o", .str c!"own"), (c!"includes", .list [.str c!"b.gypi"]),
       (c!"sub", .dict [(c!"includes", .list [.str c!"../c.gypi"])])]))
    else if p = c!"a/b.gypi" then some (some (.dict [(c!"k", .str c!"b"), (c!"l", .list [.int 1])]))
    else if p = c!"c.gypi" then some (some (.dict
      [(c!"m", .str c!"c"), (c!"includes", .list [.str c!"a/b.gypi"])]))
    else if p = c!"common.gypi" then some (some (.dict [(c!"k", .str c!"common")]))
    else if p = c!"y.gyp" then some (some (.dict [(c!"includes", .list [.str c!"a/x.gyp"])]))
    else none
  cwd := [c!"w"]
  pathSections := basePathSections

/-- The loader on the sample: the values, and the lists of included files. -/
example : ((LoadOneBuildFile incWorld 30 ⟨[], [], []⟩ c!"a/x.gyp" [c!"common.gypi"]).toOption.map
    fun r => (r.1.aux, r.2.keys, (r.2.get? c!"k").map Val.isScalar)) =
    some ([(c!"a/x.gyp", [c!"common.gypi", c!"a/b.gypi", c!"c.gypi"]), (c!"common.gypi", []),
      (c!"a/b.gypi", []), (c!"c.gypi", [c!"a/b.gypi"])], [c!"k", c!"o", c!"sub", c!"l"], some true) := by
  decide +kernel

/-- The text of the sample that several files set, and one that only the file sets. -/
example : ((LoadOneBuildFile incWorld 30 ⟨[], [], []⟩ c!"a/x.gyp" [c!"common.gypi"]).toOption.map
    fun r => ((r.2.get? c!"k").map fun v => v.scalarEq (.str c!"b"),
      (r.2.get? c!"o").map fun v => v.scalarEq (.str c!"own"))) =
    some (some true, some true) := by
  decide +kernel

/-- The hypotheses of `C67_completed`, `C67_contributors`, `C67_present` and `C67_found` are met:
the first build file of the sample. -/
example : ∃ st d used, LoadOneBuildFile incWorld 30 ⟨[], [], []⟩ c!"a/x.gyp" [c!"common.gypi"] =
      .ok (st, d) ∧ Loaded incWorld [] ⟨[], [], []⟩ ∧
    CompletesTo (sourcesOf incWorld []) (.file c!"a/x.gyp" [c!"common.gypi"]) (.dict d) used ∧
    used = [c!"common.gypi", c!"a/b.gypi", c!"c.gypi"] ∧
    ∀ r ∈ used, ¬ Relation.ReflTransGen (Includes (sourcesOf incWorld [])) r c!"a/x.gyp" := by
  have hrun : ∃ r, LoadOneBuildFile incWorld 30 ⟨[], [], []⟩ c!"a/x.gyp" [c!"common.gypi"] = .ok r ∧
      aget r.1.aux c!"a/x.gyp" = some [c!"common.gypi", c!"a/b.gypi", c!"c.gypi"] := by
    have h : (match LoadOneBuildFile incWorld 30 ⟨[], [], []⟩ c!"a/x.gyp" [c!"common.gypi"] with
        | .ok r => aget r.1.aux c!"a/x.gyp" == some [c!"common.gypi", c!"a/b.gypi", c!"c.gypi"]
        | .error _ => false) = true := by decide +kernel
    cases e : LoadOneBuildFile incWorld 30 ⟨[], [], []⟩ c!"a/x.gyp" [c!"common.gypi"] with
    | error _ => rw [e] at h; cases h
    | ok r => rw [e] at h; exact ⟨r, rfl, by simpa using h⟩
  obtain ⟨⟨st, d⟩, h, ha⟩ := hrun
  obtain ⟨u, st2, hg, hst, he⟩ := load_top (loaded_sound (.start (w := incWorld))).1 rfl h
  have hu : u = [c!"common.gypi", c!"a/b.gypi", c!"c.gypi"] := by
    have := hst.noted [] (by simp only; rw [aget_aset, if_pos rfl])
    subst he
    simp only at ha
    rw [this] at ha
    simpa using ha
  refine ⟨st, d, u, h, .start, hg, hu, ?_⟩
  intro r hr hp
  have h1 := sound_reach hst.sound (hst.filed r hr) hp
  rw [hst.sound.apart _ (by rw [hst.opened]; simp)] at h1
  cases h1

/-- A test of a result. -/
def okAnd {α β : Type} (e : Except α β) (P : β → Bool) : Bool :=
  match e with
  | .ok r => P r
  | .error _ => false

/-- C67, outside the statement: a build file that another one includes is merged as it is at
that time; before it is loaded itself that is its text with its includes, and afterwards
whatever has been made of it. -/
theorem C67_worked :
    (∃ st d, LoadOneBuildFile incWorld 30 ⟨[], [], []⟩ c!"y.gyp" [] = .ok (st, d) ∧
      (d.get? c!"k").map (Val.scalarEq (.str c!"b")) = some true) ∧
    ∃ st1 d1 st2 d2, LoadOneBuildFile incWorld 30 ⟨[], [], []⟩ c!"a/x.gyp" [] = .ok (st1, d1) ∧
      LoadOneBuildFile incWorld 30 { st1 with data := (aset st1.data c!"a/x.gyp"
          [(c!"k", .str c!"changed")]) } c!"y.gyp" [] = .ok (st2, d2) ∧
       (d2.get? c!"k").map (Val.scalarEq (.str c!"changed")) = some true := by
  have key : ∀ {α β : Type} (e : Except α β) (P : β → Bool), okAnd e P = true →
      ∃ r, e = .ok r ∧ P r = true := by
    intro α β e P h
    cases e with
    | ok r => exact ⟨r, rfl, h⟩
    | error _ => cases h
  constructor
  · obtain ⟨r, h1, h2⟩ := key (LoadOneBuildFile incWorld 30 ⟨[], [], []⟩ c!"y.gyp" [])
      (fun r => (r.2.get? c!"k").map (Val.scalarEq (.str c!"b")) == some true) (by decide +kernel)
    exact ⟨r.1, r.2, h1, by simpa using h2⟩
  · obtain ⟨r, h1, h2⟩ := key (LoadOneBuildFile incWorld 30 ⟨[], [], []⟩ c!"a/x.gyp" [])
      (fun r => okAnd (LoadOneBuildFile incWorld 30
          { r.1 with data := aset r.1.data c!"a/x.gyp" [(c!"k", .str c!"changed")] } c!"y.gyp" [])
        fun q => (q.2.get? c!"k").map (Val.scalarEq (.str c!"changed")) == some true)
      (by decide +kernel)
    obtain ⟨q, h3, h4⟩ := key (LoadOneBuildFile incWorld 30
        { r.1 with data := aset r.1.data c!"a/x.gyp" [(c!"k", .str c!"changed")] } c!"y.gyp" [])
      (fun q => (q.2.get? c!"k").map (Val.scalarEq (.str c!"changed")) == some true) h2
    exact ⟨r.1, r.2, q.1, q.2, h1, h3, by simpa using h4⟩

/-- C67, outside the model of finished files: a file that includes itself is refused by the
model, gyp goes on with what it has so far. -/
example : (match LoadOneBuildFile { incWorld with read := fun _ => some (some (.dict
      [(c!"includes", .list [.str c!"s.gypi"])])) } 30 ⟨[], [], []⟩ c!"s.gypi" [] with
    | .error (.circular p) => p == c!"s.gypi"
    | _ => false) = true := by decide +kernel

end Gyp
