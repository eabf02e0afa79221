import Verif.Spec.SysTags
import Verif.Props.Specifiers
import Verif.Proofs.Canonical
import Mathlib.Data.List.Forall2
/-
Lemmas about the tags of a system.
-/
namespace Gyp
open Spec

theorem mem_downTo {hi lo k : Nat} : k ∈ downTo hi lo ↔ lo ≤ k ∧ k ≤ hi := by
  simp only [downTo, List.mem_map, List.mem_range]
  constructor
  · rintro ⟨i, h, rfl⟩; omega
  · intro ⟨h1, h2⟩; exact ⟨hi - k, by omega, by omega⟩

theorem downTo_sorted (hi lo : Nat) : (downTo hi lo).Pairwise (fun a b => b < a) := by
  rw [downTo, List.pairwise_map]
  refine List.Pairwise.imp_of_mem ?_ List.pairwise_lt_range
  intro a b ha hb h
  simp only [List.mem_range] at ha hb
  omega

theorem isCompatible_iff {sys : Nat × Nat} {mod : Option ManyModule} {arch : Str} {v : Nat × Nat} :
    isCompatible sys mod arch v = true ↔ NotNewer v sys ∧ ¬ Refused mod arch v := by
  have hlt : pairLt sys v = true ↔ ¬ NotNewer v sys := by
    simp only [pairLt, NotNewer, Bool.or_eq_true, Bool.and_eq_true, decide_eq_true_eq]
    omega
  unfold isCompatible
  by_cases h : pairLt sys v = true
  · simp [h, hlt.mp h]
  · have hn : NotNewer v sys := by by_contra hh; exact h (hlt.mpr hh)
    simp only [h, Bool.false_eq_true, if_false, hn, true_and]
    cases mod with
    | none => simp [Refused]
    | some m =>
      obtain ⟨f, a, b, c⟩ := m
      obtain ⟨x, y⟩ := v
      cases f with
      | some f =>
        simp only [Refused]
        cases hf : f x y arch with
        | none => simp [hf]
        | some r => cases r <;> simp [hf]
      | none =>
        simp only [Refused]
        by_cases h1 : (x, y) = ((2, 5) : Nat × Nat)
        · cases h1; cases a <;> simp
        · by_cases h2 : (x, y) = ((2, 12) : Nat × Nat)
          · cases h2; cases b <;> simp
          · by_cases h3 : (x, y) = ((2, 17) : Nat × Nat)
            · cases h3; cases c <;> simp
            · simp [h1, h2, h3]

/-- The platforms for one version, in the order of the code. -/
def versionEntries (sys : Nat × Nat) (mod : Option ManyModule) (arch : Str) (v : Nat × Nat) : List ManyTag :=
  if isCompatible sys mod arch v then
    ⟨arch, v.1, v.2, false⟩ :: (if (legacyName v).isSome then [⟨arch, v.1, v.2, true⟩] else [])
  else []

theorem versionEntries_text (sys : Nat × Nat) (mod : Option ManyModule) (arch : Str) (v : Nat × Nat) :
    List.Forall₂ TagText (versionEntries sys mod arch v) (versionTags sys mod arch v) := by
  obtain ⟨x, y⟩ := v
  unfold versionEntries versionTags
  by_cases h : isCompatible sys mod arch (x, y) = true
  · simp only [h, if_true, List.singleton_append]
    refine .cons (by simp [TagText]) ?_
    unfold legacyName
    by_cases h1 : (x, y) = ((2, 17) : Nat × Nat)
    · cases h1; simp [TagText]
    · by_cases h2 : (x, y) = ((2, 12) : Nat × Nat)
      · cases h2; simp [TagText]
      · by_cases h3 : (x, y) = ((2, 5) : Nat × Nat)
        · cases h3; simp [TagText]
        · simp [h1, h2, h3]
  · simp only [h]
    cases legacyName (x, y) <;> simp

theorem mem_versionEntries {sys : Nat × Nat} {mod : Option ManyModule} {arch : Str} {v : Nat × Nat} {t : ManyTag} :
    t ∈ versionEntries sys mod arch v ↔ t.arch = arch ∧ (t.major, t.minor) = v ∧ NotNewer v sys ∧
      ¬ Refused mod arch v ∧ (t.old = true → (legacyName v).isSome) := by
  unfold versionEntries
  obtain ⟨a, x, y, o⟩ := t
  obtain ⟨p, q⟩ := v
  by_cases h : isCompatible sys mod arch (p, q) = true
  · have := isCompatible_iff.mp h
    by_cases hl : (legacyName (p, q)).isSome = true
    · simp only [h, if_true, hl]
      cases o <;> simp [this.1, this.2]
    · simp only [h, if_true, hl]
      cases o <;> simp [this.1, this.2]
  · simp only [h]
    have := mt isCompatible_iff.mpr h
    simp only [Bool.false_eq_true, if_false, List.not_mem_nil, false_iff]
    rintro ⟨-, -, h1, h2, -⟩
    exact this ⟨h1, h2⟩

/-- All platforms, in the order of the code. -/
def manyEntries (cur : Nat × Nat) (mod : Option ManyModule) (archs : List Str) : List ManyTag :=
  archs.flatMap fun arch => (glibcMaxList cur).flatMap fun mx =>
    (downTo mx.2 (if mx.1 = 2 then oldestMinor archs else 0)).flatMap fun minor =>
      versionEntries cur mod arch (mx.1, minor)

theorem forall₂_flatMap {α β γ : Type} {R : β → γ → Prop} {f : α → List β} {g : α → List γ} :
    ∀ l : List α, (∀ a ∈ l, List.Forall₂ R (f a) (g a)) → List.Forall₂ R (l.flatMap f) (l.flatMap g)
  | [], _ => by simp
  | a :: l, h => by
    simp only [List.flatMap_cons]
    exact List.rel_append (h a (by simp)) (forall₂_flatMap l fun b hb => h b (by simp [hb]))

theorem manyEntries_text (cur : Nat × Nat) (mod : Option ManyModule) (archs : List Str) {elf : ElfFacts}
    (h : haveCompatibleAbi elf archs = true) :
    List.Forall₂ TagText (manyEntries cur mod archs) (manylinuxTags elf (some cur) mod archs) := by
  simp only [manylinuxTags, h, manyEntries, Bool.not_true, Bool.false_eq_true, if_false]
  exact forall₂_flatMap _ fun a _ => forall₂_flatMap _ fun m _ => forall₂_flatMap _ fun k _ =>
    versionEntries_text ..

theorem mem_glibcMaxList {cur v : Nat × Nat} :
    v ∈ glibcMaxList cur ↔ v = cur ∨ v.2 = 50 ∧ 2 ≤ v.1 ∧ v.1 + 1 ≤ cur.1 := by
  obtain ⟨a, b⟩ := v
  simp only [glibcMaxList, List.mem_cons, List.mem_map, mem_downTo, Prod.mk.injEq]
  constructor
  · rintro (h | ⟨k, h1, rfl, rfl⟩)
    · exact .inl h
    · exact .inr ⟨rfl, h1.1, by omega⟩
  · rintro (h | ⟨rfl, h1, h2⟩)
    · exact .inl h
    · exact .inr ⟨a, ⟨h1, by omega⟩, rfl, rfl⟩

theorem mem_manyEntries {cur : Nat × Nat} (hc : 2 ≤ cur.1) {mod : Option ManyModule} {archs : List Str}
    {t : ManyTag} : t ∈ manyEntries cur mod archs ↔
      GlibcFits cur mod archs t ∧ (t.old = true → (legacyName (t.major, t.minor)).isSome) := by
  obtain ⟨a, x, y, o⟩ := t
  obtain ⟨c, d⟩ := cur
  have hold : (∃ o, OldestGlibc archs o ∧ NotNewer o (x, y)) ↔ 2 < x ∨ x = 2 ∧ oldestMinor archs ≤ y := by
    unfold OldestGlibc oldestMinor NotNewer
    by_cases hx : c!"x86_64" ∈ archs ∨ c!"i686" ∈ archs
    · simp [hx]
      omega
    · simp [hx]
      omega
  simp only [manyEntries, List.mem_flatMap, mem_downTo, mem_versionEntries, GlibcFits, hold]
  simp only at hc
  constructor
  · rintro ⟨a', ha, ⟨m1, m2⟩, hm, k, ⟨h1, h2⟩, rfl, he, h3, h4, h5⟩
    cases he
    refine ⟨⟨ha, ?_, h3, ?_, h4⟩, h5⟩
    · rcases mem_glibcMaxList.mp hm with hm | hm
      · cases hm
        by_cases h : c = 2
        · exact .inr ⟨h, by simpa [h] using h1⟩
        · exact .inl (by omega)
      · simp only at hm
        by_cases h : m1 = 2
        · exact .inr ⟨h, by simpa [h] using h1⟩
        · exact .inl (by omega)
    · intro hlt
      rcases mem_glibcMaxList.mp hm with hm | hm
      · cases hm; simp at hlt
      · simp only at hm h2; omega
  · rintro ⟨⟨ha, hlo, h3, h50, h4⟩, h5⟩
    have h3' := h3
    simp only [NotNewer] at h3'
    refine ⟨a, ha, if x = c then (c, d) else (x, 50), ?_, y, ?_, rfl, ?_, ?_⟩
    · by_cases h : x = c
      · simp [h, glibcMaxList]
      · simp only [h, if_false]
        exact mem_glibcMaxList.mpr (.inr ⟨rfl, by simp only; omega, by simp only; omega⟩)
    · by_cases h : x = c
      · subst h
        simp only [if_true]
        refine ⟨?_, by omega⟩
        split
        · omega
        · omega
      · simp only [h, if_false]
        refine ⟨?_, h50 (by omega)⟩
        split
        · omega
        · omega
    · by_cases h : x = c <;> simp [h]
    · by_cases h : x = c
      · subst h; simpa using ⟨h3, h4, h5⟩
      · simpa [h] using ⟨h3, h4, h5⟩

theorem pairwise_flatMap' {α β : Type} {R : β → β → Prop} {f : α → List β} : ∀ {l : List α},
    (∀ a ∈ l, (f a).Pairwise R) → l.Pairwise (fun a b => ∀ x ∈ f a, ∀ y ∈ f b, R x y) →
    (l.flatMap f).Pairwise R
  | [], _, _ => by simp
  | a :: l, h, hp => by
    rw [List.pairwise_cons] at hp
    rw [List.flatMap_cons, List.pairwise_append]
    refine ⟨h a (by simp), pairwise_flatMap' (fun b hb => h b (by simp [hb])) hp.2, ?_⟩
    intro x hx y hy
    obtain ⟨b, hb, hy⟩ := List.mem_flatMap.mp hy
    exact hp.1 b hb x hx y hy

theorem idxOf_sorted : ∀ {l : List Str}, l.Nodup → l.Pairwise (fun a b => l.idxOf a < l.idxOf b) := by
  intro l h
  rw [List.pairwise_iff_getElem]
  intro i j hi hj hij
  rw [h.idxOf_getElem, h.idxOf_getElem]
  exact hij

theorem manyEntries_sorted {cur : Nat × Nat} {mod : Option ManyModule} {archs : List Str} (hn : archs.Nodup) :
    (manyEntries cur mod archs).Pairwise (Better archs) := by
  have marr : ∀ (a : Str) (mx : Nat × Nat) (x : ManyTag), x ∈ ((downTo mx.2 (if mx.1 = 2 then oldestMinor archs else 0)).flatMap
      fun minor => versionEntries cur mod a (mx.1, minor)) → x.arch = a ∧ x.major = mx.1 := by
    intro a mx x hx
    obtain ⟨k, _, hx⟩ := List.mem_flatMap.mp hx
    have := mem_versionEntries.mp hx
    exact ⟨this.1, (Prod.mk.inj this.2.1).1⟩
  refine pairwise_flatMap' ?_ ?_
  · intro a ha
    refine pairwise_flatMap' ?_ ?_
    · intro mx _
      refine pairwise_flatMap' ?_ ?_
      · intro k _
        unfold versionEntries
        split
        · split
          · simp [Better]
          · simp
        · simp
      · refine (downTo_sorted _ _).imp ?_
        intro k j hkj x hx y hy
        have h1 := mem_versionEntries.mp hx
        have h2 := mem_versionEntries.mp hy
        have e1 := Prod.mk.inj h1.2.1
        have e2 := Prod.mk.inj h2.2.1
        exact .inr ⟨h1.1.trans h2.1.symm, .inl (.inr ⟨e2.1.trans e1.1.symm, by rw [e1.2, e2.2]; exact hkj⟩)⟩
    · have : (glibcMaxList cur).Pairwise (fun v w => w.1 < v.1) := by
        rw [glibcMaxList, List.pairwise_cons]
        refine ⟨?_, ?_⟩
        · intro w hw
          obtain ⟨k, hk, rfl⟩ := List.mem_map.mp hw
          have := mem_downTo.mp hk
          simp only
          omega
        · rw [List.pairwise_map]
          exact downTo_sorted _ _
      refine this.imp ?_
      intro v w hvw x hx y hy
      have h1 := marr a v x hx
      have h2 := marr a w y hy
      exact .inr ⟨h1.1.trans h2.1.symm, .inl (.inl (by rw [h1.2, h2.2]; exact hvw))⟩
  · refine (idxOf_sorted hn).imp ?_
    intro a b hab x hx y hy
    obtain ⟨mx, _, hx⟩ := List.mem_flatMap.mp hx
    obtain ⟨my, _, hy⟩ := List.mem_flatMap.mp hy
    have h1 := marr a mx x hx
    have h2 := marr b my y hy
    exact .inl (by rw [h1.1, h2.1]; exact hab)

theorem lower_natStr_pre {pre : Str} (hp : lowerStr pre = pre) (n : Nat) :
    lowerStr (pre ++ natStr n) = pre ++ natStr n := by
  have hd : lowerStr (natStr n) = natStr n := by
    apply lowerStr_low
    intro c hc
    have := digits_all (natStr_digits n) c hc
    simp only [asciiDigit, Bool.and_eq_true, decide_eq_true_eq] at this
    have h2 : c.toNat < 128 := by
      have : c.val ≤ '9'.val := this.2
      have : c.toNat ≤ 57 := this
      omega
    have := lowerStr_ascii (s := [c]) (by simpa using h2)
    simp only [lowerStr, List.map_cons, List.map_nil, List.flatten_cons, List.flatten_nil, List.append_nil] at this
    rw [this, lower_id (.inr (by assumption))]
  have happ : ∀ a b : Str, lowerStr (a ++ b) = lowerStr a ++ lowerStr b := by
    intro a b; simp [lowerStr]
  rw [happ, hp, hd]

end Gyp
