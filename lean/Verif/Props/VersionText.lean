import Verif.Proofs.VersionText
/-
C45: what texts are read as versions, and the printed form of a version reads back.
-/
namespace Gyp
open Spec

/-- C45: a text is read as a version exactly when it is one of the ways to write that version
(the grammar of PEP 440, in `Spec.Written`); the text is in ASCII. -/
theorem C45_grammar (s : Str) (hs : ∀ c ∈ s, c.toNat < 128) (v : Ver) :
    Ver.parse s = some v ↔ Written s v :=
  ⟨written_parse hs, parse_written⟩

theorem natStr_digits (n : Nat) : Digits (natStr n) n := by
  have hval : digitsVal (Nat.toDigits 10 n) = n := by
    have := @Nat.ofDigitChars_ten_toDigits n
    unfold Nat.ofDigitChars at this
    simpa [digitsVal] using this
  have e : natStr n = Nat.toDigits 10 n := rfl
  rw [e]
  refine ⟨Nat.toDigits_ne_nil, fun c hc => asciiDigit_true.mp (toDigits_digits n c hc), hval⟩

theorem release_written : ∀ (r : List Nat), r ≠ [] → ReleaseText (joinWith c!"." (r.map natStr)) r
  | [], h => absurd rfl h
  | [n], _ => .one (natStr_digits n)
  | n :: m :: r, _ => by
    have h := release_written (m :: r) (by simp)
    have : joinWith c!"." ((n :: m :: r).map natStr) = natStr n ++ '.' :: joinWith c!"." ((m :: r).map natStr) := by
      simp [joinWith]
    rw [this]
    exact .more (natStr_digits n) h

theorem lower_id {c : Char} (h : 'a' ≤ c ∧ c ≤ 'z' ∨ '0' ≤ c ∧ c ≤ '9') : c.toLower = c := by
  have : ¬ (c.toNat ≥ 65 ∧ c.toNat ≤ 90) := by
    rcases h with h | h
    · have := h.1; simp only [Char.le_def, UInt32.le_iff_toNat_le] at this
      intro h2; have h3 : c.toNat = c.val.toNat := rfl
      have : 97 ≤ c.val.toNat := this
      omega
    · have := h.2; simp only [Char.le_def, UInt32.le_iff_toNat_le] at this
      intro h2; have h3 : c.toNat = c.val.toNat := rfl
      have : c.val.toNat ≤ 57 := this
      omega
  unfold Char.toLower
  rw [dif_neg]
  intro h2
  apply this
  have h3 : c.toNat = c.val.toNat := rfl
  have h4 := h2.1
  have h5 := h2.2
  simp only [ge_iff_le, UInt32.le_iff_toNat_le] at h4 h5
  have h4 : 65 ≤ c.val.toNat := h4
  have h5 : c.val.toNat ≤ 90 := h5
  omega

theorem part_written {p : LocalPart} (h : ValidPart p) : PartText p.show p := by
  cases p with
  | num n => exact natStr_digits n
  | text s =>
    obtain ⟨h1, c, hc, h2⟩ := h
    refine ⟨fun c hc => ?_, ⟨c, hc, ?_⟩, ?_⟩
    · rcases h1 c hc with h | h
      · exact .inl h
      · exact .inr (.inr h)
    · intro h3
      have := Nat.le_trans h2.1 h3.2
      exact absurd this (by decide)
    · show s = s.map Char.toLower
      conv_lhs => rw [← List.map_id s]
      exact List.map_congr_left fun c hc => (lower_id (h1 c hc)).symm

theorem parts_written : ∀ (l : List LocalPart), l ≠ [] → (∀ p ∈ l, ValidPart p) →
    PartsText (joinWith c!"." (l.map LocalPart.show)) l
  | [], h, _ => absurd rfl h
  | [p], _, hp => .one (part_written (hp p (by simp)))
  | p :: q :: l, _, hp => by
    have h := parts_written (q :: l) (by simp) (fun x hx => hp x (by simp [hx]))
    have : joinWith c!"." ((p :: q :: l).map LocalPart.show) =
        p.show ++ '.' :: joinWith c!"." ((q :: l).map LocalPart.show) := by
      simp [joinWith]
    rw [this]
    exact .more (part_written (hp p (by simp))) (.inr (.inr rfl)) h

theorem spelled_self : ∀ (w : Str), Spelled w w
  | [] => .nil
  | _ :: w => .cons (.inl rfl) (spelled_self w)

/-- C45: the printed form is one of the ways to write the version. -/
theorem C45_printed_written (v : Ver) (hv : ValidVersion v) : Written v.show v := by
  have hpre : ∃ bare, ¬ bare ∧ OptTag preNames (showPre v) v.pre bare := by
    refine ⟨False, id, ?_⟩
    unfold showPre
    cases hp : v.pre with
    | none => exact .inl ⟨rfl, rfl, id⟩
    | some x =>
      obtain ⟨l, n⟩ := x
      have hd := natStr_digits n
      refine .inr ⟨l, n, rfl, [], l, l, [], natStr n, by simp, .inl rfl, ?_, spelled_self l, .inl rfl, .inr hd, ?_⟩
      · rcases hv.pre l n hp with rfl | rfl | rfl <;> decide
      · constructor
        · exact False.elim
        · rintro ⟨_, h⟩; exact hd.1 h
  have hpost : PostText (showPost v) v.post False := by
    right
    refine ⟨id, ?_⟩
    unfold showPost
    cases hp : v.post with
    | none => exact ⟨False, .inl ⟨rfl, rfl, id⟩⟩
    | some x =>
      obtain ⟨l, n⟩ := x
      have hd := natStr_digits n
      have hl := hv.post l n hp
      subst hl
      refine ⟨False, .inr ⟨_, n, rfl, c!".", c!"post", c!"post", [], natStr n, by simp, .inr (.inr (.inr rfl)), ?_,
        spelled_self _, .inl rfl, .inr hd, ?_⟩⟩
      · decide
      · constructor
        · exact False.elim
        · rintro ⟨_, h⟩; exact hd.1 h
  have hdev : OptTag devNames (showDev v) v.dev False := by
    unfold showDev
    cases hp : v.dev with
    | none => exact .inl ⟨rfl, rfl, id⟩
    | some x =>
      obtain ⟨l, n⟩ := x
      have hd := natStr_digits n
      have hl := hv.dev l n hp
      subst hl
      refine .inr ⟨_, n, rfl, c!".", c!"dev", c!"dev", [], natStr n, by simp, .inr (.inr (.inr rfl)), ?_,
        spelled_self _, .inl rfl, .inr hd, ?_⟩
      · decide
      · constructor
        · exact False.elim
        · rintro ⟨_, h⟩; exact hd.1 h
  obtain ⟨bare, hb, hpre⟩ := hpre
  refine ⟨[], [], showEpoch v, showRelease v, showPre v, showPost v, showDev v, showLocal v, [], bare, False, False,
    by simp [Ver.show], by simp, by simp, .inl rfl, ?_, release_written _ hv.release, hpre, hpost,
    fun h => h.2, hdev, ?_⟩
  · unfold showEpoch
    by_cases h : v.epoch ≠ 0
    · rw [if_pos h]
      exact .inr ⟨_, rfl, natStr_digits _⟩
    · rw [if_neg h]
      exact .inl ⟨rfl, by simpa using h⟩
  · unfold showLocal
    cases hl : v.loc with
    | none => exact .inl ⟨rfl, rfl⟩
    | some l =>
      obtain ⟨h1, h2⟩ := hv.loc l hl
      cases l with
      | nil => exact absurd rfl h1
      | cons p l => exact .inr ⟨_, _, rfl, rfl, parts_written _ h1 h2⟩

/-- C45: the printed form of a version reads back as the same version. -/
theorem C45_roundtrip (v : Ver) (hv : ValidVersion v) : Ver.parse v.show = some v :=
  parse_written (C45_printed_written v hv)

theorem lower_range {c : Char} (h : 'A' ≤ c ∧ c ≤ 'Z') : 'a' ≤ c.toLower ∧ c.toLower ≤ 'z' := by
  have h1 : 65 ≤ c.val.toNat := by simpa [Char.le_def, UInt32.le_iff_toNat_le] using h.1
  have h2 : c.val.toNat ≤ 90 := by simpa [Char.le_def, UInt32.le_iff_toNat_le] using h.2
  have e : ∀ n : Fin 26, 'a' ≤ (Char.ofNat (65 + n)).toLower ∧ (Char.ofNat (65 + n)).toLower ≤ 'z' := by decide
  have := e ⟨c.val.toNat - 65, by omega⟩
  have hc : Char.ofNat (65 + (c.val.toNat - 65)) = c := by
    rw [show 65 + (c.val.toNat - 65) = c.toNat from by
      have : c.toNat = c.val.toNat := rfl
      omega]
    exact Char.ofNat_toNat c
  rw [hc] at this
  exact this

theorem part_valid {s : Str} {p : LocalPart} (h : PartText s p) : ValidPart p := by
  cases p with
  | num n => trivial
  | text t =>
    obtain ⟨h1, ⟨c, hc, h2⟩, rfl⟩ := h
    have hr : ∀ c, AlnumChar c → ('a' ≤ c.toLower ∧ c.toLower ≤ 'z') ∨ ('0' ≤ c ∧ c ≤ '9') := by
      intro c h
      rcases h with h | h | h
      · rw [lower_id (.inl h)]; exact .inl h
      · exact .inl (lower_range h)
      · exact .inr h
    refine ⟨fun x hx => ?_, c.toLower, List.mem_map.mpr ⟨c, hc, rfl⟩, ?_⟩
    · obtain ⟨y, hy, rfl⟩ := List.mem_map.mp hx
      rcases hr y (h1 y hy) with h | h
      · exact .inl h
      · rw [lower_id (.inr h)]; exact .inr h
    · rcases hr c (h1 c hc) with h | h
      · exact h
      · exact absurd h h2

theorem parts_valid {s : Str} {l : List LocalPart} (h : PartsText s l) : l ≠ [] ∧ ∀ p ∈ l, ValidPart p := by
  induction h with
  | one h => exact ⟨by simp, fun p hp => by rw [List.mem_singleton.mp hp]; exact part_valid h⟩
  | more h _ _ ih =>
    refine ⟨by simp, fun p hp => ?_⟩
    rcases List.mem_cons.mp hp with rfl | hp
    · exact part_valid h
    · exact ih.2 p hp

/-- C45: everything that can be written is a version in normal form. -/
theorem C45_written_valid (s : Str) (v : Ver) (h : Written s v) : ValidVersion v := by
  obtain ⟨w1, vv, e, r, p, po, d, l, w2, bare, implicit, bare', -, -, -, -, -, hr, hp, hpo, -, hd, hl⟩ := h.pieces
  refine ⟨?_, ?_, ?_, ?_, ?_⟩
  · generalize v.release = x at hr
    cases hr <;> simp
  · intro l n hx
    rcases hp with ⟨_, h, _⟩ | ⟨l', n', h, s1, w, name, s2, dd, -, -, hm, -⟩
    · rw [h] at hx; cases hx
    · rw [h] at hx
      cases hx
      simp only [preNames, List.mem_cons, Prod.mk.injEq, List.not_mem_nil, or_false] at hm
      rcases hm with h | h | h | h | h | h | h | h <;> simp [h.2]
  · intro l n hx
    rcases hpo with ⟨_, _, _, _, h, _⟩ | ⟨_, _, ⟨_, h, _⟩ | ⟨l', n', h, s1, w, name, s2, dd, -, -, hm, -⟩⟩
    · rw [h] at hx; cases hx; rfl
    · rw [h] at hx; cases hx
    · rw [h] at hx
      cases hx
      simp only [postNames, List.mem_cons, Prod.mk.injEq, List.not_mem_nil, or_false] at hm
      rcases hm with h | h | h <;> simp [h.2]
  · intro l n hx
    rcases hd with ⟨_, h, _⟩ | ⟨l', n', h, s1, w, name, s2, dd, -, -, hm, -⟩
    · rw [h] at hx; cases hx
    · rw [h] at hx
      cases hx
      simp only [devNames, List.mem_cons, Prod.mk.injEq, List.not_mem_nil, or_false] at hm
      exact hm.2
  · intro x hx
    rcases hl with ⟨_, h⟩ | ⟨_, ps, _, h, hps⟩
    · rw [h] at hx; cases hx
    · rw [h] at hx; cases hx
      exact parts_valid hps

/-- C45: whatever way a version is written, its printed form reads back as the same version, and
printing that gives the same text again. -/
theorem C45_normal_form (s : Str) (hs : ∀ c ∈ s, c.toNat < 128) (v : Ver) (h : Ver.parse s = some v) :
    Ver.parse v.show = some v ∧ ∀ w, Ver.parse v.show = some w → w.show = v.show := by
  have hr := C45_roundtrip v (C45_written_valid s v (written_parse hs h))
  refine ⟨hr, fun w hw => ?_⟩
  rw [hr] at hw
  cases hw
  rfl

/-- C45: different versions are printed differently. -/
theorem C45_show_injective (v w : Ver) (hv : ValidVersion v) (hw : ValidVersion w) (h : v.show = w.show) : v = w := by
  have := C45_roundtrip v hv
  rw [h, C45_roundtrip w hw] at this
  exact (Option.some.inj this).symm

/-- C45: a text is written in at most one way. -/
theorem C45_unambiguous (s : Str) (v w : Ver) (hv : Written s v) (hw : Written s w) : v = w := by
  have := parse_written hv
  rw [parse_written hw] at this
  exact (Option.some.inj this).symm

/-- C45 deviation: matching without case also takes the capital I with a dot; the printed
version is not a version any more. -/
theorem C45_dotted_capital :
    ∃ v, Ver.parse c!"1.0+İ" = some v ∧ Ver.parse v.show = none := by
  exact ⟨⟨0, [1, 0], none, none, none, some [.text c!"i̇"]⟩, rfl, rfl⟩

/-- C45 deviation: with the long s, the letter is not normalised, and the version is different
from its reprinted form. -/
theorem C45_long_s :
    ∃ v w, Ver.parse c!"1.0.poſt1" = some v ∧ Ver.parse v.show = some w ∧ v.eq w = false := by
  exact ⟨⟨0, [1, 0], none, none, some (c!"poſt", 1), none⟩, ⟨0, [1, 0], none, none, some (c!"post", 1), none⟩, rfl, rfl, rfl⟩

/-! Concrete cases. -/

example : (Ver.parse c!"  v1!02.0RC-1.post_3dev+Ab.007-x\n").map Ver.show = some c!"1!2.0rc1.post3.dev0+ab.7.x" := rfl
example : Ver.parse c!"1.0a-1" = some ⟨0, [1, 0], none, some (c!"a", 1), none, none⟩ := rfl
example : Ver.parse c!"1.0a1-1" = some ⟨0, [1, 0], none, some (c!"a", 1), some (c!"post", 1), none⟩ := rfl
example : Ver.parse c!"1.0-" = none := rfl
example : Ver.parse c!"1.0+" = none := rfl
example : Ver.parse c!"" = none := rfl
example : ValidVersion ⟨1, [2, 0], some (c!"dev", 0), some (c!"rc", 1), some (c!"post", 3), some [.text c!"ab", .num 7]⟩ := by
  refine ⟨by simp, ?_, ?_, ?_, ?_⟩
  · intro l n h; cases h; simp
  · intro l n h; cases h; rfl
  · intro l n h; cases h; rfl
  · intro l h; cases h
    refine ⟨by simp, fun p hp => ?_⟩
    simp only [List.mem_cons, List.not_mem_nil, or_false] at hp
    rcases hp with rfl | rfl
    · exact ⟨by decide, 'a', by decide, by decide⟩
    · trivial

end Gyp
