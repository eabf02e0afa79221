import Verif.Spec.MacTags
import Verif.Props.SysTags
/-
C126: the platform tags of macOS.
-/
namespace Gyp
open Spec

theorem pairLt_iff {a b : Nat × Nat} : pairLt a b = true ↔ a.1 < b.1 ∨ a.1 = b.1 ∧ a.2 < b.2 := by
  simp [pairLt]

theorem mem_macFormats {major minor : Nat} {cpu f : Str} :
    f ∈ macFormats (major, minor) cpu ↔ MacUsable cpu ⟨major, minor, f⟩ := by
  by_cases h1 : cpu = c!"x86_64"
  · subst h1
    by_cases hv : pairLt (major, minor) (10, 4) = true
    · have := pairLt_iff.mp hv
      simp [macFormats, hv, MacUsable, Runs]
      intro h; omega
    · have := mt pairLt_iff.mpr hv
      simp only [not_or, not_and] at this
      have hr : 10 < major ∨ major = 10 ∧ 4 ≤ minor := by omega
      simp [macFormats, hv, MacUsable, Runs, HasCodeFor, hr]
  by_cases h2 : cpu = c!"i386"
  · subst h2
    by_cases hv : pairLt (major, minor) (10, 4) = true
    · have := pairLt_iff.mp hv
      simp [macFormats, hv, MacUsable, Runs]
      intro h; omega
    · have := mt pairLt_iff.mpr hv
      simp only [not_or, not_and] at this
      have hr : 10 < major ∨ major = 10 ∧ 4 ≤ minor := by omega
      simp [macFormats, hv, MacUsable, Runs, HasCodeFor, hr]
  by_cases h3 : cpu = c!"ppc64"
  · subst h3
    by_cases hv : (pairLt (10, 5) (major, minor) || pairLt (major, minor) (10, 4)) = true
    · have := hv
      simp only [Bool.or_eq_true, pairLt_iff] at this
      simp [macFormats, hv, MacUsable, Runs]
      intro h; omega
    · have := hv
      simp only [Bool.or_eq_true, pairLt_iff, not_or, not_and] at this
      have hr : major = 10 ∧ 4 ≤ minor ∧ minor ≤ 5 := by omega
      have e : (pairLt (10, 5) (major, minor) || pairLt (major, minor) (10, 4)) = false := by simpa using hv
      simp only [macFormats, e]
      simp [MacUsable, Runs, HasCodeFor, hr]
  by_cases h4 : cpu = c!"ppc"
  · subst h4
    by_cases hv : pairLt (10, 6) (major, minor) = true
    · have := pairLt_iff.mp hv
      simp [macFormats, hv, MacUsable, Runs]
      intro h; omega
    · have := mt pairLt_iff.mpr hv
      simp only [not_or, not_and] at this
      have hr : major < 10 ∨ major = 10 ∧ minor ≤ 6 := by omega
      simp [macFormats, hv, MacUsable, Runs, HasCodeFor, hr]
  by_cases h5 : cpu = c!"arm64"
  · subst h5
    simp [macFormats, MacUsable, Runs, HasCodeFor]
  by_cases h6 : cpu = c!"intel"
  · subst h6
    simp [macFormats, MacUsable, Runs, HasCodeFor]
  · simp [macFormats, MacUsable, Runs, HasCodeFor, h1, h2, h3, h4, h5, h6]

theorem macTag_text (a b : Nat) (f : Str) : MacText ⟨a, b, f⟩ (macTag a b f) := by simp [MacText, macTag]

theorem version_cases (v : Nat × Nat) :
    ((!pairLt v (10, 0) && pairLt v (11, 0)) = true ↔ v.1 = 10) ∧ ((!pairLt v (11, 0)) = true ↔ 11 ≤ v.1) := by
  simp only [pairLt, Bool.and_eq_true, Bool.not_eq_true', Bool.or_eq_false_iff, Bool.or_eq_true,
    Bool.and_eq_false_iff, decide_eq_false_iff_not, decide_eq_true_eq]
  omega

/-- **C126 (exact).** The tags are exactly those of the platforms that fit. -/
theorem C126_exact (version : Nat × Nat) (cpu s : Str) :
    s ∈ macPlatforms version cpu ↔ ∃ t, MacFits version cpu t ∧ MacText t s := by
  obtain ⟨c1, c2⟩ := version_cases version
  have text : ∀ {t : MacTag} {u : Str}, MacText t u ↔ macTag t.major t.minor t.format = u := by
    intro t u; simp [MacText, macTag, eq_comm]
  simp only [macPlatforms, List.mem_append, List.mem_ite_nil_right, c1, c2]
  constructor
  · rintro ((⟨h, hm⟩ | ⟨h, hm⟩) | ⟨h, hm⟩)
    · obtain ⟨k, hk, hm⟩ := List.mem_flatMap.mp hm
      obtain ⟨f, hf, rfl⟩ := List.mem_map.mp hm
      exact ⟨⟨10, k, f⟩, .inl ⟨h, rfl, (mem_downTo.mp hk).2, mem_macFormats.mp hf⟩, macTag_text ..⟩
    · obtain ⟨k, hk, hm⟩ := List.mem_flatMap.mp hm
      obtain ⟨f, hf, rfl⟩ := List.mem_map.mp hm
      have := mem_downTo.mp hk
      exact ⟨⟨k, 0, f⟩, .inr (.inl ⟨h, this.1, this.2, rfl, mem_macFormats.mp hf⟩), macTag_text ..⟩
    · split at hm
      · rename_i hx
        obtain ⟨k, hk, hm⟩ := List.mem_flatMap.mp hm
        obtain ⟨f, hf, rfl⟩ := List.mem_map.mp hm
        have := mem_downTo.mp hk
        exact ⟨⟨10, k, f⟩, .inr (.inr ⟨h, rfl, this.1, this.2, .inl ⟨hx, mem_macFormats.mp hf⟩⟩), macTag_text ..⟩
      · rename_i hx
        obtain ⟨k, hk, rfl⟩ := List.mem_map.mp hm
        have := mem_downTo.mp hk
        exact ⟨⟨10, k, c!"universal2"⟩, .inr (.inr ⟨h, rfl, this.1, this.2, .inr ⟨hx, rfl⟩⟩), macTag_text ..⟩
  · rintro ⟨⟨a, b, f⟩, ht, hs⟩
    have hs := text.mp hs
    simp only at hs
    subst hs
    rcases ht with ⟨h, h1, h2, hu⟩ | ⟨h, h1, h2, h3, hu⟩ | ⟨h, h1, h2, h3, hu⟩
    · simp only at h1 h2
      subst h1
      exact .inl (.inl ⟨h, List.mem_flatMap.mpr ⟨b, mem_downTo.mpr ⟨Nat.zero_le _, h2⟩,
        List.mem_map.mpr ⟨f, mem_macFormats.mpr hu, rfl⟩⟩⟩)
    · simp only at h1 h2 h3
      subst h3
      exact .inl (.inr ⟨h, List.mem_flatMap.mpr ⟨a, mem_downTo.mpr ⟨h1, h2⟩,
        List.mem_map.mpr ⟨f, mem_macFormats.mpr hu, rfl⟩⟩⟩)
    · simp only at h1 h2 h3
      subst h1
      refine .inr ⟨h, ?_⟩
      rcases hu with ⟨hx, hu⟩ | ⟨hx, hu⟩
      · rw [if_pos hx]
        exact List.mem_flatMap.mpr ⟨b, mem_downTo.mpr ⟨h2, h3⟩, List.mem_map.mpr ⟨f, mem_macFormats.mpr hu, rfl⟩⟩
      · rw [if_neg hx]
        simp only at hu
        subst hu
        exact List.mem_map.mpr ⟨b, mem_downTo.mpr ⟨h2, h3⟩, rfl⟩

/-- **C126 (one meaning).** A tag is the tag of one platform only. -/
theorem C126_read {t u : MacTag} {s : Str} (h : MacText t s) (h' : MacText u s) : t = u := by
  obtain ⟨x, y, a⟩ := t
  obtain ⟨p, q, b⟩ := u
  simp only [MacText] at h h'
  rw [h] at h'
  simp only [List.append_assoc, List.cons_append, List.nil_append, List.cons.injEq, true_and] at h'
  obtain ⟨e1, h'⟩ := digits_cut (natStr_no_underscore _) (natStr_no_underscore _) h'
  obtain ⟨e2, e3⟩ := digits_cut (natStr_no_underscore _) (natStr_no_underscore _) h'
  rw [natStr_injective e1, natStr_injective e2, e3]

/-- **C126 (order).** Tags of later releases come first, and for one release the format of the processor itself comes
before the others. -/
theorem C126_order (version : Nat × Nat) (cpu : Str) :
    ∃ ts : List MacTag, List.Forall₂ MacText ts (macPlatforms version cpu) ∧
      ts.Pairwise fun a b => EarlierMac b a ∨ a.major = b.major ∧ a.minor = b.minor ∧ b.format ≠ cpu := by
  have hfm : ∀ v, (macFormats v cpu).Pairwise (fun _ b => b ≠ cpu) := by
    intro v
    unfold macFormats
    by_cases h1 : cpu = c!"x86_64"
    · subst h1; simp only [if_true]; split <;> decide
    by_cases h2 : cpu = c!"i386"
    · subst h2; simp only [h1, if_true, if_false]; split <;> decide
    by_cases h3 : cpu = c!"ppc64"
    · subst h3; simp only [h1, h2, if_true, if_false]; split <;> decide
    by_cases h4 : cpu = c!"ppc"
    · subst h4; simp only [h1, h2, h3, if_true, if_false]; split <;> decide
    by_cases h5 : cpu = c!"arm64"
    · subst h5; simp only [h1, h2, h3, h4, if_false]; decide
    by_cases h6 : cpu = c!"intel"
    · subst h6; simp only [h1, h2, h3, h4, if_false]; decide
    · simp [h1, h2, h3, h4, h5, h6]
  let R := fun a b : MacTag => EarlierMac b a ∨ a.major = b.major ∧ a.minor = b.minor ∧ b.format ≠ cpu
  let A := if !pairLt version (10, 0) && pairLt version (11, 0) then
    (downTo version.2 0).flatMap fun k => (macFormats (10, k) cpu).map fun f => (⟨10, k, f⟩ : MacTag) else []
  let B := if !pairLt version (11, 0) then
    (downTo version.1 11).flatMap fun k => (macFormats (k, 0) cpu).map fun f => (⟨k, 0, f⟩ : MacTag) else []
  let C := if !pairLt version (11, 0) then
    (if cpu = c!"x86_64" then
      (downTo 16 4).flatMap fun k => (macFormats (10, k) cpu).map fun f => (⟨10, k, f⟩ : MacTag)
    else (downTo 16 4).map fun k => (⟨10, k, c!"universal2"⟩ : MacTag)) else []
  obtain ⟨c1, c2⟩ := version_cases version
  have one : ∀ (l : List Str) (x y : Nat), List.Forall₂ MacText (l.map fun f => (⟨x, y, f⟩ : MacTag)) (l.map (macTag x y)) := by
    intro l x y
    rw [List.forall₂_map_left_iff, List.forall₂_map_right_iff, List.forall₂_same]
    intro f _; exact macTag_text ..
  have hA10 : ∀ hi lo, ((downTo hi lo).flatMap fun k => (macFormats (10, k) cpu).map fun f =>
      (⟨10, k, f⟩ : MacTag)).Pairwise R := by
    intro hi lo
    refine pairwise_flatMap' ?_ ?_
    · intro k _
      rw [List.pairwise_map]
      exact (hfm _).imp fun h => .inr ⟨rfl, rfl, h⟩
    · refine (downTo_sorted _ _).imp ?_
      intro a b hab x hx y hy
      obtain ⟨_, _, rfl⟩ := List.mem_map.mp hx
      obtain ⟨_, _, rfl⟩ := List.mem_map.mp hy
      exact .inl (.inr ⟨rfl, hab⟩)
  refine ⟨A ++ B ++ C, ?_, ?_⟩
  · refine List.rel_append (List.rel_append ?_ ?_) ?_
    · simp only [A]
      split
      · exact forall₂_flatMap _ fun k _ => one _ _ _
      · exact .nil
    · simp only [B]
      split
      · exact forall₂_flatMap _ fun k _ => one _ _ _
      · exact .nil
    · simp only [C]
      split
      · split
        · exact forall₂_flatMap _ fun k _ => one _ _ _
        · rw [List.forall₂_map_left_iff, List.forall₂_map_right_iff, List.forall₂_same]
          intro f _; exact macTag_text ..
      · exact .nil
  · show (A ++ B ++ C).Pairwise R
    have hC : C.Pairwise R := by
      simp only [C]
      split
      · split
        · exact hA10 _ _
        · rw [List.pairwise_map]
          exact (downTo_sorted _ _).imp fun h => .inl (.inr ⟨rfl, h⟩)
      · exact .nil
    have hB : B.Pairwise R := by
      simp only [B]
      split
      · refine pairwise_flatMap' ?_ ?_
        · intro k _
          rw [List.pairwise_map]
          exact (hfm _).imp fun h => .inr ⟨rfl, rfl, h⟩
        · refine (downTo_sorted _ _).imp ?_
          intro a b hab x hx y hy
          obtain ⟨_, _, rfl⟩ := List.mem_map.mp hx
          obtain ⟨_, _, rfl⟩ := List.mem_map.mp hy
          exact .inl (.inl hab)
      · exact .nil
    have hBC : ∀ x ∈ B, ∀ y ∈ C, R x y := by
      intro x hx y hy
      simp only [B, List.mem_ite_nil_right] at hx
      obtain ⟨k, hk, hx⟩ := List.mem_flatMap.mp hx.2
      obtain ⟨_, _, rfl⟩ := List.mem_map.mp hx
      have := mem_downTo.mp hk
      have hy10 : y.major = 10 := by
        simp only [C, List.mem_ite_nil_right] at hy
        have hy := hy.2
        split at hy
        · obtain ⟨_, _, hy⟩ := List.mem_flatMap.mp hy
          obtain ⟨_, _, rfl⟩ := List.mem_map.mp hy
          rfl
        · obtain ⟨_, _, rfl⟩ := List.mem_map.mp hy
          rfl
      exact .inl (.inl (by rw [hy10]; simp only; omega))
    by_cases h : version.1 = 10
    · have h11 : ¬ 11 ≤ version.1 := by omega
      have eB : B = [] := by simp only [B]; rw [if_neg (mt c2.mp h11)]
      have eC : C = [] := by simp only [C]; rw [if_neg (mt c2.mp h11)]
      rw [eB, eC, List.append_nil, List.append_nil]
      simp only [A]
      rw [if_pos (c1.mpr h)]
      exact hA10 _ _
    · have eA : A = [] := by simp only [A]; rw [if_neg (mt c1.mp h)]
      rw [eA, List.nil_append, List.pairwise_append]
      exact ⟨hB, hC, hBC⟩

/-- **C126 (newer systems).** What fits an Intel Mac fits every later macOS on it; from 11 on this holds for every
processor. -/
theorem C126_newer {v w : Nat × Nat} {cpu : Str}
    (h : 11 ≤ v.1 ∧ v.1 ≤ w.1 ∨ v.1 = 10 ∧ w.1 = 10 ∧ v.2 ≤ w.2 ∨ cpu = c!"x86_64" ∧ v.1 = 10 ∧ v.2 ≤ 16 ∧ 11 ≤ w.1)
    {s : Str} (hs : s ∈ macPlatforms v cpu) : s ∈ macPlatforms w cpu := by
  obtain ⟨t, ht, hts⟩ := (C126_exact v cpu s).mp hs
  refine (C126_exact w cpu s).mpr ⟨t, ?_, hts⟩
  rcases ht with ⟨a, b, c, d⟩ | ⟨a, b, c, d, e⟩ | ⟨a, b, c, d, e⟩
  · rcases h with h | h | ⟨hx, h⟩
    · omega
    · exact .inl ⟨h.2.1, b, by omega, d⟩
    · refine .inr (.inr ⟨h.2.2, b, ?_, by omega, .inl ⟨hx, d⟩⟩)
      have := d.1.1 (.inl hx)
      omega
  · exact .inr (.inl ⟨by omega, b, by omega, d, e⟩)
  · exact .inr (.inr ⟨by omega, b, c, d, e⟩)

example : (macPlatforms (10, 4) c!"ppc").take 4 =
    [c!"macosx_10_4_ppc", c!"macosx_10_4_fat32", c!"macosx_10_4_fat", c!"macosx_10_4_universal"] := by decide +kernel
example : (macPlatforms (12, 3) c!"arm64").take 5 =
    [c!"macosx_12_0_arm64", c!"macosx_12_0_universal2", c!"macosx_11_0_arm64", c!"macosx_11_0_universal2",
     c!"macosx_10_16_universal2"] := by decide +kernel
example : c!"macosx_10_9_x86_64" ∈ macPlatforms (14, 0) c!"x86_64" := by decide +kernel

/-- **C126 (found by the proof).** A PowerPC with macOS 11 would get universal2, which has no code for it. -/
theorem C126_powerpc : c!"macosx_10_9_universal2" ∈ macPlatforms (11, 0) c!"ppc" ∧ ¬ HasCodeFor c!"universal2" c!"ppc" := by
  refine ⟨by decide +kernel, ?_⟩
  unfold HasCodeFor; decide

end Gyp
