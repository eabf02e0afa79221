import Verif.Proofs.SysTags
/-
C125: the tags of wheels that fit a system.
-/
namespace Gyp
open Spec

theorem mem_forall₂_right {α β : Type} {R : α → β → Prop} {l : List α} {m : List β} (h : List.Forall₂ R l m) :
    ∀ {b}, b ∈ m → ∃ a ∈ l, R a b := by
  induction h with
  | nil => intro b hb; cases hb
  | cons hr _ ih =>
    intro b hb
    rcases List.mem_cons.mp hb with rfl | hb
    · exact ⟨_, by simp, hr⟩
    · obtain ⟨a, ha, hab⟩ := ih hb
      exact ⟨a, by simp [ha], hab⟩

theorem mem_forall₂_left {α β : Type} {R : α → β → Prop} {l : List α} {m : List β} (h : List.Forall₂ R l m) :
    ∀ {a}, a ∈ l → ∃ b ∈ m, R a b := by
  induction h with
  | nil => intro b hb; cases hb
  | cons hr _ ih =>
    intro b hb
    rcases List.mem_cons.mp hb with rfl | hb
    · exact ⟨_, by simp, hr⟩
    · obtain ⟨a, ha, hab⟩ := ih hb
      exact ⟨a, by simp [ha], hab⟩

theorem tagText_functional {t : ManyTag} {s u : Str} (h : TagText t s) (h' : TagText t u) : s = u := by
  unfold TagText at h h'
  split at h
  · rename_i ho
    rw [if_pos ho] at h'
    rcases h with ⟨_, h, rfl⟩ | ⟨_, h, rfl⟩ | ⟨_, h, rfl⟩ <;>
      rcases h' with ⟨_, h', rfl⟩ | ⟨_, h', rfl⟩ | ⟨_, h', rfl⟩ <;> first | rfl | (rw [h] at h'; cases h')
  · rename_i ho
    rw [if_neg ho] at h'
    rw [h, h']

/-- **C125 (manylinux).** The tags are exactly those of the platforms that fit. -/
theorem C125_manylinux {elf : ElfFacts} {glibc : Nat × Nat} (hg : 2 ≤ glibc.1) {mod : Option ManyModule}
    {archs : List Str} (habi : haveCompatibleAbi elf archs = true) (s : Str) :
    s ∈ manylinuxTags elf (some glibc) mod archs ↔ ∃ t, GlibcFits glibc mod archs t ∧ TagText t s := by
  have hf := manyEntries_text glibc mod archs habi
  constructor
  · intro h
    obtain ⟨t, ht, hts⟩ := mem_forall₂_right hf h
    exact ⟨t, ((mem_manyEntries hg).mp ht).1, hts⟩
  · rintro ⟨t, ht, hts⟩
    have hm : t ∈ manyEntries glibc mod archs := by
      refine (mem_manyEntries hg).mpr ⟨ht, fun ho => ?_⟩
      unfold TagText at hts
      rw [if_pos ho] at hts
      rcases hts with ⟨a, b, -⟩ | ⟨a, b, -⟩ | ⟨a, b, -⟩ <;> rw [a, b] <;> rfl
    obtain ⟨u, hu, htu⟩ := mem_forall₂_left hf hm
    rw [tagText_functional hts htu]
    exact hu

/-- **C125 (manylinux, order).** Better tags come first, and there is no second copy of a platform. -/
theorem C125_manylinux_order {elf : ElfFacts} (glibc : Nat × Nat) (mod : Option ManyModule)
    {archs : List Str} (habi : haveCompatibleAbi elf archs = true) (hn : archs.Nodup) :
    ∃ ts : List ManyTag, List.Forall₂ TagText ts (manylinuxTags elf (some glibc) mod archs) ∧
      ts.Pairwise (Better archs) :=
  ⟨_, manyEntries_text glibc mod archs habi, manyEntries_sorted hn⟩

theorem digits_cut {a b r t : Str} (ha : '_' ∉ a) (hb : '_' ∉ b) (h : a ++ '_' :: r = b ++ '_' :: t) :
    a = b ∧ r = t := by
  induction a generalizing b with
  | nil =>
    cases b with
    | nil => simpa using h
    | cons c b => simp only [List.nil_append, List.cons_append, List.cons.injEq] at h; exact absurd (by rw [h.1]; simp) hb
  | cons c a ih =>
    cases b with
    | nil => simp only [List.nil_append, List.cons_append, List.cons.injEq] at h; exact absurd (by rw [h.1]; simp) ha
    | cons d b =>
      simp only [List.cons_append, List.cons.injEq] at h
      obtain ⟨e1, e2⟩ := ih (fun hm => ha (by simp [hm])) (fun hm => hb (by simp [hm])) h.2
      exact ⟨by rw [h.1, e1], e2⟩

theorem natStr_no_underscore (n : Nat) : '_' ∉ natStr n := fun h =>
  absurd (digits_all (natStr_digits n) _ h) (by decide)

/-- **C125 (manylinux, one meaning).** A tag is the tag of one platform only. -/
theorem C125_manylinux_read {t u : ManyTag} {s : Str} (h : TagText t s) (h' : TagText u s) : t = u := by
  obtain ⟨a, x, y, o⟩ := t
  obtain ⟨b, p, q, r⟩ := u
  cases o <;> cases r <;> simp only [TagText, Bool.false_eq_true, if_false, if_true] at h h'
  · rw [h] at h'
    simp only [List.append_assoc, List.cons_append, List.nil_append, List.cons.injEq, true_and] at h'
    obtain ⟨e1, h'⟩ := digits_cut (natStr_no_underscore _) (natStr_no_underscore _) h'
    obtain ⟨e2, e3⟩ := digits_cut (natStr_no_underscore _) (natStr_no_underscore _) h'
    rw [natStr_injective e1, natStr_injective e2, e3]
  · rw [h] at h'
    simp at h'
  · rw [h'] at h
    simp at h
  · rcases h with ⟨rfl, rfl, h⟩ | ⟨rfl, rfl, h⟩ | ⟨rfl, rfl, h⟩ <;>
      rcases h' with ⟨rfl, rfl, h'⟩ | ⟨rfl, rfl, h'⟩ | ⟨rfl, rfl, h'⟩ <;> rw [h] at h' <;>
      simp at h' <;> rw [h']

/-- **C125 (ABI).** An interpreter for 32-bit ARM must use hard floats, one for i686 must be for i686, and otherwise one of
six architectures must do. -/
theorem C125_abi {elf : ElfFacts} {archs : List Str} : haveCompatibleAbi elf archs = true ↔
    (c!"armv7l" ∈ archs → elf.armhf = true) ∧ (c!"armv7l" ∉ archs → c!"i686" ∈ archs → elf.i686 = true) ∧
    (c!"armv7l" ∉ archs → c!"i686" ∉ archs → c!"x86_64" ∈ archs ∨ c!"aarch64" ∈ archs ∨ c!"ppc64" ∈ archs ∨
      c!"ppc64le" ∈ archs ∨ c!"s390x" ∈ archs ∨ c!"loongarch64" ∈ archs) := by
  unfold haveCompatibleAbi
  by_cases h1 : c!"armv7l" ∈ archs
  · simp only [h1, if_true, not_true, false_imp_iff, true_imp_iff, and_true]
  · by_cases h2 : c!"i686" ∈ archs
    · simp only [h1, h2, if_true, if_false, not_true, not_false_iff, false_imp_iff, true_imp_iff, and_true, true_and]
    · simp only [h1, h2, if_false, not_false_iff, false_imp_iff, true_imp_iff, true_and, List.any_eq_true,
        decide_eq_true_eq, List.mem_cons, List.not_mem_nil, or_false]
      constructor
      · rintro ⟨a, ha, rfl | rfl | rfl | rfl | rfl | rfl⟩ <;> simp [ha]
      · rintro (h | h | h | h | h | h) <;> exact ⟨_, h, by simp⟩

/-- **C125 (manylinux, none).** Without a fitting ABI or without glibc there are no tags. -/
theorem C125_manylinux_none {elf : ElfFacts} {mod : Option ManyModule} {archs : List Str} :
    (haveCompatibleAbi elf archs = false → ∀ glibc, manylinuxTags elf glibc mod archs = []) ∧
    manylinuxTags elf none mod archs = [] := by
  constructor
  · intro h glibc; simp [manylinuxTags, h]
  · simp [manylinuxTags]

example : manylinuxTags ⟨false, false⟩ (some (2, 18)) none [c!"aarch64"] =
    [c!"manylinux_2_18_aarch64", c!"manylinux_2_17_aarch64", c!"manylinux2014_aarch64"] := by decide +kernel
example : c!"manylinux_2_50_s390x" ∈ manylinuxTags ⟨false, false⟩ (some (3, 1)) none [c!"s390x"] := by decide +kernel
example : manylinuxTags ⟨false, false⟩ (some (2, 5)) (some ⟨none, some false, none, none⟩) [c!"x86_64"] = [] := by
  decide +kernel
example : haveCompatibleAbi ⟨false, false⟩ [c!"x86_64"] = true := by decide +kernel

/-- **C125 (found by the proof).** A glibc before 2 gets tags, although the oldest that is supported is 2.17. -/
theorem C125_before_two : manylinuxTags ⟨false, false⟩ (some (1, 1)) none [c!"aarch64"] =
    [c!"manylinux_1_1_aarch64", c!"manylinux_1_0_aarch64"] := by decide +kernel

/-- **C125 (musllinux).** For musl `major.minor` exactly the tags of the minor versions up to this one. -/
theorem C125_musllinux {major minor : Nat} {archs : List Str} (s : Str) :
    s ∈ musllinuxTags (some (major, minor)) archs ↔ ∃ arch ∈ archs, ∃ k ≤ minor,
      s = c!"musllinux_" ++ natStr major ++ c!"_" ++ natStr k ++ c!"_" ++ arch := by
  simp only [musllinuxTags, List.mem_flatMap, List.mem_map, mem_downTo]
  constructor
  · rintro ⟨a, ha, k, hk, rfl⟩
    exact ⟨a, ha, k, hk.2, by simp⟩
  · rintro ⟨a, ha, k, hk, rfl⟩
    exact ⟨a, ha, k, ⟨Nat.zero_le _, hk⟩, by simp⟩

/-- **C125 (musllinux, order).** Earlier architectures come first, then newer versions. -/
theorem C125_musllinux_order (major minor : Nat) {archs : List Str} (hn : archs.Nodup) :
    ∃ ts : List (Str × Nat), List.Forall₂ (fun t s =>
        s = c!"musllinux_" ++ natStr major ++ c!"_" ++ natStr t.2 ++ c!"_" ++ t.1) ts
          (musllinuxTags (some (major, minor)) archs) ∧
      ts.Pairwise fun a b => archs.idxOf a.1 < archs.idxOf b.1 ∨ a.1 = b.1 ∧ b.2 < a.2 := by
  refine ⟨archs.flatMap fun a => (downTo minor 0).map fun k => (a, k), ?_, ?_⟩
  · refine forall₂_flatMap _ fun a _ => ?_
    rw [List.forall₂_map_left_iff, List.forall₂_map_right_iff, List.forall₂_same]
    intro k _; simp
  · refine pairwise_flatMap' ?_ ?_
    · intro a _
      rw [List.pairwise_map]
      exact (downTo_sorted _ _).imp fun h => .inr ⟨rfl, h⟩
    · refine (idxOf_sorted hn).imp ?_
      intro a b hab x hx y hy
      obtain ⟨_, _, rfl⟩ := List.mem_map.mp hx
      obtain ⟨_, _, rfl⟩ := List.mem_map.mp hy
      exact .inl hab

example : musllinuxTags (some (1, 1)) [c!"x86_64"] = [c!"musllinux_1_1_x86_64", c!"musllinux_1_0_x86_64"] := by
  decide +kernel

theorem abi3Applies_iff {major minor : Nat} : abi3Applies major minor = true ↔ HasStableAbi major minor := by
  simp only [abi3Applies, pairLt, HasStableAbi, Bool.not_eq_true', Bool.or_eq_false_iff, Bool.and_eq_false_iff,
    decide_eq_false_iff_not]
  omega

theorem lower_pre_nodot {pre : Str} (hp : lowerStr pre = pre) (a b : Nat) :
    lowerStr (pre ++ nodot a b) = pre ++ natStr a ++ natStr b := by
  rw [nodot, ← List.append_assoc]
  exact lower_natStr_pre (lower_natStr_pre hp a) b

theorem lower_cp : lowerStr c!"cp" = c!"cp" := by decide +kernel
theorem lower_py : lowerStr c!"py" = c!"py" := by decide +kernel
theorem lower_abi3 : lowerStr c!"abi3" = c!"abi3" := by decide +kernel
theorem lower_none : lowerStr c!"none" = c!"none" := by decide +kernel
theorem lower_any : lowerStr c!"any" = c!"any" := by decide +kernel

theorem mem_erase_two {abis : List Str} (hn : abis.Nodup) {a : Str} :
    a ∈ (abis.erase c!"abi3").erase c!"none" ↔ a ∈ abis ∧ a ≠ c!"abi3" ∧ a ≠ c!"none" := by
  rw [(hn.erase _).mem_erase_iff, hn.mem_erase_iff]
  exact ⟨fun ⟨x, y, z⟩ => ⟨z, y, x⟩, fun ⟨z, y, x⟩ => ⟨x, y, z⟩⟩

theorem forall₂_replicate {α β : Type} {R : α → β → Prop} {b : β} :
    ∀ {l : List α}, (∀ a ∈ l, R a b) → List.Forall₂ R l (List.replicate l.length b)
  | [], _ => .nil
  | a :: l, h => .cons (h a (by simp)) (forall₂_replicate fun c hc => h c (by simp [hc]))

/-- **C125 (CPython, order).** The tags are ordered by how well they fit. -/
theorem C125_cpython_order (major minor : Nat) {abis : List Str} (hn : abis.Nodup) (platforms : List Str) :
    ∃ rs : List Nat, List.Forall₂ (CPythonFits major minor abis) (cpythonTags major minor abis platforms) rs ∧
      rs.Pairwise (· ≤ ·) := by
  let A := ((abis.erase c!"abi3").erase c!"none").flatMap fun a =>
    platforms.map fun p => mkTag (c!"cp" ++ nodot major minor) a p
  have hA : List.Forall₂ (CPythonFits major minor abis) A (List.replicate A.length 0) := by
    apply forall₂_replicate
    intro t ht
    obtain ⟨a, ha, ht⟩ := List.mem_flatMap.mp ht
    obtain ⟨p, _, rfl⟩ := List.mem_map.mp ht
    have := (mem_erase_two hn).mp ha
    exact .inl ⟨lower_pre_nodot lower_cp _ _, .inl ⟨a, this.1, this.2.1, this.2.2, rfl, rfl⟩⟩
  have hC : List.Forall₂ (CPythonFits major minor abis)
      (platforms.map fun p => mkTag (c!"cp" ++ nodot major minor) c!"none" p)
      (List.replicate (platforms.map fun p => mkTag (c!"cp" ++ nodot major minor) c!"none" p).length 2) := by
    apply forall₂_replicate
    intro t ht
    obtain ⟨p, _, rfl⟩ := List.mem_map.mp ht
    exact .inl ⟨lower_pre_nodot lower_cp _ _, .inr (.inr ⟨lower_none, rfl⟩)⟩
  by_cases hs : abi3Applies major minor = true
  · have hst := abi3Applies_iff.mp hs
    have hB : List.Forall₂ (CPythonFits major minor abis)
        (platforms.map fun p => mkTag (c!"cp" ++ nodot major minor) c!"abi3" p)
        (List.replicate (platforms.map fun p => mkTag (c!"cp" ++ nodot major minor) c!"abi3" p).length 1) := by
      apply forall₂_replicate
      intro t ht
      obtain ⟨p, _, rfl⟩ := List.mem_map.mp ht
      exact .inl ⟨lower_pre_nodot lower_cp _ _, .inr (.inl ⟨hst, lower_abi3, rfl⟩)⟩
    have hD : List.Forall₂ (CPythonFits major minor abis)
        ((downTo (minor - 1) 2).flatMap fun k =>
          platforms.map fun p => mkTag (c!"cp" ++ nodot major k) c!"abi3" p)
        ((downTo (minor - 1) 2).flatMap fun k => List.replicate
          (platforms.map fun p => mkTag (c!"cp" ++ nodot major k) c!"abi3" p).length (2 + (minor - k))) := by
      apply forall₂_flatMap
      intro k hk
      have := mem_downTo.mp hk
      apply forall₂_replicate
      intro t ht
      obtain ⟨p, _, rfl⟩ := List.mem_map.mp ht
      exact .inr ⟨hst, lower_abi3, k, this.1, by omega, lower_pre_nodot lower_cp _ _, rfl⟩
    have hf := List.rel_append (List.rel_append (List.rel_append hA hB) hC) hD
    refine ⟨_, by simp only [cpythonTags, hs, if_true]; exact hf, ?_⟩
    · rw [List.pairwise_append, List.pairwise_append, List.pairwise_append]
      refine ⟨⟨⟨?_, ?_, ?_⟩, ?_, ?_⟩, ?_, ?_⟩
      · exact List.pairwise_replicate.mpr (.inr (Nat.le_refl _))
      · exact List.pairwise_replicate.mpr (.inr (Nat.le_refl _))
      · intro x hx y hy; rw [List.eq_of_mem_replicate hx]; exact Nat.zero_le _
      · exact List.pairwise_replicate.mpr (.inr (Nat.le_refl _))
      · intro x hx y hy
        rw [List.eq_of_mem_replicate hy]
        rcases List.mem_append.mp hx with hx | hx <;> rw [List.eq_of_mem_replicate hx] <;> decide
      · refine pairwise_flatMap' ?_ ?_
        · intro k _; exact List.pairwise_replicate.mpr (.inr (Nat.le_refl _))
        · refine (downTo_sorted _ _).imp ?_
          intro k j hkj x hx y hy
          rw [List.eq_of_mem_replicate hx, List.eq_of_mem_replicate hy]
          omega
      · intro x hx y hy
        obtain ⟨k, _, hy⟩ := List.mem_flatMap.mp hy
        rw [List.eq_of_mem_replicate hy]
        have : x ≤ 2 := by
          rcases List.mem_append.mp hx with hx | hx
          · rcases List.mem_append.mp hx with hx | hx <;> rw [List.eq_of_mem_replicate hx] <;> decide
          · rw [List.eq_of_mem_replicate hx]
        omega
  · have hf := List.rel_append hA hC
    refine ⟨_, by simp only [cpythonTags, hs, Bool.false_eq_true, if_false, List.append_nil]; exact hf, ?_⟩
    · rw [List.pairwise_append]
      refine ⟨List.pairwise_replicate.mpr (.inr (Nat.le_refl _)), List.pairwise_replicate.mpr (.inr (Nat.le_refl _)), ?_⟩
      intro x hx y hy; rw [List.eq_of_mem_replicate hx]; exact Nat.zero_le _

/-- **C125 (CPython).** The tags are exactly those with a fitting interpreter and ABI and a platform of the system. -/
theorem C125_cpython {major minor : Nat} {abis : List Str} (hn : abis.Nodup) {platforms : List Str} (t : WTag) :
    t ∈ cpythonTags major minor abis platforms ↔
      (∃ rank, CPythonFits major minor abis t rank) ∧ ∃ p ∈ platforms, t.platform = lowerStr p := by
  constructor
  · intro h
    obtain ⟨rs, hf, -⟩ := C125_cpython_order major minor hn platforms
    obtain ⟨r, _, hr⟩ := mem_forall₂_left hf h
    refine ⟨⟨r, hr⟩, ?_⟩
    simp only [cpythonTags, List.mem_append, List.mem_flatMap, List.mem_map, List.mem_ite_nil_right] at h
    rcases h with ((⟨_, _, p, hp, rfl⟩ | ⟨_, p, hp, rfl⟩) | ⟨p, hp, rfl⟩) | ⟨_, _, _, p, hp, rfl⟩ <;>
      exact ⟨p, hp, rfl⟩
  · rintro ⟨⟨r, hr⟩, p, hp, e⟩
    obtain ⟨i, a, q⟩ := t
    simp only at e
    subst e
    simp only [cpythonTags, List.mem_append, List.mem_flatMap, List.mem_map, List.mem_ite_nil_right,
      abi3Applies_iff]
    rcases hr with ⟨rfl, ⟨x, hx, h1, h2, h3, _⟩ | ⟨hs, rfl, _⟩ | ⟨rfl, _⟩⟩ | ⟨hs, rfl, k, h1, h2, rfl, _⟩
    · simp only at h3
      subst h3
      exact .inl (.inl (.inl ⟨x, (mem_erase_two hn).mpr ⟨hx, h1, h2⟩, p, hp, by
        rw [mkTag, lower_pre_nodot lower_cp]⟩))
    · exact .inl (.inl (.inr ⟨hs, p, hp, by rw [mkTag, lower_pre_nodot lower_cp, lower_abi3]⟩))
    · exact .inl (.inr ⟨p, hp, by rw [mkTag, lower_pre_nodot lower_cp, lower_none]⟩)
    · exact .inr ⟨hs, k, mem_downTo.mpr ⟨h1, by omega⟩, p, hp, by
        rw [mkTag, lower_pre_nodot lower_cp, lower_abi3]⟩

example : cpythonTags 3 4 [c!"cp34m", c!"none"] [c!"win32"] =
    [⟨c!"cp34", c!"cp34m", c!"win32"⟩, ⟨c!"cp34", c!"abi3", c!"win32"⟩, ⟨c!"cp34", c!"none", c!"win32"⟩,
     ⟨c!"cp33", c!"abi3", c!"win32"⟩, ⟨c!"cp32", c!"abi3", c!"win32"⟩] := by decide +kernel
example : cpythonTags 2 7 [c!"cp27mu"] [c!"win32"] =
    [⟨c!"cp27", c!"cp27mu", c!"win32"⟩, ⟨c!"cp27", c!"none", c!"win32"⟩] := by decide +kernel

theorem pyRange_fits (major minor : Nat) : ∃ rs : List Nat,
    List.Forall₂ (fun v r => lowerStr v = v ∧ PyFits major minor v r) (pyRange major minor) rs ∧
      rs.Pairwise (· < ·) := by
  refine ⟨0 :: 1 :: (if minor = 0 then [] else (downTo (minor - 1) 0).map fun k => 1 + (minor - k)), ?_, ?_⟩
  · refine .cons ⟨?_, ?_⟩ (.cons ⟨lower_natStr_pre lower_py _, .inr (.inl ⟨rfl, rfl⟩)⟩ ?_)
    · rw [lower_pre_nodot lower_py]; simp [nodot]
    · exact .inl ⟨by simp [nodot], rfl⟩
    · split
      · exact .nil
      · rw [List.forall₂_map_left_iff, List.forall₂_map_right_iff, List.forall₂_same]
        intro k hk
        have := mem_downTo.mp hk
        refine ⟨?_, .inr (.inr ⟨k, by omega, by simp [nodot], rfl⟩)⟩
        rw [lower_pre_nodot lower_py]; simp [nodot]
  · have hm : ∀ x ∈ (if minor = 0 then [] else (downTo (minor - 1) 0).map fun k => 1 + (minor - k)), 1 < x := by
      intro x hx
      split at hx
      · cases hx
      · obtain ⟨k, hk, rfl⟩ := List.mem_map.mp hx
        have := mem_downTo.mp hk
        omega
    refine .cons ?_ (.cons hm ?_)
    · intro x hx
      rcases List.mem_cons.mp hx with rfl | hx
      · decide
      · have := hm x hx; omega
    · split
      · exact .nil
      · rw [List.pairwise_map]
        refine List.Pairwise.imp_of_mem ?_ (downTo_sorted _ _)
        intro a b ha hb hab
        have := mem_downTo.mp ha
        omega

theorem mem_pyRange {major minor : Nat} {v : Str} :
    v ∈ pyRange major minor ↔ ∃ r, PyFits major minor v r := by
  constructor
  · intro h
    obtain ⟨rs, hf, -⟩ := pyRange_fits major minor
    obtain ⟨r, _, hr⟩ := mem_forall₂_left hf h
    exact ⟨r, hr.2⟩
  · rintro ⟨r, ⟨rfl, _⟩ | ⟨rfl, _⟩ | ⟨k, hk, rfl, _⟩⟩
    · simp [pyRange, nodot]
    · simp [pyRange]
    · simp only [pyRange, List.mem_cons]
      refine .inr (.inr ?_)
      rw [if_neg (by omega)]
      exact List.mem_map.mpr ⟨k, mem_downTo.mpr ⟨Nat.zero_le _, by omega⟩, by simp [nodot]⟩

/-- **C125 (any ABI).** Without an ABI the tags are exactly those of this version of the language, of its major version
and of its earlier minor versions, for a platform of the system or for any, and the one of the interpreter. -/
theorem C125_compatible {major minor : Nat} {interpreter : Option Str} {platforms : List Str} (t : WTag) :
    t ∈ compatibleTags major minor interpreter platforms ↔
      t.abi = c!"none" ∧
      ((∃ r, PyFits major minor t.interpreter r) ∧ ((∃ p ∈ platforms, t.platform = lowerStr p) ∨ t.platform = c!"any") ∨
       (∃ i, interpreter = some i ∧ i ≠ [] ∧ t.interpreter = lowerStr i) ∧ t.platform = c!"any") := by
  obtain ⟨a, b, c⟩ := t
  have hlow : ∀ v ∈ pyRange major minor, lowerStr v = v := by
    intro v hv
    obtain ⟨rs, hf, -⟩ := pyRange_fits major minor
    obtain ⟨r, _, hr⟩ := mem_forall₂_left hf hv
    exact hr.1
  simp only [compatibleTags, List.mem_append, List.mem_flatMap, List.mem_map, ← mem_pyRange, mkTag, lower_none,
    lower_any, WTag.mk.injEq]
  constructor
  · rintro ((⟨v, hv, p, hp, rfl, rfl, rfl⟩ | h) | ⟨v, hv, rfl, rfl, rfl⟩)
    · exact ⟨rfl, .inl ⟨by rw [hlow v hv]; exact hv, .inl ⟨p, hp, rfl⟩⟩⟩
    · cases interpreter with
      | none => cases h
      | some i =>
        simp only at h
        split at h
        · cases h
        · rename_i hi
          simp only [List.mem_singleton, WTag.mk.injEq] at h
          exact ⟨h.2.1, .inr ⟨⟨i, rfl, hi, h.1⟩, h.2.2⟩⟩
    · exact ⟨rfl, .inl ⟨by rw [hlow v hv]; exact hv, .inr rfl⟩⟩
  · rintro ⟨rfl, ⟨hv, ⟨p, hp, rfl⟩ | rfl⟩ | ⟨⟨i, rfl, hi, rfl⟩, rfl⟩⟩
    · exact .inl (.inl ⟨a, hv, p, hp, hlow a hv, rfl, rfl⟩)
    · exact .inr ⟨a, hv, hlow a hv, rfl, rfl⟩
    · exact .inl (.inr (by simp [hi]))

/-- **C125 (any ABI, order).** Tags for a platform come before tags for any, and in both parts names of the language
come in the order of how well they fit. -/
theorem C125_compatible_order (major minor : Nat) (interpreter : Option Str) (platforms : List Str) :
    ∃ as bs cs, compatibleTags major minor interpreter platforms = as ++ bs ++ cs ∧
      (∀ t ∈ as, ∃ p ∈ platforms, t.platform = lowerStr p) ∧
      bs.length ≤ 1 ∧ (∀ t ∈ bs, interpreter.map lowerStr = some t.interpreter) ∧
      (∀ t ∈ bs ++ cs, t.platform = c!"any") ∧
      (∃ rs : List Nat, List.Forall₂ (fun t r => PyFits major minor t.interpreter r) as rs ∧ rs.Pairwise (· ≤ ·)) ∧
      ∃ rs : List Nat, List.Forall₂ (fun t r => PyFits major minor t.interpreter r) cs rs ∧ rs.Pairwise (· < ·) := by
  obtain ⟨rs, hf, hp⟩ := pyRange_fits major minor
  refine ⟨_, _, _, rfl, ?_, ?_, ?_, ?_, ?_, ?_⟩
  · intro t ht
    obtain ⟨v, _, ht⟩ := List.mem_flatMap.mp ht
    obtain ⟨p, hp, rfl⟩ := List.mem_map.mp ht
    exact ⟨p, hp, rfl⟩
  · cases interpreter with
    | none => simp
    | some i => simp only; split <;> simp
  · cases interpreter with
    | none => simp
    | some i =>
      simp only
      split
      · simp
      · simp [mkTag]
  · intro t ht
    rcases List.mem_append.mp ht with ht | ht
    · cases interpreter with
      | none => simp at ht
      | some i =>
        simp only at ht
        split at ht
        · simp at ht
        · simp only [List.mem_singleton] at ht
          rw [ht]; exact lower_any
    · obtain ⟨v, _, rfl⟩ := List.mem_map.mp ht
      exact lower_any
  · refine ⟨rs.flatMap fun r => List.replicate platforms.length r, ?_, ?_⟩
    · clear hp
      generalize pyRange major minor = l at hf
      induction hf with
      | nil => simp
      | @cons v r _ _ h _ ih =>
        simp only [List.flatMap_cons]
        refine List.rel_append ?_ ih
        have := forall₂_replicate (R := fun (t : WTag) r => PyFits major minor t.interpreter r) (b := r)
          (l := platforms.map fun p => mkTag v c!"none" p) (by
            intro t ht
            obtain ⟨p, _, rfl⟩ := List.mem_map.mp ht
            simp only [mkTag]
            rw [h.1]; exact h.2)
        simpa using this
    · refine pairwise_flatMap' ?_ ?_
      · intro k _; exact List.pairwise_replicate.mpr (.inr (Nat.le_refl _))
      · refine hp.imp ?_
        intro k j hkj x hx y hy
        rw [List.eq_of_mem_replicate hx, List.eq_of_mem_replicate hy]
        omega
  · refine ⟨rs, ?_, hp⟩
    rw [List.forall₂_map_left_iff]
    refine hf.imp ?_
    intro v r h
    simp only [mkTag]
    rw [h.1]; exact h.2

example : compatibleTags 3 1 (some c!"cp31") [c!"win32"] =
    [⟨c!"py31", c!"none", c!"win32"⟩, ⟨c!"py3", c!"none", c!"win32"⟩, ⟨c!"py30", c!"none", c!"win32"⟩,
     ⟨c!"cp31", c!"none", c!"any"⟩,
     ⟨c!"py31", c!"none", c!"any"⟩, ⟨c!"py3", c!"none", c!"any"⟩, ⟨c!"py30", c!"none", c!"any"⟩] := by decide +kernel

end Gyp
