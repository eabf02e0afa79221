import Verif.Proofs.Specifiers
/-
C117: which versions a specifier and a set of specifiers take.
-/
namespace Gyp
open Spec

theorem le_iff {v w : Ver} (hv : ValidVersion v) (hw : ValidVersion w) :
    ∃ b, v.le w = some b ∧ (b = true ↔ AtMost v w) := by
  have h := C44_operators v w
  have h' := C44_operators w v
  have ht := C44_total v w
  unfold AtMost
  rw [← C44_order v w hv hw, ← C44_equal v w, ← h.1]
  cases hb : v.le w with
  | some b => exact ⟨b, rfl, by simp⟩
  | none =>
    exfalso
    by_cases e : v.key = w.key
    · have := (lt_self v).2.1
      unfold Ver.le at hb
      rw [← e] at hb
      rw [hb] at this
      cases this
    · have := (ordered_key.ops v.key w.key (key_ok v) (key_ok w) e).1
      unfold Ver.le at hb
      rw [hb] at this
      unfold Ver.lt at ht
      rw [← this] at ht
      simp at ht

theorem lt_iff {v w : Ver} (hv : ValidVersion v) (hw : ValidVersion w) :
    ∃ b, v.lt w = some b ∧ (b = true ↔ EarlierThan v w) := by
  rw [← C44_order v w hv hw]
  rcases C44_total v w with h | h | h
  · exact ⟨true, h.1, by simp [h.1]⟩
  · exact ⟨false, h.1, by simp [h.1]⟩
  · exact ⟨false, h.1, by simp [h.1]⟩

theorem pre_iff (v : Ver) : v.isPrerelease = true ↔ Pre v := by
  unfold Ver.isPrerelease Pre
  cases v.dev <;> cases v.pre <;> simp

theorem digits_no_star {d : Str} {n : Nat} (h : Digits d n) : '*' ∉ d := by
  intro hc
  exact absurd (h.2.1 _ hc) (by decide)

theorem separator_no_star {s : Str} (h : Separator s) : '*' ∉ s := by
  rcases h with rfl | rfl | rfl | rfl <;> decide

theorem spelled_no_star {w s : Str} (h : Spelled w s) (hw : ∀ p ∈ w, p ≠ '*' ∧ p.toUpper ≠ '*') : '*' ∉ s := by
  induction h with
  | nil => simp
  | cons hc _ ih =>
    simp only [List.mem_cons, not_or]
    refine ⟨?_, ih fun p hp => hw p (List.mem_cons_of_mem _ hp)⟩
    have := hw _ (List.mem_cons_self ..)
    rcases hc with rfl | rfl
    · exact Ne.symm this.1
    · exact Ne.symm this.2

theorem tag_no_star {names : List (Str × Str)} (hn : ∀ q ∈ names, ∀ p ∈ q.1, p ≠ '*' ∧ p.toUpper ≠ '*')
    {s l : Str} {n : Nat} {bare : Prop} (h : Tag names s l n bare) : '*' ∉ s := by
  obtain ⟨s1, w, name, s2, d, rfl, h1, hm, hw, h2, hd, -⟩ := h
  have e1 := separator_no_star h1
  have e2 := separator_no_star h2
  have e3 := spelled_no_star hw (hn _ hm)
  have e4 : '*' ∉ d := by
    rcases hd with ⟨rfl, _⟩ | hd
    · simp
    · exact digits_no_star hd
  simp [e1, e2, e3, e4]

theorem optTag_no_star {names : List (Str × Str)} (hn : ∀ q ∈ names, ∀ p ∈ q.1, p ≠ '*' ∧ p.toUpper ≠ '*')
    {s : Str} {x : Option (Str × Nat)} {bare : Prop} (h : OptTag names s x bare) : '*' ∉ s := by
  rcases h with ⟨rfl, _⟩ | ⟨l, n, _, h⟩
  · simp
  · exact tag_no_star hn h

theorem release_no_star {s : Str} {r : List Nat} (h : ReleaseText s r) : '*' ∉ s := by
  induction h with
  | one h => exact digits_no_star h
  | more h _ ih => simp [digits_no_star h, ih]

theorem part_no_star {s : Str} {p : LocalPart} (h : PartText s p) : '*' ∉ s := by
  cases p with
  | num n => exact digits_no_star h
  | text t =>
    intro hc
    exact absurd (h.1 _ hc) (by unfold AlnumChar; decide)

theorem parts_no_star {s : Str} {l : List LocalPart} (h : PartsText s l) : '*' ∉ s := by
  induction h with
  | one h => exact part_no_star h
  | more h hc _ ih =>
    have := part_no_star h
    rcases hc with rfl | rfl | rfl <;> simp [this, ih]

theorem written_no_star {t : Str} {w : Ver} (h : Written t w) : '*' ∉ t := by
  obtain ⟨w1, vv, e, r, p, po, d, l, w2, bare, implicit, bare', rfl, h1, h2, hv, he, hr, hp, hpo, -, hd, hl⟩ := h.pieces
  have k1 : '*' ∉ w1 := fun hc => absurd (h1 _ hc) (by decide)
  have k2 : '*' ∉ w2 := fun hc => absurd (h2 _ hc) (by decide)
  have k3 : '*' ∉ vv := by rcases hv with rfl | rfl | rfl <;> decide
  have k4 : '*' ∉ e := by
    rcases he with ⟨rfl, _⟩ | ⟨x, rfl, hx⟩
    · simp
    · simp [digits_no_star hx]
  have k5 := release_no_star hr
  have k6 := optTag_no_star (by decide) hp
  have k7 : '*' ∉ po := by
    rcases hpo with ⟨x, n, rfl, hx, _⟩ | ⟨_, b, hb⟩
    · simp [digits_no_star hx]
    · exact optTag_no_star (by decide) hb
  have k8 := optTag_no_star (by decide) hd
  have k9 : '*' ∉ l := by
    rcases hl with ⟨rfl, _⟩ | ⟨x, ps, rfl, _, hx⟩
    · simp
    · simp [parts_no_star hx]
  simp [k1, k2, k3, k4, k5, k6, k7, k8, k9]

theorem written_not_star {t : Str} {w : Ver} (h : Written t w) : endsStar t = false := by
  cases hb : endsStar t with
  | false => rfl
  | true =>
    unfold endsStar at hb
    rw [List.isSuffixOf_iff_suffix] at hb
    obtain ⟨a, rfl⟩ := hb
    exact absurd (written_no_star h) (by simp)

theorem showLocal_nil {w : Ver} (hw : ValidVersion w) : showLocal w = [] ↔ w.loc = none := by
  unfold showLocal
  cases hl : w.loc with
  | none => simp
  | some l =>
    cases l with
    | nil => exact absurd rfl (hw.loc _ hl).1
    | cons a l => simp

theorem compareEqual_plain {v w : Ver} (hv : ValidVersion v) {t : Str} (ht : Written t w) :
    ∃ b, compareEqual v t = some b ∧ (b = true ↔ Meets .equal v w) := by
  obtain ⟨hp, hw⟩ := written_of ht
  have hs := written_not_star ht
  have hl := showLocal_nil hw
  change ∃ b, _ ∧ (_ ↔ SameVersion (if w.loc = none then withoutLocal v else v) w)
  unfold compareEqual
  by_cases h : w.loc = none
  · refine ⟨(withoutLocal v).eq w, ?_, ?_⟩
    · simp [hs, hp, hl.mpr h, parse_public hv]
    · rw [C44_equal, if_pos h]
  · refine ⟨v.eq w, ?_, ?_⟩
    · simp [hs, hp, mt hl.mp h]
    · rw [C44_equal, if_neg h]

theorem greaterEqual_plain {v w : Ver} (hv : ValidVersion v) {t : Str} (ht : Written t w) :
    ∃ b, compareGreaterEqual v t = some b ∧ (b = true ↔ AtMost w (withoutLocal v)) := by
  obtain ⟨hp, hw⟩ := written_of ht
  obtain ⟨b, h1, h2⟩ := le_iff hw (valid_withoutLocal hv)
  refine ⟨b, ?_, h2⟩
  unfold compareGreaterEqual
  rw [parse_public hv, hp]
  change (withoutLocal v).ge w = some b
  rw [(C44_operators (withoutLocal v) w).2.2.1, h1]

/-- C117: the operators except `~=` and `===` take exactly the versions that the specification
says, however the version of the specifier is written. -/
theorem C117_operators (s : Specifier) (v w : Ver) (hv : ValidVersion v) (hs : Written s.version w)
    (hop : s.op ≠ .compatible ∧ s.op ≠ .arbitrary) :
    ∃ b, s.holds v = some b ∧ (b = true ↔ Meets s.op v w) := by
  obtain ⟨op, t, f⟩ := s
  simp only at hs hop ⊢
  obtain ⟨hp, hw⟩ := written_of hs
  cases op with
  | compatible => exact absurd rfl hop.1
  | arbitrary => exact absurd rfl hop.2
  | equal => exact compareEqual_plain hv hs
  | notEqual =>
    obtain ⟨b, h1, h2⟩ := compareEqual_plain hv hs
    refine ⟨!b, by simp [Specifier.holds, compareNotEqual, h1], ?_⟩
    change _ ↔ ¬ Meets .equal v w
    rw [← h2]
    simp
  | lessEqual =>
    obtain ⟨b, h1, h2⟩ := le_iff (valid_withoutLocal hv) hw
    exact ⟨b, by simp [Specifier.holds, compareLessEqual, parse_public hv, hp, h1], h2⟩
  | greaterEqual => exact greaterEqual_plain hv hs
  | less =>
    obtain ⟨b, h1, h2⟩ := lt_iff hv hw
    obtain ⟨c, h3, h4⟩ := sameBase_iff hv hw
    have p1 := pre_iff v
    have p2 := pre_iff w
    simp only [Specifier.holds, compareLess, hp, Meets, ← h2, ← h4, ← p1, ← p2]
    cases b <;> cases c <;> cases hx : v.isPrerelease <;> cases hy : w.isPrerelease <;> simp [h1, h3, hx, hy]
  | greater =>
    obtain ⟨b, h1, h2⟩ := lt_iff hw hv
    obtain ⟨c, h3, h4⟩ := sameBase_iff hv hw
    have hg := (C44_operators v w).2.1
    simp only [Specifier.holds, compareGreater, hp, Meets, ← h2, ← h4]
    rw [h1] at hg
    cases b <;> cases c <;> cases hx : v.post <;> cases hy : w.post <;> cases hz : v.loc <;>
      simp [hg, h3, hx, hy, hz]

/-- C117: `==V.*` takes exactly the versions whose epoch is that of `V` and whose release begins
with the numbers of `V`, pre-releases, post-releases and local versions included; `!=V.*` takes
the others. -/
theorem C117_series (v : Ver) (hv : ValidVersion v) (t : Str) (e : Nat) (r : List Nat) (f : Option Bool)
    (ht : Written t ⟨e, r, none, none, none, none⟩) :
    (∃ b, Specifier.holds ⟨.equal, t ++ c!".*", f⟩ v = some b ∧ (b = true ↔ InSeries v e r)) ∧
    (∃ b, Specifier.holds ⟨.notEqual, t ++ c!".*", f⟩ v = some b ∧ (b = true ↔ ¬ InSeries v e r)) := by
  obtain ⟨b, h1, h2⟩ := compareEqual_star hv ht
  refine ⟨⟨b, h1, h2⟩, !b, by simp [Specifier.holds, compareNotEqual, h1], ?_⟩
  rw [← h2]
  simp

/-- C117: `~=V` takes exactly the versions not earlier than `V` in the series of `V` without its
last number.  Partial: `V` is given as it is printed. -/
theorem C117_compatible_partial (s : Specifier) (v w : Ver) (hv : ValidVersion v) (hw : ValidVersion w)
    (hl : w.loc = none) (hr : 2 ≤ w.release.length) (hs : s.version = w.show) (hop : s.op = .compatible) :
    ∃ b, s.holds v = some b ∧ (b = true ↔ Meets .compatible v w) := by
  obtain ⟨op, t, f⟩ := s
  simp only at hs hop
  subst hs hop
  have hne : w.release.dropLast ≠ [] := by
    intro h
    have := congrArg List.length h
    simp at this
    omega
  obtain ⟨b, h1, h2⟩ := greaterEqual_plain hv (C45_printed_written w hw)
  obtain ⟨c, h3, h4⟩ := compareEqual_star hv (written_series (e := w.epoch) hne)
  refine ⟨b && c, ?_, ?_⟩
  · simp only [Specifier.holds, compareCompatible, h1, compatiblePrefix_show hw hl, h3]
    cases b <;> simp
  · unfold Meets
    rw [Bool.and_eq_true, h2, h4]

/-- C117 deviation: with a `v` in front, `~=` takes nothing. -/
theorem C117_compatible_v (f : Option Bool) :
    Specifier.holds ⟨.compatible, c!"v2.2", f⟩ ⟨0, [2, 3], none, none, none, none⟩ = some false ∧
    Specifier.holds ⟨.compatible, c!"2.2", f⟩ ⟨0, [2, 3], none, none, none, none⟩ = some true ∧
    Ver.parse c!"v2.2" = Ver.parse c!"2.2" := by
  simp only [Specifier.holds]
  decide +kernel

/-- C117 deviation: with another word for the stage, or with capitals, the series is longer. -/
theorem C117_compatible_words (f : Option Bool) :
    Specifier.holds ⟨.compatible, c!"2.2.rev1", f⟩ ⟨0, [2, 3], none, none, none, none⟩ = some false ∧
    Specifier.holds ⟨.compatible, c!"2.2.POST1", f⟩ ⟨0, [2, 3], none, none, none, none⟩ = some false ∧
    Specifier.holds ⟨.compatible, c!"2.2.post1", f⟩ ⟨0, [2, 3], none, none, none, none⟩ = some true ∧
    Ver.parse c!"2.2.rev1" = Ver.parse c!"2.2.post1" ∧ Ver.parse c!"2.2.POST1" = Ver.parse c!"2.2.post1" := by
  simp only [Specifier.holds]
  decide +kernel

/-- C117 deviation: after a pre-release, the release itself is taken, but its post-releases and its
local versions are not. -/
theorem C117_greater_gap (f : Option Bool) :
    Specifier.holds ⟨.greater, c!"1.0a1", f⟩ ⟨0, [1, 0], none, none, none, none⟩ = some true ∧
    Specifier.holds ⟨.greater, c!"1.0a1", f⟩ ⟨0, [1, 0], none, none, some (c!"post", 1), none⟩ = some false ∧
    Specifier.holds ⟨.greater, c!"1.0a1", f⟩ ⟨0, [1, 0], none, none, none, some [.num 1]⟩ = some false := by
  simp only [Specifier.holds]
  decide +kernel

theorem lowerChar_low {c : Char} (h : 'a' ≤ c ∧ c ≤ 'z' ∨ '0' ≤ c ∧ c ≤ '9' ∨ c = '.' ∨ c = '!' ∨ c = '+') :
    lowerChar c = [c] := by
  have hn : 97 ≤ c.val.toNat ∧ c.val.toNat ≤ 122 ∨ c.val.toNat ≤ 57 := by
    rcases h with h | h | rfl | rfl | rfl
    · left; simpa [Char.le_def, UInt32.le_iff_toNat_le] using h
    · right
      have := h.2
      simpa [Char.le_def, UInt32.le_iff_toNat_le] using this
    · right; decide
    · right; decide
    · right; decide
  have h1 : ¬ c.toNat = 0x130 := by unfold Char.toNat; omega
  have h2 : ¬ c.toNat = 0x212a := by unfold Char.toNat; omega
  have h3 : c.toLower = c := by
    unfold Char.toLower
    rw [dif_neg]
    simp only [UInt32.le_iff_toNat_le, ge_iff_le]
    have e1 : ('A'.val).toNat = 65 := rfl
    have e2 : ('Z'.val).toNat = 90 := rfl
    rw [e1, e2]
    omega
  simp [lowerChar, h1, h2, h3]

theorem lowerStr_low {s : Str} (h : ∀ c ∈ s, lowerChar c = [c]) : lowerStr s = s := by
  unfold lowerStr
  induction s with
  | nil => rfl
  | cons c s ih =>
    have := ih fun x hx => h x (List.mem_cons_of_mem _ hx)
    rw [List.map_cons, List.flatten_cons, this, h c (List.mem_cons_self ..)]
    rfl

theorem natStr_low (n : Nat) : ∀ c ∈ natStr n, lowerChar c = [c] :=
  fun c hc => lowerChar_low (.inr (.inl ((natStr_digits n).2.1 c hc)))

theorem joined_low : ∀ (ws : List Str), (∀ w ∈ ws, ∀ c ∈ w, lowerChar c = [c]) →
    ∀ c ∈ joinWith c!"." ws, lowerChar c = [c]
  | [], _ => by simp [joinWith]
  | [w], h => by simpa [joinWith] using h w (by simp)
  | w :: w' :: ws, h => by
    have ih := joined_low (w' :: ws) (fun x hx => h x (List.mem_cons_of_mem _ hx))
    intro c hc
    have e : joinWith c!"." (w :: w' :: ws) = w ++ '.' :: joinWith c!"." (w' :: ws) := by simp [joinWith]
    rw [e] at hc
    rcases List.mem_append.mp hc with hc | hc
    · exact h w (by simp) c hc
    · rcases List.mem_cons.mp hc with rfl | hc
      · rfl
      · exact ih c hc

/-- A printed version has no capitals. -/
theorem show_low {v : Ver} (hv : ValidVersion v) : lowerStr v.show = v.show := by
  apply lowerStr_low
  intro c hc
  unfold Ver.show at hc
  simp only [List.mem_append] at hc
  rcases hc with ((((hc | hc) | hc) | hc) | hc) | hc
  · unfold showEpoch at hc
    split at hc
    · rcases List.mem_append.mp hc with hc | hc
      · exact natStr_low _ c hc
      · simp at hc; subst hc; rfl
    · simp at hc
  · refine joined_low _ ?_ c hc
    intro w hw
    obtain ⟨n, -, rfl⟩ := List.mem_map.mp hw
    exact natStr_low n
  · unfold showPre at hc
    cases hp : v.pre with
    | none => simp [hp] at hc
    | some x =>
      obtain ⟨l, n⟩ := x
      simp only [hp] at hc
      rcases List.mem_append.mp hc with hc | hc
      · rcases hv.pre l n hp with rfl | rfl | rfl
        · simp at hc; subst hc; rfl
        · simp at hc; subst hc; rfl
        · simp at hc; rcases hc with rfl | rfl <;> rfl
      · exact natStr_low n c hc
  · unfold showPost at hc
    cases hp : v.post with
    | none => simp [hp] at hc
    | some x =>
      simp only [hp] at hc
      rcases List.mem_append.mp hc with hc | hc
      · simp at hc; rcases hc with rfl | rfl | rfl | rfl | rfl <;> rfl
      · exact natStr_low _ c hc
  · unfold showDev at hc
    cases hp : v.dev with
    | none => simp [hp] at hc
    | some x =>
      simp only [hp] at hc
      rcases List.mem_append.mp hc with hc | hc
      · simp at hc; rcases hc with rfl | rfl | rfl | rfl <;> rfl
      · exact natStr_low _ c hc
  · unfold showLocal at hc
    split at hc
    · simp at hc
    · simp at hc
    · next l _ hl =>
      rcases List.mem_cons.mp hc with rfl | hc
      · rfl
      · refine joined_low _ ?_ c hc
        intro w hw
        obtain ⟨p, hp, rfl⟩ := List.mem_map.mp hw
        have := (hv.loc l hl).2 p hp
        cases p with
        | num n => exact natStr_low n
        | text s =>
          intro c hc
          rcases this.1 c hc with h | h
          · exact lowerChar_low (.inl h)
          · exact lowerChar_low (.inr (.inl h))

/-- C117: `===` with a printed version takes that version only; for other texts the printed version
has to be the text in small letters. -/
theorem C117_arbitrary (v : Ver) (hv : ValidVersion v) (f : Option Bool) :
    (∀ w, ValidVersion w → (Specifier.holds ⟨.arbitrary, w.show, f⟩ v = some true ↔ v = w)) ∧
    ∀ t, Specifier.holds ⟨.arbitrary, t, f⟩ v = some true ↔ v.show = lowerStr t := by
  have h : ∀ t, Specifier.holds ⟨.arbitrary, t, f⟩ v = some true ↔ v.show = lowerStr t := by
    intro t
    simp [Specifier.holds, compareArbitrary, show_low hv]
  refine ⟨fun w hw => ?_, h⟩
  rw [h, show_low hw]
  exact ⟨C45_show_injective v w hv hw, fun h => by rw [h]⟩

/-! ### Pre-releases -/

/-- C117: without a word on pre-releases, a specifier takes them exactly if its operator includes
its version and that is a pre-release. -/
theorem C117_prereleases (s : Specifier) (w : Ver) (hs : Written s.version w) (hf : s.forced = none) :
    ∃ b, s.prereleases = some b ∧ (b = true ↔ Pre w ∧ s.op ≠ .notEqual ∧ s.op ≠ .less ∧ s.op ≠ .greater) := by
  have hp := parse_written hs
  have hst := written_not_star hs
  have p1 := pre_iff w
  unfold Specifier.prereleases
  rw [hf]
  rw [← p1]
  cases s.op <;> simp [hst, hp]

/-- C117: a specifier contains a version exactly if the operator takes it and it is not a
pre-release, or these are accepted. -/
theorem C117_contains (s : Specifier) (v : Ver) (pre : Option Bool) (b ok : Bool) (hb : s.holds v = some b)
    (hok : pre = some ok ∨ pre = none ∧ s.prereleases = some ok) :
    s.contains v pre = some (b && (ok || !v.isPrerelease)) := by
  unfold Specifier.contains
  rcases hok with rfl | ⟨rfl, h⟩
  · simp only [hb]
    cases v.isPrerelease <;> cases ok <;> simp
  · simp only [h, hb]
    cases v.isPrerelease <;> cases ok <;> simp

theorem filterLoop_eq (s : Specifier) (pre : Option Bool) (m : Ver → Bool) (ok : Bool)
    (hok : pre = some ok ∨ pre = none ∧ s.prereleases = some ok)
    (hp : ∃ x, s.prereleases = some x) : ∀ (vs : List Ver), (∀ v ∈ vs, s.holds v = some (m v)) →
    s.filterLoop pre vs = some (vs.filter fun v => m v && (ok || !v.isPrerelease),
      if pre = none ∧ ok = false then vs.filter fun v => m v && v.isPrerelease else [])
  | [], _ => by simp [Specifier.filterLoop]
  | v :: vs, h => by
    have ih := filterLoop_eq s pre m ok hok hp vs (fun x hx => h x (List.mem_cons_of_mem _ hx))
    have hv := h v (List.mem_cons_self ..)
    have hc := C117_contains s v (some (pre.getD true)) (m v) (pre.getD true) hv (.inl rfl)
    obtain ⟨x, hx⟩ := hp
    unfold Specifier.filterLoop
    rw [hc, ih]
    rcases hok with rfl | ⟨rfl, h⟩
    · cases ok <;> cases hm : m v <;> cases hpr : v.isPrerelease <;> simp [hm, hpr, hx]
    · rw [h] at hx
      cases hx
      cases ok <;> cases hm : m v <;> cases hpr : v.isPrerelease <;> simp [hm, hpr, h]

/-- C117: filtering keeps, in their order, the versions that the operator takes and that are no
pre-releases or allowed ones.  If nothing is said about pre-releases and no other version
matches, the matching pre-releases are kept. -/
theorem C117_filter (s : Specifier) (vs : List Ver) (pre : Option Bool) (m : Ver → Bool) (ok : Bool)
    (hm : ∀ v ∈ vs, s.holds v = some (m v)) (hp : s.prereleases ≠ none)
    (hok : pre = some ok ∨ pre = none ∧ s.prereleases = some ok) :
    s.filter vs pre = some
      (if pre = none ∧ ∀ v ∈ vs, m v = true → v.isPrerelease = true then vs.filter m
       else vs.filter fun v => m v && (ok || !v.isPrerelease)) := by
  have hp' : ∃ x, s.prereleases = some x := Option.ne_none_iff_exists'.mp hp
  unfold Specifier.filter
  rw [filterLoop_eq s pre m ok hok hp' vs hm]
  simp only [Option.pure_def, Option.bind_eq_bind, Option.bind_some, Option.some.injEq]
  rcases hok with rfl | ⟨rfl, h⟩
  · simp
  by_cases hall : ∀ v ∈ vs, m v = true → v.isPrerelease = true
  · have e1 : vs.filter (fun v => m v && v.isPrerelease) = vs.filter m := by
      apply List.filter_congr
      intro v hv
      cases hx : m v
      · simp
      · simp [hall v hv hx]
    rw [if_pos (show (none : Option Bool) = none ∧ ∀ v ∈ vs, m v = true → v.isPrerelease = true from ⟨rfl, hall⟩), e1]
    cases ok with
    | true =>
      have e3 : vs.filter (fun v => m v && (true || !v.isPrerelease)) = vs.filter m := by simp
      rw [e3]
      cases vs.filter m <;> simp
    | false =>
      have e2 : vs.filter (fun v => m v && (false || !v.isPrerelease)) = [] := by
        rw [List.filter_eq_nil_iff]
        intro v hv
        cases hx : m v
        · simp
        · simp [hall v hv hx]
      rw [e2]
      simp
  · rw [if_neg (show ¬ ((none : Option Bool) = none ∧ ∀ v ∈ vs, m v = true → v.isPrerelease = true) from
      fun h => hall h.2)]
    push Not at hall
    obtain ⟨v, hv, h1, h2⟩ := hall
    have : (vs.filter fun v => m v && (ok || !v.isPrerelease)) ≠ [] := by
      intro he
      have := List.filter_eq_nil_iff.mp he v hv
      simp [h1, h2] at this
    cases hk : vs.filter fun v => m v && (ok || !v.isPrerelease) with
    | nil => exact absurd hk this
    | cons a l => simp

/-! ### Sets -/

theorem allContain_eq (v : Ver) (pre : Bool) (m : Specifier → Bool) : ∀ (ss : List Specifier),
    (∀ s ∈ ss, s.holds v = some (m s)) → (v.isPrerelease = true → pre = true) →
    allContain v (some pre) ss = some (ss.all m)
  | [], _, _ => rfl
  | s :: ss, h, hp => by
    have ih := allContain_eq v pre m ss (fun x hx => h x (List.mem_cons_of_mem _ hx)) hp
    have hc := C117_contains s v (some pre) (m s) pre (h s (List.mem_cons_self ..)) (.inl rfl)
    have : (pre || !v.isPrerelease) = true := by
      cases hv : v.isPrerelease
      · simp
      · simp [hp hv]
    rw [this, Bool.and_true] at hc
    unfold allContain
    rw [hc, ih]
    cases hm : m s <;> simp [hm]

/-- What a call and a set say of pre-releases: the call, else the set, else whether one of its
specifiers takes them; nothing for the empty set. -/
theorem anyPre_eq : ∀ (ss : List Specifier) (p : Specifier → Bool), (∀ s ∈ ss, s.prereleases = some (p s)) →
    anyPre ss = some (ss.any p)
  | [], _, _ => rfl
  | s :: ss, p, h => by
    have ih := anyPre_eq ss p (fun x hx => h x (List.mem_cons_of_mem _ hx))
    unfold anyPre
    rw [h s (List.mem_cons_self ..), ih]
    cases hp : p s <;> simp [hp]

/-- C117: whether a set with specifiers accepts pre-releases: what it was told, else whether one
of its specifiers does. -/
theorem C117_set_prereleases (t : SpecSet) (p : Specifier → Bool) (hp : ∀ s ∈ t.specs, s.prereleases = some (p s))
    (hne : t.specs ≠ []) : t.prereleases = some (some (t.forced.getD (t.specs.any p))) := by
  unfold SpecSet.prereleases
  cases t.forced with
  | some b => rfl
  | none => simp [hne, anyPre_eq t.specs p hp]

/-- C117: a set contains a version exactly if each of its specifiers takes it and it is not a
pre-release, or these are accepted; the order of the specifiers does not matter. -/
theorem C117_set_contains (t : SpecSet) (v : Ver) (pre : Option Bool) (ok : Bool) (m : Specifier → Bool)
    (hm : ∀ s ∈ t.specs, s.holds v = some (m s))
    (hok : pre = some ok ∨ pre = none ∧ t.prereleases = some (some ok)) :
    t.contains v pre false = some ((ok || !v.isPrerelease) && t.specs.all m) := by
  have main : (v.isPrerelease = true → ok = true) → allContain v (some ok) t.specs = some (t.specs.all m) :=
    allContain_eq v ok m t.specs hm
  unfold SpecSet.contains
  rcases hok with rfl | ⟨rfl, h⟩
  · cases hv : v.isPrerelease <;> cases ok <;> simp [hv, main]
  · cases hv : v.isPrerelease <;> cases ok <;> simp [hv, main, h]

/-- C117: a set of specifiers with versions, however they are written, contains a version exactly
if it meets each of them and is no pre-release, or these are accepted. -/
theorem C117_set_meets (t : SpecSet) (v : Ver) (hv : ValidVersion v) (pre : Option Bool) (ok : Bool)
    (hs : ∀ s ∈ t.specs, s.op ≠ .compatible ∧ s.op ≠ .arbitrary ∧ ∃ w, Written s.version w)
    (hok : pre = some ok ∨ pre = none ∧ t.prereleases = some (some ok)) :
    t.contains v pre false = some true ↔
      (Pre v → ok = true) ∧ ∀ s ∈ t.specs, ∀ w, Written s.version w → Meets s.op v w := by
  have hm : ∀ s ∈ t.specs, s.holds v = some ((s.holds v).getD false) := by
    intro s h
    obtain ⟨h1, h2, w, hw⟩ := hs s h
    obtain ⟨b, hb, -⟩ := C117_operators s v w hv hw ⟨h1, h2⟩
    simp [hb]
  rw [C117_set_contains t v pre ok (fun s => (s.holds v).getD false) hm hok]
  simp only [Option.some.injEq, Bool.and_eq_true, List.all_eq_true]
  have e1 : (ok || !v.isPrerelease) = true ↔ (Pre v → ok = true) := by
    rw [← pre_iff v]
    cases ok <;> cases v.isPrerelease <;> simp
  have e2 : (∀ s ∈ t.specs, (s.holds v).getD false = true) ↔
      ∀ s ∈ t.specs, ∀ w, Written s.version w → Meets s.op v w := by
    constructor
    · intro h s hin w hw
      obtain ⟨h1, h2, -⟩ := hs s hin
      obtain ⟨b, hb, hb'⟩ := C117_operators s v w hv hw ⟨h1, h2⟩
      have := h s hin
      rw [hb] at this
      exact hb'.mp this
    · intro h s hin
      obtain ⟨h1, h2, w, hw⟩ := hs s hin
      obtain ⟨b, hb, hb'⟩ := C117_operators s v w hv hw ⟨h1, h2⟩
      rw [hb]
      exact hb'.mpr (h s hin w hw)
  rw [e1, e2]

/-- C117: an installed pre-release counts as its release. -/
theorem C117_installed (t : SpecSet) (v : Ver) (hv : ValidVersion v) (hp : Pre v) (m : Specifier → Bool)
    (hm : ∀ s ∈ t.specs, s.holds ⟨v.epoch, v.release, none, none, none, none⟩ = some (m s)) :
    t.contains v (some true) true = some (t.specs.all m) := by
  have h1 := allContain_eq (baseVer v) true m t.specs hm (fun _ => rfl)
  have h2 := (pre_iff v).mpr hp
  unfold SpecSet.contains
  simp [h2, parse_base hv, h1]

theorem filter_true (s : Specifier) (vs : List Ver) (ok : Bool) (m : Ver → Bool)
    (hm : ∀ v ∈ vs, s.holds v = some (m v)) (hp : s.prereleases ≠ none) :
    s.filter vs (some ok) = some (vs.filter fun v => m v && (ok || !v.isPrerelease)) := by
  rw [C117_filter s vs (some ok) m ok hm hp (.inl rfl)]
  simp

theorem filterAll_eq (ok : Bool) (m : Specifier → Ver → Bool) : ∀ (ss : List Specifier) (vs : List Ver),
    (∀ s ∈ ss, ∀ v ∈ vs, s.holds v = some (m s v)) → (∀ s ∈ ss, s.prereleases ≠ none) → ss ≠ [] →
    filterAll ok ss vs = some (vs.filter fun v => (ok || !v.isPrerelease) && ss.all (m · v))
  | [], _, _, _, h => absurd rfl h
  | [s], vs, h, hp, _ => by
    unfold filterAll
    rw [filter_true s vs ok (m s) (h s (by simp)) (hp s (by simp))]
    simp [filterAll, Bool.and_comm]
  | s :: s' :: ss, vs, h, hp, _ => by
    have hf := filter_true s vs ok (m s) (h s (by simp)) (hp s (by simp))
    have ih := filterAll_eq ok m (s' :: ss) (vs.filter fun v => m s v && (ok || !v.isPrerelease))
      (fun x hx v hv => h x (List.mem_cons_of_mem _ hx) v (List.mem_filter.mp hv).1)
      (fun x hx => hp x (List.mem_cons_of_mem _ hx)) (by simp)
    unfold filterAll
    rw [hf]
    change filterAll ok (s' :: ss) _ = _
    rw [ih, List.filter_filter]
    congr 1
    apply List.filter_congr
    intro v _
    rw [List.all_cons (a := s)]
    cases m s v <;> cases v.isPrerelease <;> cases ok <;> simp

/-- C117: a specifier that was told whether to take pre-releases does so, whatever its operator and
version. -/
theorem C117_told (s : Specifier) (b : Bool) (hf : s.forced = some b) :
    s.prereleases = some b ∧
    ∀ v x, s.holds v = some x → s.contains v none = some (x && (b || !v.isPrerelease)) := by
  have hp : s.prereleases = some b := by unfold Specifier.prereleases; rw [hf]
  refine ⟨hp, fun v x hx => ?_⟩
  unfold Specifier.contains
  simp only [hp, Option.bind_eq_bind, Option.bind_some]
  cases v.isPrerelease <;> cases b <;> simp [hx]

example : (Specifier.mk .less c!"2.0" (some true)).forced = some true := rfl

/-- C117: filtering by a set with specifiers keeps, in their order, exactly the versions that the
set contains. -/
theorem C117_set_filter (t : SpecSet) (vs : List Ver) (pre : Option Bool) (ok : Bool) (m : Specifier → Ver → Bool)
    (hne : t.specs ≠ []) (hm : ∀ s ∈ t.specs, ∀ v ∈ vs, s.holds v = some (m s v))
    (hp : ∀ s ∈ t.specs, s.prereleases ≠ none)
    (hok : pre = some ok ∨ pre = none ∧ t.prereleases = some (some ok)) :
    t.filter vs pre = some (vs.filter fun v => t.contains v pre false == some true) := by
  have main := filterAll_eq ok m t.specs vs hm hp hne
  have e : (vs.filter fun v => t.contains v pre false == some true) =
      vs.filter fun v => (ok || !v.isPrerelease) && t.specs.all (m · v) := by
    apply List.filter_congr
    intro v hv
    rw [C117_set_contains t v pre ok (m · v) (fun s hs => hm s hs v hv) hok]
    cases ((ok || !v.isPrerelease) && t.specs.all (m · v)) <;> rfl
  rw [e, ← main]
  unfold SpecSet.filter
  have : t.specs.isEmpty = false := by simpa using hne
  rcases hok with rfl | ⟨rfl, h⟩
  · simp [this]
  · simp [this, h]

theorem roughLoop_eq (pre : Option Bool) : ∀ (vs kept found : List Ver),
    (roughLoop pre vs (kept, found)).1 = kept ++ vs.filter (fun v => pre.getD false || !v.isPrerelease) ∧
    ((roughLoop pre vs (kept, found)).1 = [] →
      (roughLoop pre vs (kept, found)).2 = found ++ vs.filter (fun v => v.isPrerelease && !(pre.getD false)))
  | [], kept, found => by simp [roughLoop]
  | v :: vs, kept, found => by
    unfold roughLoop
    by_cases h : (v.isPrerelease && !(pre.getD false)) = true
    · rw [if_pos h]
      have ih := roughLoop_eq pre vs kept (if kept.isEmpty then found ++ [v] else found)
      have hn : (pre.getD false || !v.isPrerelease) = false := by
        revert h; cases v.isPrerelease <;> cases pre.getD false <;> simp
      refine ⟨?_, ?_⟩
      · rw [ih.1, List.filter_cons, hn]; simp
      · intro h0
        rw [ih.2 h0, List.filter_cons, if_pos h]
        rw [ih.1] at h0
        have : kept = [] := (List.append_eq_nil_iff.mp h0).1
        simp [this]
    · rw [if_neg h]
      have ih := roughLoop_eq pre vs (kept ++ [v]) found
      have hn : (pre.getD false || !v.isPrerelease) = true := by
        revert h; cases v.isPrerelease <;> cases pre.getD false <;> simp
      refine ⟨?_, ?_⟩
      · rw [ih.1, List.filter_cons, hn]; simp
      · intro h0
        rw [ih.1] at h0
        simp at h0

/-- C117: filtering by the empty set keeps all but the pre-releases; if nothing is said about
these and there is nothing else, it keeps them. -/
theorem C117_empty_set (vs : List Ver) (forced pre : Option Bool) :
    SpecSet.filter ⟨[], forced⟩ vs pre = some
      (if pre.or forced = some true then vs
       else if pre.or forced = none ∧ ∀ v ∈ vs, v.isPrerelease = true then vs
       else vs.filter fun v => !v.isPrerelease) := by
  have main : ∀ p : Option Bool,
      (let (kept, found) := roughLoop p vs ([], [])
       if kept.isEmpty && !found.isEmpty && p.isNone then found else kept) =
      (if p = some true then vs
       else if p = none ∧ ∀ v ∈ vs, v.isPrerelease = true then vs
       else vs.filter fun v => !v.isPrerelease) := by
    intro p
    have h := roughLoop_eq p vs [] []
    generalize hr : roughLoop p vs ([], []) = st at h
    obtain ⟨kept, found⟩ := st
    simp only [List.nil_append] at h
    obtain ⟨h1, h2⟩ := h
    rcases p with _ | b
    · simp only [Option.getD_none, Bool.false_or, Bool.not_false, Bool.and_true] at h1 h2
      by_cases hall : ∀ v ∈ vs, v.isPrerelease = true
      · have hk : kept = [] := by
          rw [h1, List.filter_eq_nil_iff]
          intro v hv; simp [hall v hv]
        have hf : found = vs := by
          rw [h2 hk, List.filter_eq_self]
          exact hall
        rw [if_neg (by simp), if_pos ⟨rfl, hall⟩, hk, hf]
        cases vs <;> simp
      · have hk : kept ≠ [] := by
          push Not at hall
          obtain ⟨v, hv, hp⟩ := hall
          rw [h1]
          intro he
          have := List.filter_eq_nil_iff.mp he v hv
          simp [hp] at this
        have hk' : kept.isEmpty = false := by simpa using hk
        rw [if_neg (by simp), if_neg (fun h => hall h.2), ← h1]
        simp [hk']
    · cases b with
      | true => simp at h1; simp [h1]
      | false => simp at h1; simp [h1]
  unfold SpecSet.filter
  cases pre with
  | some b => simpa using main (some b)
  | none =>
    cases forced with
    | some b => simpa [SpecSet.prereleases] using main (some b)
    | none => simpa [SpecSet.prereleases] using main none

/-- C117 deviation: a set of one specifier does not fall back to pre-releases as the specifier
does. -/
theorem C117_no_fallback :
    Specifier.filter ⟨.greaterEqual, c!"1.2.3", none⟩ [⟨0, [1, 5], none, some (c!"a", 1), none, none⟩] none =
      some [⟨0, [1, 5], none, some (c!"a", 1), none, none⟩] ∧
    SpecSet.filter ⟨[⟨.greaterEqual, c!"1.2.3", none⟩], none⟩ [⟨0, [1, 5], none, some (c!"a", 1), none, none⟩] none =
      some [] := by
  decide +kernel

/-- C117 deviation: asking for a text that is not a version fails, although any text may be
asked for. -/
theorem C117_arbitrary_text (v : Ver) :
    Specifier.contains ⟨.arbitrary, c!"foobar", none⟩ v none = none ∧
    Specifier.contains ⟨.arbitrary, c!"foobar", none⟩ v (some true) = some (lowerStr v.show == lowerStr c!"foobar") := by
  refine ⟨rfl, ?_⟩
  cases h : v.isPrerelease <;> simp [Specifier.contains, h, Specifier.holds, compareArbitrary]

/-! Concrete cases. -/

/-- `2.3rc1.post2+ubuntu.1` -/
def sampleLocal : Ver := ⟨0, [2, 3], none, some (c!"rc", 1), some (c!"post", 2), some [.text c!"ubuntu", .num 1]⟩

example : ValidVersion sampleLocal := by constructor <;> simp [sampleLocal, ValidPart]
example : Written c!" v1!02.0RC-1.post_3dev " ⟨1, [2, 0], some (c!"dev", 0), some (c!"rc", 1), some (c!"post", 3), none⟩ :=
  (C45_grammar _ (by decide) _).mp rfl
example : Written c!"2.0" ⟨0, [2, 0], none, none, none, none⟩ := (C45_grammar _ (by decide) _).mp rfl
example : Specifier.holds ⟨.equal, c!"2.3.*", none⟩ sampleLocal = some true := by decide +kernel
example : Specifier.holds ⟨.equal, c!"2.3.0.*", none⟩ sampleLocal = some true := by decide +kernel
example : Specifier.holds ⟨.equal, c!"2.30.*", none⟩ sampleLocal = some false := by decide +kernel
example : Specifier.holds ⟨.compatible, c!"2.2", none⟩ sampleLocal = some true := by decide +kernel
example : Specifier.holds ⟨.compatible, c!"2.2.0", none⟩ sampleLocal = some false := by decide +kernel
example : Specifier.holds ⟨.less, c!"2.3", none⟩ sampleLocal = some false := by decide +kernel
example : Specifier.holds ⟨.less, c!"2.3.1", none⟩ sampleLocal = some true := by decide +kernel
example : Specifier.prereleases ⟨.greaterEqual, c!"2.0.dev1", none⟩ = some true := by decide +kernel
example : SpecSet.contains ⟨[⟨.greaterEqual, c!"2.0", none⟩, ⟨.notEqual, c!"2.1", none⟩], none⟩
    ⟨0, [2, 2], none, none, none, none⟩ none false = some true := by decide +kernel
example : SpecSet.filter ⟨[⟨.greaterEqual, c!"2.0", none⟩, ⟨.notEqual, c!"2.1", none⟩], none⟩
    [⟨0, [2, 1], none, none, none, none⟩, ⟨0, [2, 2], none, none, none, none⟩, sampleLocal] none =
    some [⟨0, [2, 2], none, none, none, none⟩] := by decide +kernel

end Gyp
