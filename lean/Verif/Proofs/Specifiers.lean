import Verif.Model.Specifiers
import Verif.Spec.Specifiers
import Verif.Props.VersionOrder
import Verif.Props.VersionText
/-
Lemmas for C117.
-/
namespace Gyp
open Spec

theorem natStr_value (n : Nat) : digitsVal (natStr n) = n := (natStr_digits n).2.2

theorem natStr_injective {n m : Nat} (h : natStr n = natStr m) : n = m := by
  rw [← natStr_value n, h, natStr_value]

theorem natStr_all (n : Nat) : ∀ c ∈ natStr n, asciiDigit c = true :=
  fun c hc => asciiDigit_true.mpr ((natStr_digits n).2.1 c hc)

theorem natStr_lacks (n : Nat) {x : Char} (hx : asciiDigit x = false) : x ∉ natStr n := by
  intro h
  rw [natStr_all n x h] at hx
  cases hx

theorem joined_lacks {x : Char} (hx : asciiDigit x = false) (hd : x ≠ '.') :
    ∀ (r : List Nat), x ∉ joinWith c!"." (r.map natStr)
  | [] => by simp [joinWith]
  | [n] => by simpa [joinWith] using natStr_lacks n hx
  | n :: m :: r => by
    have := joined_lacks hx hd (m :: r)
    have e : joinWith c!"." ((n :: m :: r).map natStr) = natStr n ++ '.' :: joinWith c!"." ((m :: r).map natStr) := by
      simp [joinWith]
    rw [e]
    simp only [List.mem_append, List.mem_cons, not_or]
    exact ⟨natStr_lacks n hx, hd, this⟩

/-- What a printed version without local part does not have. -/
theorem tail_lacks {v : Ver} (hv : ValidVersion v) {x : Char} (hx : x = '+' ∨ x = '!') :
    x ∉ showRelease v ++ showPre v ++ showPost v ++ showDev v := by
  have hd : asciiDigit x = false := by rcases hx with rfl | rfl <;> rfl
  have h1 : x ∉ showRelease v := by
    refine joined_lacks hd ?_ _
    rcases hx with rfl | rfl <;> decide
  have h2 : x ∉ showPre v := by
    unfold showPre
    cases hp : v.pre with
    | none => simp
    | some p =>
      obtain ⟨l, n⟩ := p
      have := natStr_lacks n hd
      rcases hv.pre l n hp with rfl | rfl | rfl <;> rcases hx with rfl | rfl <;> simp [this]
  have h3 : x ∉ showPost v := by
    unfold showPost
    cases hp : v.post with
    | none => simp
    | some p =>
      have := natStr_lacks p.2 hd
      rcases hx with rfl | rfl <;> simp [this]
  have h4 : x ∉ showDev v := by
    unfold showDev
    cases hp : v.dev with
    | none => simp
    | some p =>
      have := natStr_lacks p.2 hd
      rcases hx with rfl | rfl <;> simp [this]
  simp [h1, h2, h3, h4]

theorem takeWhile_front {α : Type} {p : α → Bool} : ∀ {a b : List α}, (∀ x ∈ a, p x = true) →
    (∀ x, b.head? = some x → p x = false) → (a ++ b).takeWhile p = a
  | [], [], _, _ => rfl
  | [], y :: b, _, h => by simp [h y rfl]
  | x :: a, b, h1, h2 => by
    have := takeWhile_front (a := a) (b := b) (fun y hy => h1 y (by simp [hy])) h2
    simp [h1 x (by simp), this]

theorem valid_withoutLocal {v : Ver} (hv : ValidVersion v) : ValidVersion (withoutLocal v) :=
  ⟨hv.release, hv.pre, hv.post, hv.dev, by simp [withoutLocal]⟩

theorem public_show {v : Ver} (hv : ValidVersion v) : v.public = (withoutLocal v).show := by
  have e : (withoutLocal v).show = showEpoch v ++ (showRelease v ++ showPre v ++ showPost v ++ showDev v) := by
    simp only [Ver.show, List.append_assoc]
    rw [show showLocal (withoutLocal v) = [] from rfl, List.append_nil]
    rfl
  have e' : v.show = (withoutLocal v).show ++ showLocal v := by
    rw [e]; simp [Ver.show]
  unfold Ver.public
  rw [e']
  refine takeWhile_front ?_ ?_
  · intro x hx
    rw [e] at hx
    have : x ≠ '+' := by
      rintro rfl
      rcases List.mem_append.mp hx with h | h
      · unfold showEpoch at h
        split at h
        · rcases List.mem_append.mp h with h | h
          · exact natStr_lacks _ rfl h
          · simp at h
        · simp at h
      · exact tail_lacks hv (.inl rfl) h
    simpa using this
  · intro x hx
    unfold showLocal at hx
    split at hx
    · simp at hx
    · simp at hx
    · simp at hx; simp [← hx]

theorem parse_public {v : Ver} (hv : ValidVersion v) : Ver.parse v.public = some (withoutLocal v) := by
  rw [public_show hv]
  exact C45_roundtrip _ (valid_withoutLocal hv)

/-- The version of the release alone. -/
def baseVer (v : Ver) : Ver := ⟨v.epoch, v.release, none, none, none, none⟩

theorem parse_base {v : Ver} (hv : ValidVersion v) : Ver.parse v.base = some (baseVer v) := by
  have e : v.base = (baseVer v).show := by
    have : (baseVer v).show = showEpoch v ++ showRelease v ++ [] ++ [] ++ [] ++ [] := rfl
    rw [this]
    simp [Ver.base]
  rw [e]
  exact C45_roundtrip _ ⟨hv.release, by simp [baseVer], by simp [baseVer], by simp [baseVer], by simp [baseVer]⟩

theorem sameBase_iff {v w : Ver} (hv : ValidVersion v) (hw : ValidVersion w) :
    ∃ b, sameBase v w = some b ∧ (b = true ↔ SameBase v w) := by
  refine ⟨_, by simp only [sameBase, parse_base hv, parse_base hw]; rfl, ?_⟩
  rw [C44_equal]
  simp [SameVersion, SameBase, baseVer]

theorem written_of {t : Str} {w : Ver} (h : Written t w) : Ver.parse t = some w ∧ ValidVersion w :=
  ⟨parse_written h, C45_written_valid t w h⟩

/-! ### Splitting -/

theorem splitOn_part {c : Char} : ∀ {a : Str} (s : Str), c ∉ a → splitOn c (a ++ c :: s) = a :: splitOn c s
  | [], s, _ => by simp [splitOn]
  | x :: a, s, h => by
    have h1 : x ≠ c := by rintro rfl; simp at h
    have := splitOn_part (a := a) s (fun hc => h (List.mem_cons_of_mem _ hc))
    simp [splitOn, h1, this]

theorem splitOn_whole {c : Char} : ∀ {a : Str}, c ∉ a → splitOn c a = [a]
  | [], _ => rfl
  | x :: a, h => by
    have h1 : x ≠ c := by rintro rfl; simp at h
    have := splitOn_whole (a := a) (fun hc => h (List.mem_cons_of_mem _ hc))
    simp [splitOn, h1, this]

theorem eatDigits_natStr (n : Nat) {s : Str} (h : ∀ x, s.head? = some x → asciiDigit x = false) :
    eatDigits (natStr n ++ s) = (natStr n, s) := by
  have h1 := takeWhile_front (p := asciiDigit) (natStr_all n) h
  have h2 := List.takeWhile_append_dropWhile (p := asciiDigit) (l := natStr n ++ s)
  rw [h1] at h2
  have h3 := List.append_cancel_left h2
  simp [eatDigits, h1, h3]

theorem splitItem_nat (n : Nat) : splitItem (natStr n) = [natStr n] := by
  have h := eatDigits_natStr n (s := []) (by simp)
  rw [List.append_nil] at h
  unfold splitItem
  rw [h]
  simp [prefixTail]

theorem natStr_nonempty (n : Nat) : natStr n ≠ [] := (natStr_digits n).1

theorem splitItem_pre (n k : Nat) {l : Str} (hl : l = c!"a" ∨ l = c!"b" ∨ l = c!"rc") :
    splitItem (natStr n ++ (l ++ natStr k)) = [natStr n, l ++ natStr k] := by
  have h := eatDigits_natStr n (s := l ++ natStr k)
    (by rcases hl with rfl | rfl | rfl <;> · intro x hx; simp at hx; subst hx; rfl)
  have h2 : (natStr k).all asciiDigit = true := List.all_eq_true.mpr (natStr_all k)
  have h3 : (natStr k).isEmpty = false := by simpa using natStr_nonempty k
  unfold splitItem
  rw [h, if_pos]
  refine ⟨natStr_nonempty n, ?_⟩
  rcases hl with rfl | rfl | rfl <;> simp [prefixTail, List.isPrefixOf, h2, h3]

theorem splitItem_word {s : Str} (h : ∀ x, s.head? = some x → asciiDigit x = false) : splitItem s = [s] := by
  unfold splitItem
  rw [if_neg]
  rintro ⟨h1, -⟩
  apply h1
  cases s with
  | nil => rfl
  | cons x s => simp [eatDigits, h x rfl]

/-- The stages after the release, as components. -/
def suffixParts (v : Ver) : List Str :=
  (match v.pre with | none => [] | some (l, n) => [l ++ natStr n]) ++
  (match v.post with | none => [] | some (_, n) => [c!"post" ++ natStr n]) ++
  (match v.dev with | none => [] | some (_, n) => [c!"dev" ++ natStr n])

theorem split_tail (n : Nat) {v : Ver} (hv : ValidVersion v) :
    ((splitOn '.' (natStr n ++ (showPre v ++ showPost v ++ showDev v))).map splitItem).flatten =
      natStr n :: suffixParts v := by
  have hdot : ∀ k, '.' ∉ natStr k := fun k => natStr_lacks k rfl
  have hpost : ∀ k, splitItem (c!"post" ++ natStr k) = [c!"post" ++ natStr k] :=
    fun k => splitItem_word (by intro x hx; simp at hx; subst hx; rfl)
  have hdev : ∀ k, splitItem (c!"dev" ++ natStr k) = [c!"dev" ++ natStr k] :=
    fun k => splitItem_word (by intro x hx; simp at hx; subst hx; rfl)
  have hpd : ∀ k, '.' ∉ c!"post" ++ natStr k := fun k => by simp [hdot k]
  have hdd : ∀ k, '.' ∉ c!"dev" ++ natStr k := fun k => by simp [hdot k]
  -- the end of the text: post and dev after an item
  have key : ∀ a : Str, '.' ∉ a → ((splitOn '.' (a ++ (showPost v ++ showDev v))).map splitItem).flatten =
      splitItem a ++ ((match v.post with | none => [] | some (_, n) => [c!"post" ++ natStr n]) ++
        (match v.dev with | none => [] | some (_, n) => [c!"dev" ++ natStr n])) := by
    intro a ha
    unfold showPost showDev
    cases v.post with
    | none =>
      cases v.dev with
      | none => simp [splitOn_whole ha]
      | some q =>
        have e : a ++ ([] ++ (c!".dev" ++ natStr q.2)) = a ++ '.' :: (c!"dev" ++ natStr q.2) := by simp
        simp only [e, splitOn_part _ ha, splitOn_whole (hdd q.2), List.map_cons, List.map_nil, hdev]
        simp
    | some p =>
      cases v.dev with
      | none =>
        have e : a ++ ((c!".post" ++ natStr p.2) ++ []) = a ++ '.' :: (c!"post" ++ natStr p.2) := by simp
        simp only [e, splitOn_part _ ha, splitOn_whole (hpd p.2), List.map_cons, List.map_nil, hpost]
        simp
      | some q =>
        have e : a ++ ((c!".post" ++ natStr p.2) ++ (c!".dev" ++ natStr q.2)) =
            a ++ '.' :: ((c!"post" ++ natStr p.2) ++ '.' :: (c!"dev" ++ natStr q.2)) := by simp
        simp only [e, splitOn_part _ ha, splitOn_part _ (hpd p.2), splitOn_whole (hdd q.2), List.map_cons,
          List.map_nil, hpost, hdev]
        simp
  unfold suffixParts
  cases hp : v.pre with
  | none =>
    have e : showPre v = [] := by simp [showPre, hp]
    rw [e, List.nil_append, key _ (hdot n), splitItem_nat]
    simp
  | some x =>
    obtain ⟨l, k⟩ := x
    have e : showPre v = l ++ natStr k := by simp [showPre, hp]
    have hl := hv.pre l k hp
    have e2 : natStr n ++ (showPre v ++ showPost v ++ showDev v) =
        (natStr n ++ (l ++ natStr k)) ++ (showPost v ++ showDev v) := by rw [e]; simp
    rw [e2, key _ (by rcases hl with rfl | rfl | rfl <;> simp [hdot]), splitItem_pre n k hl]
    simp

theorem split_release {v : Ver} (hv : ValidVersion v) : ∀ (r : List Nat), r ≠ [] →
    ((splitOn '.' (joinWith c!"." (r.map natStr) ++ (showPre v ++ showPost v ++ showDev v))).map splitItem).flatten =
      r.map natStr ++ suffixParts v
  | [], h => absurd rfl h
  | [n], _ => by simpa [joinWith] using split_tail n hv
  | n :: m :: r, _ => by
    have ih := split_release hv (m :: r) (by simp)
    have e : joinWith c!"." ((n :: m :: r).map natStr) = natStr n ++ '.' :: joinWith c!"." ((m :: r).map natStr) := by
      simp [joinWith]
    rw [e, List.append_assoc, List.cons_append, splitOn_part _ (natStr_lacks n rfl), List.map_cons,
      List.flatten_cons, ih, splitItem_nat]
    simp

theorem bangParts_mark {a b : Str} (hb : '!' ∉ b) : bangParts (a ++ c!"!" ++ b) = (a, b) := by
  have h1 : (a ++ c!"!" ++ b).reverse = b.reverse ++ '!' :: a.reverse := by simp
  have hb' : ∀ x ∈ b.reverse, (decide (x ≠ '!')) = true := by
    intro x hx
    have : x ≠ '!' := by rintro rfl; exact hb (List.mem_reverse.mp hx)
    simpa using this
  have h2 : (b.reverse ++ '!' :: a.reverse).takeWhile (fun x => decide (x ≠ '!')) = b.reverse :=
    takeWhile_front hb' (by intro x hx; simp at hx; simp [← hx])
  have h3 := List.takeWhile_append_dropWhile (p := fun x => decide (x ≠ '!')) (l := b.reverse ++ '!' :: a.reverse)
  rw [h2] at h3
  have h4 := List.append_cancel_left h3
  unfold bangParts
  rw [if_pos (by simp), h1, h2, h4]
  simp

theorem versionSplit_show {v : Ver} (hv : ValidVersion v) (hl : v.loc = none) :
    versionSplit v.show = natStr v.epoch :: (v.release.map natStr ++ suffixParts v) := by
  have hr := split_release hv v.release hv.release
  have ht := tail_lacks hv (x := '!') (.inr rfl)
  have e : v.show = showEpoch v ++ (showRelease v ++ showPre v ++ showPost v ++ showDev v) := by
    simp [Ver.show, showLocal, hl]
  have e' : showRelease v ++ showPre v ++ showPost v ++ showDev v =
      joinWith c!"." (v.release.map natStr) ++ (showPre v ++ showPost v ++ showDev v) := by
    simp [showRelease]
  unfold versionSplit
  rw [e]
  by_cases h0 : v.epoch = 0
  · have e0 : showEpoch v = [] := by simp [showEpoch, h0]
    have hb : bangParts (showRelease v ++ showPre v ++ showPost v ++ showDev v) =
        ([], showRelease v ++ showPre v ++ showPost v ++ showDev v) := by
      unfold bangParts; rw [if_neg ht]
    rw [e0, List.nil_append, hb, e', hr, h0]
    simp
    rfl
  · have e0 : showEpoch v = natStr v.epoch ++ c!"!" := by simp [showEpoch, h0]
    rw [e0, bangParts_mark ht, e', hr, if_neg (natStr_nonempty _)]

/-! ### Series -/

theorem allDigits_natStr (n : Nat) : allDigits (natStr n) = true := by
  have h2 : (natStr n).all asciiDigit = true := List.all_eq_true.mpr (natStr_all n)
  have h3 : (natStr n).isEmpty = false := by simpa using natStr_nonempty n
  simp [allDigits, h2, h3]

theorem suffix_words {v : Ver} (hv : ValidVersion v) {s : Str} (hs : s ∈ suffixParts v) :
    allDigits s = false ∧ isNotSuffix s = false := by
  unfold suffixParts at hs
  simp only [List.mem_append] at hs
  rcases hs with (h | h) | h
  · cases hp : v.pre with
    | none => simp [hp] at h
    | some x =>
      obtain ⟨l, n⟩ := x
      simp [hp] at h
      subst h
      rcases hv.pre l n hp with rfl | rfl | rfl <;> constructor <;>
        simp [allDigits, asciiDigit, isNotSuffix, List.isPrefixOf]
  · cases hp : v.post with
    | none => simp [hp] at h
    | some x =>
      simp [hp] at h
      subst h
      constructor <;> simp [allDigits, asciiDigit, isNotSuffix, List.isPrefixOf]
  · cases hp : v.dev with
    | none => simp [hp] at h
    | some x =>
      simp [hp] at h
      subst h
      constructor <;> simp [allDigits, asciiDigit, isNotSuffix, List.isPrefixOf]

theorem natStr_notSuffix (n : Nat) : isNotSuffix (natStr n) = true := by
  have h := natStr_all n
  have h0 := natStr_nonempty n
  cases hn : natStr n with
  | nil => exact absurd hn h0
  | cons x s =>
    rw [hn] at h
    have hx := h x (by simp)
    have : ∀ y : Char, asciiDigit y = false → ¬ y = x := by rintro y hy rfl; rw [hx] at hy; cases hy
    have hd := this 'd' rfl
    have ha := this 'a' rfl
    have hb := this 'b' rfl
    have hr := this 'r' rfl
    have hp := this 'p' rfl
    simp [isNotSuffix, List.isPrefixOf, hd, ha, hb, hr, hp]

theorem split_numbers {p : Str → Bool} (hp : ∀ n, p (natStr n) = true) {v : Ver}
    (hs : ∀ s ∈ suffixParts v, p s = false) :
    (natStr v.epoch :: (v.release.map natStr ++ suffixParts v)).takeWhile p =
      natStr v.epoch :: v.release.map natStr := by
  have : natStr v.epoch :: (v.release.map natStr ++ suffixParts v) =
      (natStr v.epoch :: v.release.map natStr) ++ suffixParts v := rfl
  rw [this]
  refine takeWhile_front ?_ ?_
  · intro x hx
    rcases List.mem_cons.mp hx with rfl | hx
    · exact hp _
    · obtain ⟨n, -, rfl⟩ := List.mem_map.mp hx
      exact hp n
  · intro x hx
    exact hs x (List.mem_of_mem_head? (by simpa using hx))

theorem series_take (sfx : List Str) : ∀ (a r : List Nat),
    (a.map natStr ++ (List.replicate (r.length - a.length) c!"0" ++ sfx)).take r.length = r.map natStr ↔
      ∀ i < r.length, component a i = component r i
  | _, [] => by simp
  | [], m :: r => by
    have ih := series_take sfx [] r
    have e0 : (c!"0" : Str) = natStr 0 := rfl
    simp only [List.map_nil, List.nil_append, List.length_cons, List.length_nil, Nat.sub_zero,
      List.replicate_succ, List.cons_append, List.take_succ_cons, List.map_cons, List.cons.injEq] at ih ⊢
    rw [ih]
    constructor
    · rintro ⟨h1, h2⟩ i hi
      cases i with
      | zero => exact natStr_injective (e0 ▸ h1)
      | succ i => simpa [component] using h2 i (by omega)
    · intro h
      refine ⟨?_, fun i hi => ?_⟩
      · have := h 0 (by omega)
        simp [component] at this
        rw [← this]; rfl
      · simpa [component] using h (i + 1) (by omega)
  | n :: a, m :: r => by
    have ih := series_take sfx a r
    simp only [List.map_cons, List.cons_append, List.length_cons, Nat.add_sub_add_right,
      List.take_succ_cons, List.cons.injEq]
    rw [ih]
    constructor
    · rintro ⟨h1, h2⟩ i hi
      cases i with
      | zero => simpa [component] using natStr_injective h1
      | succ i => simpa [component] using h2 i (by omega)
    · intro h
      refine ⟨?_, fun i hi => ?_⟩
      · have := h 0 (by omega)
        simp [component] at this
        rw [this]
      · simpa [component] using h (i + 1) (by omega)

/-- Only a release. -/
theorem versionSplit_base {e : Nat} {r : List Nat} (hr : r ≠ []) :
    versionSplit (Ver.show ⟨e, r, none, none, none, none⟩) = natStr e :: r.map natStr := by
  have := versionSplit_show (v := ⟨e, r, none, none, none, none⟩) ⟨hr, by simp, by simp, by simp, by simp⟩ rfl
  simpa [suffixParts] using this

theorem compareEqual_star {v : Ver} (hv : ValidVersion v) {t : Str} {e : Nat} {r : List Nat}
    (ht : Written t ⟨e, r, none, none, none, none⟩) :
    ∃ b, compareEqual v (t ++ c!".*") = some b ∧ (b = true ↔ InSeries v e r) := by
  obtain ⟨hp, hw⟩ := written_of ht
  have hr : r ≠ [] := hw.release
  have hs : endsStar (t ++ c!".*") = true := by
    unfold endsStar; rw [List.isSuffixOf_iff_suffix]; exact ⟨t, rfl⟩
  have hk : (t ++ c!".*").take ((t ++ c!".*").length - 2) = t := by simp
  have hv' := valid_withoutLocal hv
  have c1 : canonicalText t = Ver.show ⟨e, r, none, none, none, none⟩ := by simp [canonicalText, hp]
  have c2 : canonicalText v.public = (withoutLocal v).show := by simp [canonicalText, parse_public hv]
  refine ⟨_, by simp only [compareEqual, hs, if_true, hk]; rfl, ?_⟩
  rw [beq_iff_eq, c1, c2, versionSplit_base hr, versionSplit_show hv' rfl]
  have d1 := split_numbers (p := allDigits) allDigits_natStr (v := withoutLocal v)
    (fun s hs => (suffix_words hv' hs).1)
  have d2 : (natStr e :: r.map natStr).takeWhile allDigits = natStr e :: r.map natStr := by
    have := takeWhile_front (p := allDigits) (a := natStr e :: r.map natStr) (b := []) (by
      intro x hx
      rcases List.mem_cons.mp hx with rfl | hx
      · exact allDigits_natStr _
      · obtain ⟨n, -, rfl⟩ := List.mem_map.mp hx
        exact allDigits_natStr n) (by simp)
    simpa using this
  unfold padVersion
  rw [d1, d2]
  have d3 : (natStr (withoutLocal v).epoch :: ((withoutLocal v).release.map natStr ++ suffixParts (withoutLocal v))).drop
      (natStr (withoutLocal v).epoch :: (withoutLocal v).release.map natStr).length = suffixParts (withoutLocal v) := by
    simp
  rw [d3]
  have key := series_take (suffixParts (withoutLocal v)) v.release r
  have e1 : (withoutLocal v).release = v.release := rfl
  have e2 : (withoutLocal v).epoch = v.epoch := rfl
  simp only [List.length_cons, List.length_map, Nat.add_sub_add_right, List.cons_append, List.take_succ_cons,
    List.cons.injEq, e1, e2, List.append_assoc]
  rw [key]
  exact ⟨fun h => ⟨natStr_injective h.1, h.2⟩, fun h => ⟨by rw [h.1], h.2⟩⟩

theorem written_series {e : Nat} {r : List Nat} (hr : r ≠ []) :
    Written (natStr e ++ c!"!" ++ joinWith c!"." (r.map natStr)) ⟨e, r, none, none, none, none⟩ := by
  refine ⟨⟨[], [], natStr e ++ c!"!", joinWith c!"." (r.map natStr), [], [], [], [], [], False, False, False,
    by simp, by simp, by simp, .inl rfl, .inr ⟨_, rfl, natStr_digits _⟩, release_written _ hr,
    .inl ⟨rfl, rfl, id⟩, .inr ⟨id, False, .inl ⟨rfl, rfl, id⟩⟩, fun h => h.1, .inl ⟨rfl, rfl, id⟩, .inl ⟨rfl, rfl⟩⟩⟩

theorem compatiblePrefix_show {w : Ver} (hw : ValidVersion w) (hl : w.loc = none) :
    compatiblePrefix w.show =
      natStr w.epoch ++ c!"!" ++ joinWith c!"." (w.release.dropLast.map natStr) ++ c!".*" := by
  unfold compatiblePrefix
  rw [versionSplit_show hw hl, split_numbers natStr_notSuffix (fun s hs => (suffix_words hw hs).2)]
  have : (natStr w.epoch :: w.release.map natStr).dropLast = natStr w.epoch :: w.release.dropLast.map natStr := by
    cases h : w.release with
    | nil => exact absurd h hw.release
    | cons a l => simp [List.map_dropLast]
  rw [this]
  rfl

end Gyp
