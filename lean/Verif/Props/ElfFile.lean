import Verif.Spec.ElfFile
/-
C127: the header of an ELF file.
-/
namespace Gyp
open Spec

theorem bytesLE_append (a b : List Nat) : bytesLE (a ++ b) = bytesLE a + 256 ^ a.length * bytesLE b := by
  induction a with
  | nil => simp [bytesLE]
  | cons x a ih =>
    simp only [List.cons_append, bytesLE, ih, List.length_cons, Nat.pow_succ, Nat.mul_add]
    rw [Nat.mul_comm (256 ^ a.length) 256, Nat.mul_assoc]
    omega

theorem sum_scaled (c : Nat) (f : Nat → Nat) (l : List Nat) : (l.map fun i => c * f i).sum = c * (l.map f).sum := by
  induction l with
  | nil => rfl
  | cons a l ih => simp only [List.map_cons, List.sum_cons, ih, Nat.mul_add]

theorem means_little (bs : List Nat) :
    bytesLE bs = ((List.range bs.length).map fun i => bs.getD i 0 * 256 ^ i).sum := by
  induction bs with
  | nil => rfl
  | cons b r ih =>
    rw [bytesLE, ih, List.length_cons, List.range_succ_eq_map, List.map_cons, List.sum_cons, List.map_map]
    simp only [List.getD_cons_zero, Nat.pow_zero, Nat.mul_one]
    congr 1
    rw [← sum_scaled]
    congr 1
    apply List.map_congr_left
    intro i _
    simp only [Function.comp, List.getD_cons_succ, Nat.pow_succ]
    rw [Nat.mul_comm (256 ^ i) 256, Nat.mul_left_comm]

theorem means_big (bs : List Nat) :
    bytesLE bs.reverse = ((List.range bs.length).map fun i => bs.getD i 0 * 256 ^ (bs.length - 1 - i)).sum := by
  induction bs with
  | nil => rfl
  | cons b r ih =>
    rw [List.reverse_cons, bytesLE_append, ih, List.length_cons, List.range_succ_eq_map, List.map_cons,
      List.sum_cons, List.map_map]
    simp only [List.getD_cons_zero, bytesLE, Nat.mul_zero, Nat.add_zero, List.length_reverse, Nat.add_sub_cancel,
      Nat.sub_zero]
    rw [Nat.add_comm, Nat.mul_comm]
    congr 2
    apply List.map_congr_left
    intro i _
    simp only [Function.comp, List.getD_cons_succ]
    congr 2
    omega

theorem means_iff {big : Bool} {bs : List Nat} {v : Nat} : Means big bs v ↔ v = bytesNum big bs := by
  cases big
  · simp only [Means, bytesNum, Bool.false_eq_true, if_false, means_little]
  · simp only [Means, bytesNum, if_true, means_big]

/-- The numbers of the fields one after another. -/
def fieldsOf (big : Bool) : List Nat → List Nat → List Nat
  | [], _ => []
  | n :: ns, b => bytesNum big (b.take n) :: fieldsOf big ns (b.drop n)

theorem unpackFields_eq (big : Bool) : ∀ (ns b : List Nat),
    unpackFields big ns b = if b.length = ns.sum then some (fieldsOf big ns b) else none
  | [], b => by cases b <;> simp [unpackFields, fieldsOf]
  | n :: ns, b => by
    have hsum : (n :: ns).sum = n + ns.sum := List.sum_cons
    rw [unpackFields, unpackFields_eq big ns, List.length_drop, fieldsOf, hsum]
    by_cases h : b.length < n
    · rw [if_pos h, if_neg (by omega)]
    · rw [if_neg h]
      by_cases h2 : b.length - n = ns.sum
      · rw [if_pos h2, if_pos (by omega)]; rfl
      · rw [if_neg h2, if_neg (by omega)]; rfl

theorem fieldsOf_take (big : Bool) : ∀ (ns f : List Nat), fieldsOf big ns (f.take ns.sum) = fieldsOf big ns f
  | [], _ => rfl
  | n :: ns, f => by
    simp only [fieldsOf, List.sum_cons, List.take_take, List.drop_take]
    rw [Nat.min_eq_left (by omega), show n + ns.sum - n = ns.sum by omega, fieldsOf_take big ns]

theorem readFields_eq (big : Bool) (ns f : List Nat) {pos : Nat} (h0 : 0 < ns.sum) :
    readFields big ns f pos = if pos + ns.sum ≤ f.length then some (fieldsOf big ns (f.drop pos)) else none := by
  rw [readFields, unpackFields_eq, fieldsOf_take]
  simp only [List.length_take, List.length_drop]
  by_cases h : pos + ns.sum ≤ f.length
  · rw [if_pos h, if_pos (by omega)]
  · rw [if_neg h, if_neg (by omega)]

theorem elfKind_iff {c d : Nat} {w b : Bool} :
    elfKind c d = some (w, b) ↔ c = (if w then 2 else 1) ∧ d = if b then 2 else 1 := by
  unfold elfKind
  constructor
  · intro h
    split at h
    · cases h; simpa
    · split at h
      · cases h; simpa
      · split at h
        · cases h; simpa
        · split at h
          · cases h; simpa
          · cases h
  · rintro ⟨rfl, rfl⟩
    cases w <;> cases b <;> rfl

theorem ident_take (f : List Nat) (h : 16 ≤ f.length) :
    (fieldsOf false (List.replicate 16 1) f).take 4 = f.take 4 ∧
    (fieldsOf false (List.replicate 16 1) f).getD 4 0 = f.getD 4 0 ∧
    (fieldsOf false (List.replicate 16 1) f).getD 5 0 = f.getD 5 0 := by
  match f, h with
  | a :: b :: c :: d :: e :: g :: r, h =>
    simp [fieldsOf, List.replicate, bytesNum, bytesLE]

/-- **C127 (header).** A file is read exactly if it has a header, and what is read is what stands at the places of the
fields. -/
theorem C127_header (f : List Nat) (e : ElfInfo) : elfParse f = some e ↔ ElfHeader f e := by
  obtain ⟨w, g, machine, flags, phoff, phentsize, phnum⟩ := e
  have hget : ∀ i v, i < f.length → (f[i]? = some v ↔ f.getD i 0 = v) := by
    intro i v hi
    rw [List.getD_eq_getElem?_getD, List.getElem?_eq_getElem hi]
    simp
  unfold elfParse
  rw [readFields_eq _ _ _ (by decide)]
  have hs : (List.replicate 16 1).sum = 16 := by decide
  rw [hs]
  by_cases hl : 16 ≤ f.length
  · obtain ⟨i1, i2, i3⟩ := ident_take f hl
    rw [if_pos (by omega)]
    simp only [List.drop_zero, i1, i2, i3, ne_eq, ite_not]
    by_cases hm : f.take 4 = [127, 69, 76, 70]
    · rw [if_pos hm]
      cases hk : elfKind (f.getD 4 0) (f.getD 5 0) with
      | none =>
        simp only [reduceCtorEq, false_iff]
        rintro ⟨-, h4, h5, -⟩
        rw [hget _ _ (by omega)] at h4 h5
        have := elfKind_iff.mpr ⟨h4, h5⟩
        rw [hk] at this
        cases this
      | some p =>
        obtain ⟨w', g'⟩ := p
        have hk' := elfKind_iff.mp hk
        by_cases hwg : w' = w ∧ g' = g
        · obtain ⟨rfl, rfl⟩ := hwg
          simp only
          cases w'
          · rw [readFields_eq _ _ _ (by decide)]
            have hs : (elfHeaderSizes false).sum = 30 := by decide
            rw [hs]
            by_cases h46 : 16 + 30 ≤ f.length
            · rw [if_pos h46]
              simp only [elfHeaderSizes, Bool.false_eq_true, if_false, fieldsOf, List.drop_drop, Nat.reduceAdd,
                Option.some.injEq, ElfInfo.mk.injEq, true_and, ElfHeader, hm, FieldAt, means_iff,
                hget 4 _ (by omega), hget 5 _ (by omega)]
              constructor
              · rintro ⟨rfl, rfl, rfl, rfl, rfl⟩
                exact ⟨by simpa using hk'.1, hk'.2, ⟨by omega, rfl⟩, ⟨by omega, rfl⟩, ⟨by omega, rfl⟩,
                  ⟨by omega, rfl⟩, ⟨by omega, rfl⟩⟩
              · rintro ⟨-, -, ⟨-, rfl⟩, ⟨-, rfl⟩, ⟨-, rfl⟩, ⟨-, rfl⟩, ⟨-, rfl⟩⟩
                exact ⟨rfl, rfl, rfl, rfl, rfl⟩
            · rw [if_neg h46]
              simp only [reduceCtorEq, false_iff]
              rintro ⟨-, -, -, -, -, -, -, h, -⟩
              simp only [Bool.false_eq_true, if_false] at h
              omega
          · rw [readFields_eq _ _ _ (by decide)]
            have hs : (elfHeaderSizes true).sum = 42 := by decide
            rw [hs]
            by_cases h46 : 16 + 42 ≤ f.length
            · rw [if_pos h46]
              simp only [elfHeaderSizes, if_true, fieldsOf, List.drop_drop, Nat.reduceAdd,
                Option.some.injEq, ElfInfo.mk.injEq, true_and, ElfHeader, hm, FieldAt, means_iff,
                hget 4 _ (by omega), hget 5 _ (by omega)]
              constructor
              · rintro ⟨rfl, rfl, rfl, rfl, rfl⟩
                exact ⟨by simpa using hk'.1, hk'.2, ⟨by omega, rfl⟩, ⟨by omega, rfl⟩, ⟨by omega, rfl⟩,
                  ⟨by omega, rfl⟩, ⟨by omega, rfl⟩⟩
              · rintro ⟨-, -, ⟨-, rfl⟩, ⟨-, rfl⟩, ⟨-, rfl⟩, ⟨-, rfl⟩, ⟨-, rfl⟩⟩
                exact ⟨rfl, rfl, rfl, rfl, rfl⟩
            · rw [if_neg h46]
              simp only [reduceCtorEq, false_iff]
              rintro ⟨-, -, -, -, -, -, -, h, -⟩
              simp only [if_true] at h
              omega
        · constructor
          · intro h
            simp only at h
            split at h
            · cases h; exact absurd ⟨rfl, rfl⟩ hwg
            · cases h
          · rintro ⟨-, h4, h5, -⟩
            rw [hget _ _ (by omega)] at h4 h5
            have := elfKind_iff.mpr ⟨h4, h5⟩
            rw [hk] at this
            cases this
            exact absurd ⟨rfl, rfl⟩ hwg
    · rw [if_neg hm]
      simp only [reduceCtorEq, false_iff]
      exact fun h => hm h.1
  · rw [if_neg (by omega)]
    simp only [reduceCtorEq, false_iff]
    rintro ⟨-, -, -, h, -⟩
    have := h.1
    omega

theorem entry_iff (f : List Nat) (e : ElfInfo) (i o s : Nat) : InterpEntry f e i o s ↔
    ∃ data, readFields e.big (elfEntrySizes e.wide) f (e.phoff + e.phentsize * i) = some data ∧
      data.getD 0 0 = 3 ∧ data.getD (if e.wide then 2 else 1) 0 = o ∧ data.getD (if e.wide then 5 else 4) 0 = s := by
  obtain ⟨w, g, machine, flags, phoff, phentsize, phnum⟩ := e
  cases w
  · rw [readFields_eq _ _ _ (show 0 < (elfEntrySizes false).sum by decide)]
    have hs : (elfEntrySizes false).sum = 32 := by decide
    simp only [hs, InterpEntry, FieldAt, means_iff, Bool.false_eq_true, if_false]
    by_cases h : phoff + phentsize * i + 32 ≤ f.length
    · rw [if_pos h]
      simp only [Option.some.injEq, exists_eq_left', elfEntrySizes, Bool.false_eq_true, if_false, fieldsOf,
        List.drop_drop, Nat.reduceAdd, List.getD_cons_zero, List.getD_cons_succ]
      constructor
      · rintro ⟨_, ⟨_, h1⟩, ⟨_, h2⟩, _, h3⟩; exact ⟨h1.symm, h2.symm, h3.symm⟩
      · rintro ⟨h1, h2, h3⟩
        exact ⟨h, ⟨by omega, h1.symm⟩, ⟨by omega, h2.symm⟩, by omega, h3.symm⟩
    · rw [if_neg h]
      simp [h]
  · rw [readFields_eq _ _ _ (show 0 < (elfEntrySizes true).sum by decide)]
    have hs : (elfEntrySizes true).sum = 56 := by decide
    simp only [hs, InterpEntry, FieldAt, means_iff, if_true]
    by_cases h : phoff + phentsize * i + 56 ≤ f.length
    · rw [if_pos h]
      simp only [Option.some.injEq, exists_eq_left', elfEntrySizes, if_true, fieldsOf,
        List.drop_drop, Nat.reduceAdd, List.getD_cons_zero, List.getD_cons_succ]
      constructor
      · rintro ⟨_, ⟨_, h1⟩, ⟨_, h2⟩, _, h3⟩; exact ⟨h1.symm, h2.symm, h3.symm⟩
      · rintro ⟨h1, h2, h3⟩
        exact ⟨h, ⟨by omega, h1.symm⟩, ⟨by omega, h2.symm⟩, by omega, h3.symm⟩
    · rw [if_neg h]
      simp [h]

theorem elfLoop_step (f : List Nat) (e : ElfInfo) (n i : Nat) :
    (∃ o s, InterpEntry f e i o s ∧ elfLoop f e (n + 1) i = some (stripZeros ((f.drop o).take s))) ∨
    (∀ o s, ¬ InterpEntry f e i o s) ∧ elfLoop f e (n + 1) i = elfLoop f e n (i + 1) := by
  rw [elfLoop]
  cases hr : readFields e.big (elfEntrySizes e.wide) f (e.phoff + e.phentsize * i) with
  | none =>
    refine .inr ⟨fun o s h => ?_, rfl⟩
    obtain ⟨d, hd, -⟩ := (entry_iff ..).mp h
    rw [hr] at hd; cases hd
  | some data =>
    by_cases h3 : data.getD 0 0 = 3
    · refine .inl ⟨_, _, (entry_iff ..).mpr ⟨data, hr, h3, rfl, rfl⟩, ?_⟩
      exact if_neg (not_not.mpr h3)
    · refine .inr ⟨fun o s h => ?_, if_pos h3⟩
      obtain ⟨d, hd, h, -⟩ := (entry_iff ..).mp h
      rw [hr] at hd; cases hd
      exact h3 h

theorem elfLoop_spec (f : List Nat) (e : ElfInfo) : ∀ n i,
    (elfLoop f e n i = none ∧ ∀ j, i ≤ j → j < i + n → ∀ o s, ¬ InterpEntry f e j o s) ∨
    ∃ j o s, i ≤ j ∧ j < i + n ∧ InterpEntry f e j o s ∧ (∀ k, i ≤ k → k < j → ∀ o s, ¬ InterpEntry f e k o s) ∧
      elfLoop f e n i = some (stripZeros ((f.drop o).take s))
  | 0, i => .inl ⟨rfl, fun j h1 h2 => by omega⟩
  | n + 1, i => by
    rcases elfLoop_step f e n i with ⟨o, s, h, he⟩ | ⟨hno, he⟩
    · exact .inr ⟨i, o, s, Nat.le_refl _, by omega, h, fun k h1 h2 => by omega, he⟩
    · rcases elfLoop_spec f e n (i + 1) with ⟨h1, h2⟩ | ⟨j, o, s, h1, h2, h3, h4, h5⟩
      · refine .inl ⟨he.trans h1, fun j hj hj2 => ?_⟩
        by_cases hji : j = i
        · subst hji; exact hno
        · exact h2 j (by omega) (by omega)
      · refine .inr ⟨j, o, s, by omega, by omega, h3, fun k hk hk2 => ?_, he.trans h5⟩
        by_cases hki : k = i
        · subst hki; exact hno
        · exact h4 k (by omega) hk2

theorem dropWhile_zero_split (l : List Nat) :
    ∃ a, l = a ++ l.dropWhile (· == 0) ∧ (∀ x ∈ a, x = 0) ∧ (l.dropWhile (· == 0)).head? ≠ some 0 := by
  induction l with
  | nil => exact ⟨[], by simp⟩
  | cons b r ih =>
    by_cases h : b = 0
    · subst h
      obtain ⟨a, h1, h2, h3⟩ := ih
      refine ⟨0 :: a, ?_, ?_, ?_⟩
      · simp only [List.dropWhile_cons, beq_self_eq_true, if_true, List.cons_append]
        rw [← h1]
      · simpa using h2
      · simpa using h3
    · exact ⟨[], by simp [h]⟩

theorem stripZeros_spec (l : List Nat) : WithoutZeros l (stripZeros l) := by
  obtain ⟨a, h1, h2, h3⟩ := dropWhile_zero_split l
  obtain ⟨b, k1, k2, k3⟩ := dropWhile_zero_split (l.dropWhile (· == 0)).reverse
  have e : l.dropWhile (· == 0) = stripZeros l ++ b.reverse := by
    have := congrArg List.reverse k1
    simpa [stripZeros] using this
  refine ⟨a, b.reverse, ?_, h2, by simpa using k2, ?_, ?_⟩
  · rw [List.append_assoc, ← e]; exact h1
  · intro hh
    apply h3
    rw [e, List.head?_append, hh]; rfl
  · rw [stripZeros, List.getLast?_reverse]; exact k3

/-- **C127 (interpreter).** The interpreter is what the first entry of type 3 in the file names, without zeros around it;
there is none exactly if there is no such entry. -/
theorem C127_interpreter (f : List Nat) (e : ElfInfo) :
    (∀ s, elfInterpreter f e = some s → ∃ i offset size, i < e.phnum ∧ InterpEntry f e i offset size ∧
      (∀ j < i, ∀ o z, ¬ InterpEntry f e j o z) ∧ WithoutZeros ((f.drop offset).take size) s) ∧
    (elfInterpreter f e = none ↔ ∀ i < e.phnum, ∀ o z, ¬ InterpEntry f e i o z) := by
  rcases elfLoop_spec f e e.phnum 0 with ⟨h1, h2⟩ | ⟨j, o, z, h1, h2, h3, h4, h5⟩
  · refine ⟨fun s h => ?_, ⟨fun _ i hi => h2 i (Nat.zero_le _) (by omega), fun _ => h1⟩⟩
    rw [elfInterpreter, h1] at h; cases h
  · refine ⟨fun s h => ?_, ⟨fun h => ?_, fun h => absurd h3 (h j (by omega) o z)⟩⟩
    · rw [elfInterpreter, h5] at h
      cases h
      exact ⟨j, o, z, by omega, h3, fun k hk => h4 k (Nat.zero_le _) hk, stripZeros_spec _⟩
    · rw [elfInterpreter, h5] at h; cases h

/-- **C127 (one interpreter).** The text without the zeros around it is one text. -/
theorem C127_one {raw s t : List Nat} (hs : WithoutZeros raw s) (ht : WithoutZeros raw t) : s = t := by
  have core : ∀ {raw s : List Nat}, WithoutZeros raw s → stripZeros raw = s := by
    rintro raw s ⟨a, b, rfl, ha, hb, h1, h2⟩
    have drop0 : ∀ {a r : List Nat}, (∀ x ∈ a, x = 0) → (a ++ r).dropWhile (· == 0) = r.dropWhile (· == 0) := by
      intro a r h
      induction a with
      | nil => rfl
      | cons x a ih =>
        have : x = 0 := h x (by simp)
        subst this
        simpa using ih fun y hy => h y (by simp [hy])
    have keep : ∀ {r : List Nat}, r.head? ≠ some 0 → r.dropWhile (· == 0) = r := by
      intro r h
      cases r with
      | nil => rfl
      | cons x r =>
        have : x ≠ 0 := by simpa using h
        simp [this]
    cases s with
    | nil =>
      have e : (a ++ [] ++ b).dropWhile (· == 0) = [] := by
        rw [List.append_assoc, drop0 ha]
        simp only [List.nil_append]
        have := drop0 (a := b) (r := []) hb
        simpa using this
      rw [stripZeros, e]; rfl
    | cons x s =>
      have hx : x ≠ 0 := by simpa using h1
      rw [stripZeros, List.append_assoc, drop0 ha, keep (r := x :: s ++ b) (by simpa using hx), List.reverse_append,
        drop0 (by simpa using hb), keep, List.reverse_reverse]
      rw [List.head?_reverse]; exact h2
  rw [← core hs, ← core ht]

/-- A small 32-bit file with two entries. -/
def elfSample : List Nat :=
  [127, 69, 76, 70, 1, 1, 1, 0, 0, 0, 0, 0, 0, 0, 0, 0, 2, 0, 40, 0, 1, 0, 0, 0, 0, 0, 0, 0, 46, 0, 0, 0, 0, 0, 0, 0,
   0, 4, 0, 5, 52, 0, 32, 0, 2, 0] ++
  [1, 0, 0, 0] ++ List.replicate 28 0 ++ [3, 0, 0, 0, 110, 0, 0, 0, 0, 0, 0, 0, 0, 0, 0, 0, 5, 0, 0, 0] ++
  List.replicate 12 0 ++ [47, 108, 100, 0, 0]

example : elfParse elfSample = some ⟨false, false, 40, 83887104, 46, 32, 2⟩ := by decide +kernel
example : elfInterpreter elfSample ⟨false, false, 40, 83887104, 46, 32, 2⟩ = some [47, 108, 100] := by decide +kernel
example : elfParse (elfSample.take 40) = none := by decide +kernel

end Gyp
