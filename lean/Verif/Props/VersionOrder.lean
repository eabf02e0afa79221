import Verif.Spec.Version
import Mathlib.Data.List.Forall2
import Mathlib.Data.List.Induction
import Mathlib.Data.Nat.Find
/-
C44: comparing versions.
-/
namespace Gyp
open Spec

mutual
theorem VKey.eq_iff : ∀ a b : VKey, VKey.eq a b = true ↔ a = b
  | .int a, b => by cases b <;> simp [VKey.eq]
  | .str a, b => by cases b <;> simp [VKey.eq]
  | .inf, b => by cases b <;> simp [VKey.eq]
  | .neg, b => by cases b <;> simp [VKey.eq]
  | .tup a, b => by
    cases b with
    | tup b => simp [VKey.eq, VKey.eqList_iff a b]
    | _ => simp [VKey.eq]
theorem VKey.eqList_iff : ∀ a b : List VKey, VKey.eqList a b = true ↔ a = b
  | [], b => by cases b <;> simp [VKey.eqList]
  | a :: l, b => by
    cases b with
    | nil => simp [VKey.eqList]
    | cons b m => simp [VKey.eqList, VKey.eq_iff a b, VKey.eqList_iff l m]
end

theorem VKey.eq_false {a b : VKey} (h : a ≠ b) : VKey.eq a b = false := by
  cases e : VKey.eq a b
  · rfl
  · exact absurd ((VKey.eq_iff a b).mp e) h

theorem cmpList_same {op : CmpOp} {a : VKey} {l m : List VKey} :
    VKey.cmpList op (a :: l) (a :: m) = VKey.cmpList op l m := by
  simp [VKey.cmpList, (VKey.eq_iff a a).mpr rfl]

theorem cmpList_ne {op : CmpOp} {a b : VKey} {l m : List VKey} (h : a ≠ b) :
    VKey.cmpList op (a :: l) (b :: m) = VKey.cmp op a b := by
  simp [VKey.cmpList, VKey.eq_false h]

/-- The keys of a set are totally ordered by the operators, wherever they differ. -/
structure OrderedKeys (S : VKey → Prop) : Prop where
  total : ∀ a b, S a → S b → a ≠ b →
    VKey.cmp .lt a b = some true ∧ VKey.cmp .lt b a = some false ∨
    VKey.cmp .lt a b = some false ∧ VKey.cmp .lt b a = some true
  trans : ∀ a b c, S a → S b → S c → a ≠ b → b ≠ c → VKey.cmp .lt a b = some true →
    VKey.cmp .lt b c = some true → VKey.cmp .lt a c = some true
  ops : ∀ a b, S a → S b → a ≠ b → VKey.cmp .le a b = VKey.cmp .lt a b ∧
    VKey.cmp .gt a b = VKey.cmp .lt b a ∧ VKey.cmp .ge a b = VKey.cmp .lt b a

theorem ordered_int : OrderedKeys fun k => ∃ n, k = .int n := by
  refine ⟨?_, ?_, ?_⟩
  · rintro _ _ ⟨n, rfl⟩ ⟨m, rfl⟩ h
    have : n ≠ m := fun e => h (by rw [e])
    simp only [VKey.cmp, CmpOp.nat, Option.some.injEq, decide_eq_true_eq, decide_eq_false_iff_not]
    omega
  · rintro _ _ _ ⟨n, rfl⟩ ⟨m, rfl⟩ ⟨k, rfl⟩ _ _ h1 h2
    simp only [VKey.cmp, CmpOp.nat, Option.some.injEq, decide_eq_true_eq] at *
    omega
  · rintro _ _ ⟨n, rfl⟩ ⟨m, rfl⟩ h
    have : n ≠ m := fun e => h (by rw [e])
    simp only [VKey.cmp, CmpOp.nat, Option.some.injEq, decide_eq_decide]
    refine ⟨?_, ?_, ?_⟩ <;> first | rfl | (constructor <;> intro _ <;> omega)

theorem char_toNat_inj {a b : Char} (h : a.toNat = b.toNat) : a = b := by
  apply Char.ext
  apply UInt32.toNat_inj.mp
  exact h

theorem strLt_total : ∀ {s t : Str}, s ≠ t →
    strLt s t = true ∧ strLt t s = false ∨ strLt s t = false ∧ strLt t s = true
  | [], [], h => absurd rfl h
  | [], _ :: _, _ => by simp [strLt]
  | _ :: _, [], _ => by simp [strLt]
  | a :: s, b :: t, h => by
    by_cases e : a = b
    · subst e
      simp only [strLt, if_true]
      exact strLt_total fun e => h (by rw [e])
    · simp only [strLt, if_neg e, if_neg (Ne.symm e), decide_eq_true_eq, decide_eq_false_iff_not]
      have : a.toNat ≠ b.toNat := fun e' => e (char_toNat_inj e')
      omega

theorem strLt_trans : ∀ {s t u : Str}, strLt s t = true → strLt t u = true → strLt s u = true
  | [], [], _, h, _ => by simp [strLt] at h
  | _ :: _, [], _, h, _ => by simp [strLt] at h
  | _, _ :: _, [], _, h => by simp [strLt] at h
  | [], _ :: _, _ :: _, _, _ => rfl
  | a :: s, b :: t, c :: u, h1, h2 => by
    simp only [strLt] at *
    by_cases e1 : a = b
    · subst e1
      by_cases e2 : a = c
      · subst e2
        simp only [if_true] at *
        exact strLt_trans h1 h2
      · rw [if_neg e2] at h2 ⊢
        exact h2
    · rw [if_neg e1] at h1
      by_cases e2 : b = c
      · subst e2
        rw [if_neg e1]
        exact h1
      · rw [if_neg e2] at h2
        simp only [decide_eq_true_eq] at h1 h2
        have : a ≠ c := fun e => by subst e; omega
        rw [if_neg this]
        simp only [decide_eq_true_eq]
        omega

theorem ordered_str : OrderedKeys fun k => ∃ s, k = .str s := by
  refine ⟨?_, ?_, ?_⟩
  · rintro _ _ ⟨s, rfl⟩ ⟨t, rfl⟩ h
    simp only [VKey.cmp, CmpOp.str, Option.some.injEq]
    exact strLt_total fun e => h (by rw [e])
  · rintro _ _ _ ⟨s, rfl⟩ ⟨t, rfl⟩ ⟨u, rfl⟩ _ _ h1 h2
    simp only [VKey.cmp, CmpOp.str, Option.some.injEq] at *
    exact strLt_trans h1 h2
  · rintro _ _ ⟨s, rfl⟩ ⟨t, rfl⟩ h
    simp only [VKey.cmp, CmpOp.str, Option.some.injEq]
    rcases strLt_total (s := s) (t := t) (fun e => h (by rw [e])) with ⟨h1, h2⟩ | ⟨h1, h2⟩ <;> simp [h1, h2]

/-- The infinities can be added to any set of keys. -/
theorem OrderedKeys.withInf {S : VKey → Prop} (o : OrderedKeys S) :
    OrderedKeys fun k => k = .inf ∨ k = .neg ∨ S k := by
  have l1 : ∀ op b, VKey.cmp op .inf b = some op.ofInf := fun op b => by simp [VKey.cmp]
  have l2 : ∀ op b, VKey.cmp op .neg b = some op.ofNeg := fun op b => by simp [VKey.cmp]
  have l3 : ∀ op a, a ≠ .inf → a ≠ .neg → VKey.cmp op a .inf = some op.swap.ofInf := by
    intro op a h1 h2
    cases a <;> simp_all [VKey.cmp]
  have l4 : ∀ op a, a ≠ .inf → a ≠ .neg → VKey.cmp op a .neg = some op.swap.ofNeg := by
    intro op a h1 h2
    cases a <;> simp_all [VKey.cmp]
  have split : ∀ a, (a = VKey.inf ∨ a = .neg ∨ S a) → a = .inf ∨ a = .neg ∨ (S a ∧ a ≠ .inf ∧ a ≠ .neg) := by
    intro a h
    by_cases h1 : a = .inf
    · exact .inl h1
    · by_cases h2 : a = .neg
      · exact .inr (.inl h2)
      · rcases h with h | h | h
        · exact absurd h h1
        · exact absurd h h2
        · exact .inr (.inr ⟨h, h1, h2⟩)
  refine ⟨?_, ?_, ?_⟩
  · intro a b ha hb h
    rcases split a ha with rfl | rfl | ⟨ha, a1, a2⟩ <;> rcases split b hb with rfl | rfl | ⟨hb, b1, b2⟩
    · exact absurd rfl h
    · simp [l1, l2, CmpOp.ofInf, CmpOp.ofNeg]
    · simp [l1, l3 _ _ b1 b2, CmpOp.ofInf, CmpOp.swap]
    · simp [l1, l2, CmpOp.ofInf, CmpOp.ofNeg]
    · exact absurd rfl h
    · simp [l2, l4 _ _ b1 b2, CmpOp.ofNeg, CmpOp.swap]
    · simp [l1, l3 _ _ a1 a2, CmpOp.ofInf, CmpOp.swap]
    · simp [l2, l4 _ _ a1 a2, CmpOp.ofNeg, CmpOp.swap]
    · exact o.total a b ha hb h
  · intro a b c ha hb hc hab hbc h1 h2
    rcases split a ha with rfl | rfl | ⟨ha, a1, a2⟩
    · simp [l1, CmpOp.ofInf] at h1
    · simp [l2, CmpOp.ofNeg]
    · rcases split b hb with rfl | rfl | ⟨hb, b1, b2⟩
      · simp [l1, CmpOp.ofInf] at h2
      · simp [l4 _ _ a1 a2, CmpOp.ofNeg, CmpOp.swap] at h1
      · rcases split c hc with rfl | rfl | ⟨hc, c1, c2⟩
        · simp [l3 _ _ a1 a2, CmpOp.ofInf, CmpOp.swap]
        · simp [l4 _ _ b1 b2, CmpOp.ofNeg, CmpOp.swap] at h2
        · exact o.trans a b c ha hb hc hab hbc h1 h2
  · intro a b ha hb h
    rcases split a ha with rfl | rfl | ⟨ha, a1, a2⟩ <;> rcases split b hb with rfl | rfl | ⟨hb, b1, b2⟩
    · exact absurd rfl h
    · simp [l1, l2, CmpOp.ofInf, CmpOp.ofNeg]
    · simp [l1, l3 _ _ b1 b2, CmpOp.ofInf, CmpOp.swap]
    · simp [l1, l2, CmpOp.ofInf, CmpOp.ofNeg]
    · exact absurd rfl h
    · simp [l2, l4 _ _ b1 b2, CmpOp.ofNeg, CmpOp.swap]
    · simp [l1, l3 _ _ a1 a2, CmpOp.ofInf, CmpOp.swap]
    · simp [l2, l4 _ _ a1 a2, CmpOp.ofNeg, CmpOp.swap]
    · exact o.ops a b ha hb h

theorem cmpList_total : ∀ (l m : List VKey) (S : Nat → VKey → Prop), (∀ i, OrderedKeys (S i)) →
    (∀ i (h : i < l.length), S i l[i]) → (∀ i (h : i < m.length), S i m[i]) → l ≠ m →
    (VKey.cmpList .lt l m = some true ∧ VKey.cmpList .lt m l = some false ∨
      VKey.cmpList .lt l m = some false ∧ VKey.cmpList .lt m l = some true) ∧
    VKey.cmpList .le l m = VKey.cmpList .lt l m ∧ VKey.cmpList .gt l m = VKey.cmpList .lt m l ∧
    VKey.cmpList .ge l m = VKey.cmpList .lt m l
  | [], [], _, _, _, _, h => absurd rfl h
  | [], b :: m, _, _, _, _, _ => by simp [VKey.cmpList, CmpOp.nat]
  | a :: l, [], _, _, _, _, _ => by simp [VKey.cmpList, CmpOp.nat]
  | a :: l, b :: m, S, o, hl, hm, h => by
    by_cases e : a = b
    · subst e
      simp only [cmpList_same]
      exact cmpList_total l m (fun i => S (i + 1)) (fun i => o (i + 1))
        (fun i hi => hl (i + 1) (by simpa using hi)) (fun i hi => hm (i + 1) (by simpa using hi))
        fun e => h (by rw [e])
    · simp only [cmpList_ne e, cmpList_ne (Ne.symm e)]
      have ha := hl 0 (by simp)
      have hb := hm 0 (by simp)
      exact ⟨(o 0).total a b ha hb e, (o 0).ops a b ha hb e⟩

theorem cmpList_trans : ∀ (l m k : List VKey) (S : Nat → VKey → Prop), (∀ i, OrderedKeys (S i)) →
    (∀ i (h : i < l.length), S i l[i]) → (∀ i (h : i < m.length), S i m[i]) →
    (∀ i (h : i < k.length), S i k[i]) →
    VKey.cmpList .lt l m = some true → VKey.cmpList .lt m k = some true → VKey.cmpList .lt l k = some true
  | [], [], _, _, _, _, _, _, h, _ => by simp [VKey.cmpList, CmpOp.nat] at h
  | _ :: _, [], _, _, _, _, _, _, h, _ => by simp [VKey.cmpList, CmpOp.nat] at h
  | _, _ :: _, [], _, _, _, _, _, _, h => by simp [VKey.cmpList, CmpOp.nat] at h
  | [], _ :: _, _ :: _, _, _, _, _, _, _, _ => by simp [VKey.cmpList, CmpOp.nat]
  | a :: l, b :: m, c :: k, S, o, hl, hm, hk, h1, h2 => by
    have ha := hl 0 (by simp)
    have hb := hm 0 (by simp)
    have hc := hk 0 (by simp)
    by_cases e1 : a = b
    · subst e1
      by_cases e2 : a = c
      · subst e2
        simp only [cmpList_same] at *
        exact cmpList_trans l m k (fun i => S (i + 1)) (fun i => o (i + 1))
          (fun i hi => hl (i + 1) (by simpa using hi)) (fun i hi => hm (i + 1) (by simpa using hi))
          (fun i hi => hk (i + 1) (by simpa using hi)) h1 h2
      · rw [cmpList_ne e2] at h2 ⊢
        exact h2
    · rw [cmpList_ne e1] at h1
      by_cases e2 : b = c
      · subst e2
        rw [cmpList_ne e1]
        exact h1
      · rw [cmpList_ne e2] at h2
        have e3 : a ≠ c := by
          rintro rfl
          rcases (o 0).total a b ha hb e1 with ⟨_, h⟩ | ⟨h, _⟩
          · rw [h] at h2; cases h2
          · rw [h] at h1; cases h1
        rw [cmpList_ne e3]
        exact (o 0).trans a b c ha hb hc e1 e2 h1 h2

/-- Tuples with ordered items. -/
theorem ordered_tup {S : Nat → VKey → Prop} (o : ∀ i, OrderedKeys (S i)) :
    OrderedKeys fun k => ∃ l : List VKey, k = .tup l ∧ ∀ i (h : i < l.length), S i l[i] := by
  have e : ∀ op l m, VKey.cmp op (.tup l) (.tup m) = VKey.cmpList op l m := fun op l m => by simp [VKey.cmp]
  refine ⟨?_, ?_, ?_⟩
  · rintro _ _ ⟨l, rfl, hl⟩ ⟨m, rfl, hm⟩ h
    simp only [e]
    exact (cmpList_total l m S o hl hm fun e => h (by rw [e])).1
  · rintro _ _ _ ⟨l, rfl, hl⟩ ⟨m, rfl, hm⟩ ⟨k, rfl, hk⟩ _ _ h1 h2
    simp only [e] at *
    exact cmpList_trans l m k S o hl hm hk h1 h2
  · rintro _ _ ⟨l, rfl, hl⟩ ⟨m, rfl, hm⟩ h
    simp only [e]
    exact (cmpList_total l m S o hl hm fun e => h (by rw [e])).2

/-- The set a pair of a word and a number, or an infinity, belongs to. -/
def PairOrInf (k : VKey) : Prop :=
  k = .inf ∨ k = .neg ∨ ∃ l : List VKey, k = .tup l ∧ ∀ i (h : i < l.length),
    (if i = 0 then ∃ s, l[i] = VKey.str s else ∃ n, l[i] = VKey.int n)

theorem ordered_if {p : Prop} [Decidable p] {S T : VKey → Prop} (hS : OrderedKeys S) (hT : OrderedKeys T) :
    OrderedKeys fun k => if p then S k else T k := by
  by_cases h : p
  · simpa [h] using hS
  · simpa [h] using hT

theorem ordered_pair : OrderedKeys PairOrInf :=
  (ordered_tup (S := fun i k => if i = 0 then ∃ s, k = VKey.str s else ∃ n, k = VKey.int n)
    fun _ => ordered_if ordered_str ordered_int).withInf

/-- Keys of parts of a local version. -/
def PartKey (k : VKey) : Prop :=
  ∃ l : List VKey, k = .tup l ∧ ∀ i (h : i < l.length),
    (if i = 0 then l[i] = .inf ∨ l[i] = .neg ∨ ∃ n, l[i] = VKey.int n else ∃ s, l[i] = VKey.str s)

theorem ordered_part : OrderedKeys PartKey :=
  ordered_tup (S := fun i k => if i = 0 then k = .inf ∨ k = .neg ∨ ∃ n, k = VKey.int n
    else ∃ s, k = VKey.str s) fun _ => ordered_if ordered_int.withInf ordered_str

/-- What can be at a place of a version key. -/
def placeKey (i : Nat) (k : VKey) : Prop :=
  if i = 0 then ∃ n, k = VKey.int n
  else if i = 1 then ∃ l : List VKey, k = .tup l ∧ ∀ i (h : i < l.length), ∃ n, l[i] = VKey.int n
  else if i = 5 then k = .inf ∨ k = .neg ∨ ∃ l : List VKey, k = .tup l ∧ ∀ i (h : i < l.length), PartKey l[i]
  else PairOrInf k

theorem ordered_place (i : Nat) : OrderedKeys (placeKey i) :=
  ordered_if ordered_int (ordered_if (ordered_tup (S := fun _ k => ∃ n, k = VKey.int n) fun _ => ordered_int)
    (ordered_if (ordered_tup (S := fun _ => PartKey) fun _ => ordered_part).withInf ordered_pair))

theorem pairKey_ok (p : Str × Nat) : PairOrInf (pairKey p) := by
  refine .inr (.inr ⟨_, rfl, ?_⟩)
  intro i h
  match i, h with
  | 0, _ => exact ⟨_, rfl⟩
  | 1, _ => exact ⟨_, rfl⟩

theorem preKey_ok (v : Ver) : PairOrInf (preKey v) := by
  unfold preKey
  cases v.pre with
  | none =>
    simp only
    by_cases h : v.post = none ∧ v.dev ≠ none
    · rw [if_pos h]; exact .inr (.inl rfl)
    · rw [if_neg h]; exact .inl rfl
  | some p => exact pairKey_ok p

theorem postKey_ok (v : Ver) : PairOrInf (postKey v) := by
  unfold postKey
  cases v.post with
  | none => exact .inr (.inl rfl)
  | some p => exact pairKey_ok p

theorem devKey_ok (v : Ver) : PairOrInf (devKey v) := by
  unfold devKey
  cases v.dev with
  | none => exact .inl rfl
  | some p => exact pairKey_ok p

theorem partKey_ok (p : LocalPart) : PartKey (localPartKey p) := by
  cases p with
  | num n =>
    refine ⟨_, rfl, ?_⟩
    intro i h
    match i, h with
    | 0, _ => exact .inr (.inr ⟨_, rfl⟩)
    | 1, _ => exact ⟨_, rfl⟩
  | text s =>
    refine ⟨_, rfl, ?_⟩
    intro i h
    match i, h with
    | 0, _ => exact .inr (.inl rfl)
    | 1, _ => exact ⟨_, rfl⟩

theorem key_ok (v : Ver) : ∃ l : List VKey, v.key = .tup l ∧ ∀ i (h : i < l.length), placeKey i l[i] := by
  refine ⟨_, rfl, ?_⟩
  intro i h
  match i, h with
  | 0, _ => exact ⟨_, rfl⟩
  | 1, _ =>
    refine ⟨_, rfl, fun i h => ?_⟩
    rw [List.getElem_map]
    exact ⟨_, rfl⟩
  | 2, _ => exact preKey_ok v
  | 3, _ => exact postKey_ok v
  | 4, _ => exact devKey_ok v
  | 5, _ =>
    show placeKey 5 (localKey v)
    unfold localKey placeKey
    simp only [Nat.reduceEqDiff, if_false, if_true]
    cases v.loc with
    | none => exact .inr (.inl rfl)
    | some l =>
      refine .inr (.inr ⟨_, rfl, fun i h => ?_⟩)
      rw [List.getElem_map]
      exact partKey_ok _

theorem ordered_key : OrderedKeys fun k => ∃ l : List VKey, k = .tup l ∧
    ∀ i (h : i < l.length), placeKey i l[i] := ordered_tup ordered_place

theorem ver_eq_iff (v w : Ver) : v.eq w = true ↔ v.key = w.key := VKey.eq_iff _ _

theorem lt_self (v : Ver) : VKey.cmp .lt v.key v.key = some false ∧ VKey.cmp .le v.key v.key = some true ∧
    VKey.cmp .gt v.key v.key = some false ∧ VKey.cmp .ge v.key v.key = some true := by
  have : ∀ op (l : List VKey), VKey.cmpList op l l = some (op.nat 0 0) := by
    intro op l
    induction l with
    | nil => simp [VKey.cmpList]
    | cons a l ih => rw [cmpList_same, ih]
  unfold Ver.key
  simp [VKey.cmp, this, CmpOp.nat]

/-- C44: no comparison of two versions fails, and exactly one of `v < w`, `v == w` and
`w < v` holds. -/
theorem C44_total (v w : Ver) :
    (v.lt w = some true ∧ v.eq w = false ∧ w.lt v = some false) ∨
    (v.lt w = some false ∧ v.eq w = true ∧ w.lt v = some false) ∨
    (v.lt w = some false ∧ v.eq w = false ∧ w.lt v = some true) := by
  by_cases e : v.key = w.key
  · right; left
    refine ⟨?_, (ver_eq_iff v w).mpr e, ?_⟩
    · unfold Ver.lt; rw [← e]; exact (lt_self v).1
    · unfold Ver.lt; rw [← e]; exact (lt_self v).1
  · have ne : v.eq w = false := VKey.eq_false e
    rcases ordered_key.total v.key w.key (key_ok v) (key_ok w) e with ⟨h1, h2⟩ | ⟨h1, h2⟩
    · exact .inl ⟨h1, ne, h2⟩
    · exact .inr (.inr ⟨h1, ne, h2⟩)

/-- C44: the order is transitive. -/
theorem C44_trans (v w x : Ver) (h1 : v.lt w = some true) (h2 : w.lt x = some true) :
    v.lt x = some true := by
  have e1 : v.key ≠ w.key := by
    intro e
    unfold Ver.lt at h1
    rw [← e, (lt_self v).1] at h1
    cases h1
  have e2 : w.key ≠ x.key := by
    intro e
    unfold Ver.lt at h2
    rw [← e, (lt_self w).1] at h2
    cases h2
  exact ordered_key.trans _ _ _ (key_ok v) (key_ok w) (key_ok x) e1 e2 h1 h2

/-- C44: the other operators agree with `<` and `==`. -/
theorem C44_operators (v w : Ver) :
    (v.le w = some true ↔ v.lt w = some true ∨ v.eq w = true) ∧ v.gt w = w.lt v ∧
    v.ge w = w.le v ∧ v.ne w = !v.eq w := by
  by_cases e : v.key = w.key
  · have h := lt_self v
    unfold Ver.le Ver.lt Ver.gt Ver.ge Ver.ne Ver.eq
    rw [← e, (VKey.eq_iff _ _).mpr rfl, h.1, h.2.1, h.2.2.1, h.2.2.2]
    simp
  · have h := ordered_key.ops v.key w.key (key_ok v) (key_ok w) e
    have h' := ordered_key.ops w.key v.key (key_ok w) (key_ok v) (Ne.symm e)
    unfold Ver.le Ver.lt Ver.gt Ver.ge Ver.ne Ver.eq
    rw [h.1, h.2.1, h.2.2, h'.1, VKey.eq_false e]
    simp

/-- C44: equality is an equivalence that respects the order. -/
theorem C44_congruence (v w x : Ver) (h : v.eq w = true) :
    w.eq v = true ∧ v.lt x = w.lt x ∧ x.lt v = x.lt w ∧ v.eq x = w.eq x := by
  have e := (ver_eq_iff v w).mp h
  unfold Ver.lt Ver.eq
  rw [e]
  exact ⟨(VKey.eq_iff _ _).mpr rfl, rfl, rfl, rfl⟩

/-! ### The order is the one of PEP 440 -/

theorem strip_component (r : List Nat) (i : Nat) :
    component ((r.reverse.dropWhile (· = 0)).reverse) i = component r i := by
  induction r using List.reverseRecOn with
  | nil => rfl
  | append_singleton r n ih =>
    rw [List.reverse_append]
    simp only [List.reverse_cons, List.reverse_nil, List.nil_append, List.singleton_append, List.dropWhile_cons]
    by_cases hn : n = 0
    · subst hn
      simp only [decide_true, if_true, ih]
      unfold component
      simp only [List.getD_eq_getElem?_getD]
      by_cases h : i < r.length
      · rw [List.getElem?_append_left h]
      · rw [List.getElem?_append_right (by omega), List.getElem?_eq_none (by omega)]
        cases i - r.length <;> simp
    · simp [hn, component]

/-- Releases without zeros at the end. -/
def Stripped (r : List Nat) : Prop := r.getLast? ≠ some 0

theorem strip_stripped (r : List Nat) : Stripped ((r.reverse.dropWhile (· = 0)).reverse) := by
  unfold Stripped
  rw [List.getLast?_reverse]
  intro h
  cases hd : r.reverse.dropWhile (· = 0) with
  | nil => rw [hd] at h; cases h
  | cons a l =>
    rw [hd] at h
    have := List.head_dropWhile_not (fun x : Nat => decide (x = 0)) (l := r.reverse) (by rw [hd]; simp)
    simp only [hd, List.head_cons] at this
    simp at h
    simp [h] at this

theorem Stripped.tail {a : Nat} {l : List Nat} (h : Stripped (a :: l)) : Stripped l := by
  unfold Stripped at *
  cases l with
  | nil => simp
  | cons b l => simpa using h

theorem stripped_nonzero {l : List Nat} (h : Stripped l) (hn : l ≠ []) : ∃ i, component l i ≠ 0 := by
  refine ⟨l.length - 1, ?_⟩
  unfold Stripped at h
  unfold component
  rw [List.getD_eq_getElem?_getD, ← List.getLast?_eq_getElem?]
  cases e : l.getLast? with
  | none => exact absurd (List.getLast?_eq_none_iff.mp e) hn
  | some x =>
    intro hx
    simp only [Option.getD_some] at hx
    exact h (by rw [e, hx])

theorem stripped_ext : ∀ {l m : List Nat}, Stripped l → Stripped m → SameRelease l m → l = m
  | [], [], _, _, _ => rfl
  | [], b :: m, _, hm, h => by
    obtain ⟨i, hi⟩ := stripped_nonzero hm (by simp)
    exact absurd (h i).symm hi
  | a :: l, [], hl, _, h => by
    obtain ⟨i, hi⟩ := stripped_nonzero hl (by simp)
    exact absurd (h i) hi
  | a :: l, b :: m, hl, hm, h => by
    have h0 : a = b := h 0
    rw [h0, stripped_ext hl.tail hm.tail fun i => h (i + 1)]

theorem stripped_lt : ∀ {l m : List Nat}, Stripped l → Stripped m →
    (VKey.cmpList .lt (l.map VKey.int) (m.map VKey.int) = some true ↔ ReleaseBefore l m)
  | [], [], _, _ => by
    simp [VKey.cmpList, CmpOp.nat, ReleaseBefore, component]
  | [], b :: m, _, hm => by
    simp only [List.map_nil, List.map_cons, VKey.cmpList, CmpOp.nat, List.length_cons, Nat.zero_lt_succ,
      decide_true, true_iff]
    obtain ⟨i, hi⟩ := stripped_nonzero hm (by simp)
    classical
    have hex : ∃ i, component (b :: m) i ≠ 0 := ⟨i, hi⟩
    refine ⟨Nat.find hex, fun j hj => ?_, ?_⟩
    · have := Nat.find_min hex hj
      simp only [ne_eq, not_not] at this
      rw [this]; rfl
    · have := Nat.find_spec hex
      have e : component [] (Nat.find hex) = 0 := rfl
      omega
  | a :: l, [], hl, _ => by
    simp only [List.map_nil, List.map_cons, VKey.cmpList, CmpOp.nat, List.length_cons, Nat.not_lt_zero,
      decide_false, Option.some.injEq, Bool.false_eq_true, false_iff]
    rintro ⟨i, _, h⟩
    exact absurd h (Nat.not_lt_zero _)
  | a :: l, b :: m, hl, hm => by
    simp only [List.map_cons]
    by_cases e : a = b
    · subst e
      rw [cmpList_same, stripped_lt hl.tail hm.tail]
      constructor
      · rintro ⟨i, h1, h2⟩
        refine ⟨i + 1, fun j hj => ?_, h2⟩
        cases j with
        | zero => rfl
        | succ j => exact h1 j (by omega)
      · rintro ⟨i, h1, h2⟩
        cases i with
        | zero => exact absurd h2 (Nat.lt_irrefl _)
        | succ i => exact ⟨i, fun j hj => h1 (j + 1) (by omega), h2⟩
    · rw [cmpList_ne (by simpa using e)]
      simp only [VKey.cmp, CmpOp.nat, Option.some.injEq, decide_eq_true_eq]
      constructor
      · intro h
        exact ⟨0, by simp, h⟩
      · rintro ⟨i, h1, h2⟩
        cases i with
        | zero => exact h2
        | succ i => exact absurd (h1 0 (by omega)) e

theorem releaseKey_eq (a b : List Nat) : releaseKey a = releaseKey b ↔ SameRelease a b := by
  unfold releaseKey
  constructor
  · intro h i
    injection h with h
    have h := (List.map_injective_iff.mpr fun a b e => by injection e) h
    rw [← strip_component a, ← strip_component b, h]
  · intro h
    rw [stripped_ext (strip_stripped a) (strip_stripped b)]
    intro i
    rw [strip_component, strip_component]
    exact h i

theorem releaseKey_lt (a b : List Nat) :
    VKey.cmp .lt (releaseKey a) (releaseKey b) = some true ↔ ReleaseBefore a b := by
  unfold releaseKey
  simp only [VKey.cmp]
  rw [stripped_lt (strip_stripped a) (strip_stripped b)]
  unfold ReleaseBefore
  simp only [strip_component]

theorem pairKey_inj {p q : Str × Nat} : pairKey p = pairKey q ↔ p = q := by
  obtain ⟨a, b⟩ := p
  obtain ⟨c, d⟩ := q
  simp [pairKey]

theorem pairKey_lt {p q : Str × Nat} (h : p ≠ q) :
    VKey.cmp .lt (pairKey p) (pairKey q) = some true ↔ strLt p.1 q.1 = true ∨ p.1 = q.1 ∧ p.2 < q.2 := by
  obtain ⟨a, b⟩ := p
  obtain ⟨c, d⟩ := q
  unfold pairKey
  simp only [VKey.cmp]
  by_cases e : a = c
  · subst e
    rw [cmpList_same]
    have hbd : b ≠ d := fun e => h (by rw [e])
    rw [cmpList_ne (by simpa using hbd)]
    have : strLt a a = false := by
      induction a with
      | nil => rfl
      | cons c a ih => simpa [strLt] using ih (by simpa using h)
    simp [VKey.cmp, CmpOp.nat, this]
  · rw [cmpList_ne (by simpa using e)]
    simp [VKey.cmp, CmpOp.str, e]

theorem lex_strLt : ∀ {s t : Str}, strLt s t = true ↔ LexBefore (fun a b : Char => a.toNat < b.toNat) s t
  | [], [] => by simp [strLt, LexBefore]
  | [], b :: t => by
    simp only [strLt, true_iff]
    exact .inl ⟨b, t, rfl⟩
  | a :: s, [] => by simp [strLt, LexBefore]
  | a :: s, b :: t => by
    simp only [strLt]
    by_cases e : a = b
    · subst e
      rw [if_pos rfl, lex_strLt]
      constructor
      · rintro (⟨y, u, h⟩ | ⟨c, x, y, u, u', h1, h2, h⟩)
        · exact .inl ⟨y, u, by rw [h]; rfl⟩
        · exact .inr ⟨a :: c, x, y, u, u', by rw [h1]; rfl, by rw [h2]; rfl, h⟩
      · rintro (⟨y, u, h⟩ | ⟨c, x, y, u, u', h1, h2, h⟩)
        · exact .inl ⟨y, u, by simpa using h⟩
        · cases c with
          | nil =>
            simp only [List.nil_append, List.cons.injEq] at h1 h2
            rw [← h1.1, ← h2.1] at h
            omega
          | cons z c =>
            simp only [List.cons_append, List.cons.injEq] at h1 h2
            exact .inr ⟨c, x, y, u, u', h1.2, h2.2, h⟩
    · rw [if_neg e]
      simp only [decide_eq_true_eq]
      constructor
      · intro h
        exact .inr ⟨[], a, b, s, t, rfl, rfl, h⟩
      · rintro (⟨y, u, h⟩ | ⟨c, x, y, u, u', h1, h2, h⟩)
        · simp only [List.cons_append, List.cons.injEq] at h
          exact absurd h.1.symm e
        · cases c with
          | nil =>
            simp only [List.nil_append, List.cons.injEq] at h1 h2
            rw [h1.1, h2.1]
            exact h
          | cons z c =>
            simp only [List.cons_append, List.cons.injEq] at h1 h2
            exact absurd (h1.1.trans h2.1.symm) e

theorem partKey_inj {p q : LocalPart} : localPartKey p = localPartKey q ↔ p = q := by
  cases p <;> cases q <;> simp [localPartKey]

theorem partKey_lt {p q : LocalPart} (h : p ≠ q) :
    VKey.cmp .lt (localPartKey p) (localPartKey q) = some true ↔ PartBefore p q := by
  cases p with
  | num n =>
    cases q with
    | num m =>
      have : n ≠ m := fun e => h (by rw [e])
      simp only [localPartKey, VKey.cmp]
      rw [cmpList_ne (by simpa using this)]
      simp only [VKey.cmp, CmpOp.nat, Option.some.injEq, decide_eq_true_eq]
      exact ⟨.numbers, fun h => by cases h; assumption⟩
    | text t =>
      simp only [localPartKey, VKey.cmp]
      rw [cmpList_ne (by simp)]
      simp only [VKey.cmp, CmpOp.swap, CmpOp.ofNeg, Option.some.injEq, Bool.false_eq_true, false_iff]
      rintro ⟨⟩
  | text s =>
    cases q with
    | num m =>
      simp only [localPartKey, VKey.cmp]
      rw [cmpList_ne (by simp)]
      simp only [VKey.cmp, CmpOp.ofNeg, true_iff]
      exact .mixed
    | text t =>
      have : s ≠ t := fun e => h (by rw [e])
      simp only [localPartKey, VKey.cmp]
      rw [cmpList_same, cmpList_ne (by simpa using this)]
      simp only [VKey.cmp, CmpOp.str, Option.some.injEq]
      rw [lex_strLt]
      exact ⟨.words, fun h => by cases h; assumption⟩

theorem not_partBefore_self (p : LocalPart) : ¬ PartBefore p p := by
  intro h
  cases h with
  | @words s _ h =>
    have h' := lex_strLt.mpr h
    have : strLt s s = false := by
      clear h h'
      induction s with
      | nil => rfl
      | cons c s ih => simpa [strLt] using ih
    rw [this] at h'
    cases h'
  | numbers h => exact absurd h (Nat.lt_irrefl _)

theorem locals_lt : ∀ {l m : List LocalPart},
    VKey.cmpList .lt (l.map localPartKey) (m.map localPartKey) = some true ↔ LexBefore PartBefore l m
  | [], [] => by simp [VKey.cmpList, CmpOp.nat, LexBefore]
  | [], b :: t => by
    simp only [List.map_nil, List.map_cons, VKey.cmpList, CmpOp.nat, List.length_cons, Nat.zero_lt_succ,
      decide_true, true_iff]
    exact .inl ⟨b, t, rfl⟩
  | a :: s, [] => by simp [VKey.cmpList, CmpOp.nat, LexBefore]
  | a :: s, b :: t => by
    simp only [List.map_cons]
    by_cases e : a = b
    · subst e
      rw [cmpList_same, locals_lt]
      constructor
      · rintro (⟨y, u, h⟩ | ⟨c, x, y, u, u', h1, h2, h⟩)
        · exact .inl ⟨y, u, by rw [h]; rfl⟩
        · exact .inr ⟨a :: c, x, y, u, u', by rw [h1]; rfl, by rw [h2]; rfl, h⟩
      · rintro (⟨y, u, h⟩ | ⟨c, x, y, u, u', h1, h2, h⟩)
        · exact .inl ⟨y, u, by simpa using h⟩
        · cases c with
          | nil =>
            simp only [List.nil_append, List.cons.injEq] at h1 h2
            rw [← h1.1, ← h2.1] at h
            exact absurd h (not_partBefore_self a)
          | cons z c =>
            simp only [List.cons_append, List.cons.injEq] at h1 h2
            exact .inr ⟨c, x, y, u, u', h1.2, h2.2, h⟩
    · rw [cmpList_ne (fun h => e (partKey_inj.mp h)), partKey_lt e]
      constructor
      · intro h
        exact .inr ⟨[], a, b, s, t, rfl, rfl, h⟩
      · rintro (⟨y, u, h⟩ | ⟨c, x, y, u, u', h1, h2, h⟩)
        · simp only [List.cons_append, List.cons.injEq] at h
          exact absurd h.1.symm e
        · cases c with
          | nil =>
            simp only [List.nil_append, List.cons.injEq] at h1 h2
            rw [h1.1, h2.1]
            exact h
          | cons z c =>
            simp only [List.cons_append, List.cons.injEq] at h1 h2
            exact absurd (h1.1.trans h2.1.symm) e

theorem localKey_eq (v w : Ver) : localKey v = localKey w ↔ v.loc = w.loc := by
  unfold localKey
  cases hv : v.loc <;> cases hw : w.loc <;> simp
  exact ⟨fun h => (List.map_injective_iff.mpr fun a b e => partKey_inj.mp e) h, fun h => by rw [h]⟩

theorem localKey_lt (v w : Ver) (h : v.loc ≠ w.loc) :
    VKey.cmp .lt (localKey v) (localKey w) = some true ↔ LocalBefore v w := by
  unfold localKey
  cases hv : v.loc with
  | none =>
    cases hw : w.loc with
    | none => exact absurd (hv.trans hw.symm) h
    | some m =>
      simp only [VKey.cmp, CmpOp.ofNeg, true_iff]
      exact .loc hv hw
  | some l =>
    cases hw : w.loc with
    | none =>
      simp only [VKey.cmp, CmpOp.swap, CmpOp.ofNeg, Option.some.injEq, Bool.false_eq_true, false_iff]
      intro h
      cases h with
      | loc h => rw [hv] at h; cases h
      | parts _ h => rw [hw] at h; cases h
    | some m =>
      simp only [VKey.cmp]
      rw [locals_lt]
      constructor
      · intro h
        exact .parts hv hw h
      · intro h
        cases h with
        | loc h => rw [hv] at h; cases h
        | parts h1 h2 h =>
          rw [hv] at h1; rw [hw] at h2
          cases h1; cases h2
          exact h

theorem devKey_eq (v w : Ver) : devKey v = devKey w ↔ v.dev = w.dev := by
  unfold devKey
  cases hv : v.dev <;> cases hw : w.dev <;> simp [pairKey_inj]
  · simp [pairKey]
  · simp [pairKey]

theorem postKey_eq (v w : Ver) : postKey v = postKey w ↔ v.post = w.post := by
  unfold postKey
  cases hv : v.post <;> cases hw : w.post <;> simp [pairKey_inj]
  · simp [pairKey]
  · simp [pairKey]

theorem preKey_eq (v w : Ver) : preKey v = preKey w ↔ SamePre v w := by
  unfold preKey SamePre OnlyDev
  cases hv : v.pre with
  | none =>
    cases hw : w.pre with
    | none =>
      simp only [true_and]
      by_cases h1 : v.post = none ∧ v.dev ≠ none <;> by_cases h2 : w.post = none ∧ w.dev ≠ none
      · simp [h1, h2]
      · simp [if_pos h1, if_neg h2]; simp [h1] ; tauto
      · simp [if_neg h1, if_pos h2]; simp [h2]; tauto
      · simp only [if_neg h1, if_neg h2]; tauto
    | some q =>
      by_cases h1 : v.post = none ∧ v.dev ≠ none
      · simp [if_pos h1, pairKey]
      · simp [if_neg h1, pairKey]
  | some p =>
    cases hw : w.pre with
    | none =>
      by_cases h1 : w.post = none ∧ w.dev ≠ none
      · simp [if_pos h1, pairKey]
      · simp [if_neg h1, pairKey]
    | some q => simp [pairKey_inj]

theorem devKey_lt {v w : Ver} (hv : ValidVersion v) (hw : ValidVersion w) (h : v.dev ≠ w.dev) :
    VKey.cmp .lt (devKey v) (devKey w) = some true ↔ DevBefore v w := by
  unfold devKey
  cases ev : v.dev with
  | none =>
    simp only [VKey.cmp, CmpOp.ofInf, Option.some.injEq, Bool.false_eq_true, false_iff]
    intro h
    cases h with
    | dev h => rw [ev] at h; cases h
    | number h => rw [ev] at h; cases h
  | some p =>
    cases ew : w.dev with
    | none =>
      simp only [pairKey, VKey.cmp, CmpOp.swap, CmpOp.ofInf, true_iff]
      exact .dev ev ew
    | some q =>
      obtain ⟨l, i⟩ := p
      obtain ⟨m, j⟩ := q
      have e1 := hv.dev _ _ ev
      have e2 := hw.dev _ _ ew
      simp only
      rw [pairKey_lt (by rintro e; exact h (by rw [ev, ew, e]))]
      subst e1; subst e2
      constructor
      · rintro (h | ⟨_, h⟩)
        · simp [strLt] at h
        · exact .number ev ew h
      · intro h
        right
        refine ⟨rfl, ?_⟩
        cases h with
        | dev _ h => rw [ew] at h; cases h
        | number h1 h2 h =>
          rw [ev] at h1; rw [ew] at h2
          cases h1; cases h2
          exact h

theorem postKey_lt {v w : Ver} (hv : ValidVersion v) (hw : ValidVersion w) (h : v.post ≠ w.post) :
    VKey.cmp .lt (postKey v) (postKey w) = some true ↔ PostBefore v w := by
  unfold postKey
  cases ev : v.post with
  | none =>
    cases ew : w.post with
    | none => exact absurd (ev.trans ew.symm) h
    | some q =>
      simp only [VKey.cmp, CmpOp.ofNeg, true_iff]
      exact .post ev ew
  | some p =>
    cases ew : w.post with
    | none =>
      simp only [pairKey, VKey.cmp, CmpOp.swap, CmpOp.ofNeg, Option.some.injEq, Bool.false_eq_true, false_iff]
      intro h
      cases h with
      | post h => rw [ev] at h; cases h
      | number _ h => rw [ew] at h; cases h
    | some q =>
      obtain ⟨l, i⟩ := p
      obtain ⟨m, j⟩ := q
      have e1 := hv.post _ _ ev
      have e2 := hw.post _ _ ew
      simp only
      rw [pairKey_lt (by rintro e; exact h (by rw [ev, ew, e]))]
      subst e1; subst e2
      constructor
      · rintro (h | ⟨_, h⟩)
        · simp [strLt] at h
        · exact .number ev ew h
      · intro h
        right
        refine ⟨rfl, ?_⟩
        cases h with
        | post h => rw [ev] at h; cases h
        | number h1 h2 h =>
          rw [ev] at h1; rw [ew] at h2
          cases h1; cases h2
          exact h

theorem letter_lt {l m : Str} (hl : l = c!"a" ∨ l = c!"b" ∨ l = c!"rc") (hm : m = c!"a" ∨ m = c!"b" ∨ m = c!"rc") :
    strLt l m = true ↔ LetterBefore l m := by
  rcases hl with rfl | rfl | rfl <;> rcases hm with rfl | rfl | rfl <;> simp [strLt, LetterBefore]

theorem preKey_lt {v w : Ver} (hv : ValidVersion v) (hw : ValidVersion w) (h : ¬ SamePre v w) :
    VKey.cmp .lt (preKey v) (preKey w) = some true ↔ PreBefore v w := by
  have od : ∀ v : Ver, v.pre = none → ((v.post = none ∧ v.dev ≠ none) ↔ OnlyDev v) := by
    intro v hp
    unfold OnlyDev
    simp [hp]
  have k : ∀ v : Ver, v.pre = none → OnlyDev v → preKey v = .neg := by
    intro v hp h
    unfold preKey
    rw [hp]
    simp only
    rw [if_pos ((od v hp).mpr h)]
  have k' : ∀ v : Ver, v.pre = none → ¬ OnlyDev v → preKey v = .inf := by
    intro v hp h
    unfold preKey
    rw [hp]
    simp only
    rw [if_neg (fun h' => h ((od v hp).mp h'))]
  have k2 : ∀ (v : Ver) p, v.pre = some p → preKey v = pairKey p ∧ ¬ OnlyDev v := by
    intro v p hp
    unfold preKey
    rw [hp]
    exact ⟨rfl, fun h => by have := h.1; rw [hp] at this; cases this⟩
  cases ev : v.pre with
  | none =>
    by_cases dv : OnlyDev v
    · rw [k v ev dv]
      simp only [VKey.cmp, CmpOp.ofNeg, true_iff]
      refine .dev dv fun dw => h ⟨?_, iff_of_true dv dw⟩
      rw [ev, dw.1]
    · rw [k' v ev dv]
      simp only [VKey.cmp, CmpOp.ofInf, Option.some.injEq, Bool.false_eq_true, false_iff]
      intro h
      cases h with
      | dev h => exact dv h
      | pre h => rw [ev] at h; cases h
      | letter h => rw [ev] at h; cases h
      | number h => rw [ev] at h; cases h
  | some p =>
    obtain ⟨e1, dv⟩ := k2 v p ev
    rw [e1]
    cases ew : w.pre with
    | none =>
      by_cases dw : OnlyDev w
      · rw [k w ew dw]
        simp only [pairKey, VKey.cmp, CmpOp.swap, CmpOp.ofNeg, Option.some.injEq, Bool.false_eq_true, false_iff]
        intro h
        cases h with
        | dev h => exact dv h
        | pre _ _ h => exact h dw
        | letter _ h => rw [ew] at h; cases h
        | number _ h => rw [ew] at h; cases h
      · rw [k' w ew dw]
        simp only [pairKey, VKey.cmp, CmpOp.swap, CmpOp.ofInf, true_iff]
        exact .pre ev ew dw
    | some q =>
      obtain ⟨e2, dw⟩ := k2 w q ew
      rw [e2]
      have hpq : p ≠ q := fun e => h ⟨by rw [ev, ew, e], iff_of_false dv dw⟩
      rw [pairKey_lt hpq]
      obtain ⟨l, i⟩ := p
      obtain ⟨m, j⟩ := q
      simp only
      rw [letter_lt (hv.pre _ _ ev) (hw.pre _ _ ew)]
      constructor
      · rintro (h | ⟨rfl, h⟩)
        · exact .letter ev ew h
        · exact .number ev ew h
      · intro h
        cases h with
        | dev h => exact absurd h dv
        | pre _ h => rw [ew] at h; cases h
        | letter h1 h2 h =>
          rw [ev] at h1; rw [ew] at h2
          cases h1; cases h2
          exact .inl h
        | number h1 h2 h =>
          rw [ev] at h1; rw [ew] at h2
          cases h1; cases h2
          exact .inr ⟨rfl, h⟩

theorem not_releaseBefore {a b : List Nat} (h : SameRelease a b) : ¬ ReleaseBefore a b := by
  rintro ⟨i, _, hi⟩
  rw [h i] at hi
  exact absurd hi (Nat.lt_irrefl _)

theorem not_preBefore {v w : Ver} (h : SamePre v w) : ¬ PreBefore v w := by
  intro hb
  have hl : ∀ l, ¬ LetterBefore l l := by
    rintro l (⟨h, h'⟩ | ⟨h, h'⟩ | ⟨h, h'⟩) <;> rw [h] at h' <;> cases h'
  cases hb with
  | dev h1 h2 => exact h2 (h.2.mp h1)
  | pre h1 h2 => rw [h.1, h2] at h1; cases h1
  | letter h1 h2 h3 => rw [h.1, h2] at h1; cases h1; exact hl _ h3
  | number h1 h2 h3 => rw [h.1, h2] at h1; cases h1; exact absurd h3 (Nat.lt_irrefl _)

theorem not_postBefore {v w : Ver} (h : v.post = w.post) : ¬ PostBefore v w := by
  intro hb
  cases hb with
  | post h1 h2 => rw [h, h2] at h1; cases h1
  | number h1 h2 h3 => rw [h, h2] at h1; cases h1; exact absurd h3 (Nat.lt_irrefl _)

theorem not_devBefore {v w : Ver} (h : v.dev = w.dev) : ¬ DevBefore v w := by
  intro hb
  cases hb with
  | dev h1 h2 => rw [h, h2] at h1; cases h1
  | number h1 h2 h3 => rw [h, h2] at h1; cases h1; exact absurd h3 (Nat.lt_irrefl _)

theorem not_localBefore {v w : Ver} (h : v.loc = w.loc) : ¬ LocalBefore v w := by
  intro hb
  cases hb with
  | loc h1 h2 => rw [h, h2] at h1; cases h1
  | parts h1 h2 h3 =>
    rw [h, h2] at h1
    cases h1
    have : ∀ l : List LocalPart, ¬ LexBefore PartBefore l l := by
      intro l h
      have h' := locals_lt.mpr h
      have : VKey.cmpList .lt (l.map localPartKey) (l.map localPartKey) = some false := by
        clear h h'
        induction l with
        | nil => rfl
        | cons a l ih => rw [List.map_cons, cmpList_same, ih]
      rw [this] at h'
      cases h'
    exact this _ h3

/-- C44: one version comes before another exactly if PEP 440 says so: by epoch, then by
release with missing components zero, then development releases, alphas, betas, candidates
and the rest, each by number, then post-releases, development releases of those, and local
versions. -/
theorem C44_order (v w : Ver) (hv : ValidVersion v) (hw : ValidVersion w) :
    v.lt w = some true ↔ EarlierThan v w := by
  unfold Ver.lt Ver.key
  simp only [VKey.cmp]
  unfold EarlierThan
  by_cases e1 : v.epoch = w.epoch
  · rw [e1, cmpList_same]
    simp only [Nat.lt_irrefl, false_or, true_and]
    by_cases e2 : SameRelease v.release w.release
    · rw [(releaseKey_eq _ _).mpr e2, cmpList_same]
      simp only [not_releaseBefore e2, false_or, e2, true_and]
      by_cases e3 : SamePre v w
      · rw [(preKey_eq _ _).mpr e3, cmpList_same]
        simp only [not_preBefore e3, false_or, e3, true_and]
        by_cases e4 : v.post = w.post
        · rw [(postKey_eq _ _).mpr e4, cmpList_same]
          simp only [not_postBefore e4, false_or, e4, true_and]
          by_cases e5 : v.dev = w.dev
          · rw [(devKey_eq _ _).mpr e5, cmpList_same]
            simp only [not_devBefore e5, false_or, e5, true_and]
            by_cases e6 : v.loc = w.loc
            · rw [(localKey_eq _ _).mpr e6, cmpList_same]
              simp [VKey.cmpList, CmpOp.nat, not_localBefore e6]
            · rw [cmpList_ne (fun h => e6 ((localKey_eq _ _).mp h)), localKey_lt v w e6]
          · rw [cmpList_ne (fun h => e5 ((devKey_eq _ _).mp h)), devKey_lt hv hw e5]
            simp [e5]
        · rw [cmpList_ne (fun h => e4 ((postKey_eq _ _).mp h)), postKey_lt hv hw e4]
          simp [e4]
      · rw [cmpList_ne (fun h => e3 ((preKey_eq _ _).mp h)), preKey_lt hv hw e3]
        simp [e3]
    · rw [cmpList_ne (fun h => e2 ((releaseKey_eq _ _).mp h)), releaseKey_lt]
      simp [e2]
  · rw [cmpList_ne (by simpa using e1)]
    simp [VKey.cmp, CmpOp.nat, e1]

/-- C44: two versions are equal exactly if they differ at most in zeros at the end of the
release. -/
theorem C44_equal (v w : Ver) : v.eq w = true ↔ SameVersion v w := by
  rw [ver_eq_iff]
  unfold Ver.key SameVersion
  simp only [VKey.tup.injEq, List.cons.injEq, VKey.int.injEq, and_true]
  rw [releaseKey_eq, preKey_eq, postKey_eq, devKey_eq, localKey_eq]
  unfold SamePre OnlyDev
  constructor
  · rintro ⟨h1, h2, ⟨h3, _⟩, h4, h5, h6⟩
    exact ⟨h1, h2, h3, h4, h5, h6⟩
  · rintro ⟨h1, h2, h3, h4, h5, h6⟩
    exact ⟨h1, h2, ⟨h3, by rw [h3, h4, h5]⟩, h4, h5, h6⟩

/-- Within one release: dev, dev of an alpha, alpha, its post-release, beta, candidate, final,
local, dev of a post-release, post-release; then the next release, then the next epoch. -/
def sampleVersions : List Ver :=
  [⟨0, [1, 0], some (c!"dev", 1), none, none, none⟩,
   ⟨0, [1], some (c!"dev", 2), some (c!"a", 1), none, none⟩,
   ⟨0, [1, 0], none, some (c!"a", 1), none, none⟩,
   ⟨0, [1, 0, 0], none, some (c!"a", 1), some (c!"post", 1), none⟩,
   ⟨0, [1], none, some (c!"b", 1), none, none⟩,
   ⟨0, [1], none, some (c!"rc", 0), none, none⟩,
   ⟨0, [1], none, none, none, none⟩,
   ⟨0, [1], none, none, none, some [.text c!"abc"]⟩,
   ⟨0, [1], none, none, none, some [.num 5]⟩,
   ⟨0, [1], some (c!"dev", 0), none, some (c!"post", 3), none⟩,
   ⟨0, [1], none, none, some (c!"post", 3), none⟩,
   ⟨0, [1, 0, 1], none, none, none, none⟩,
   ⟨1, [0, 1], none, none, none, none⟩]

example : (sampleVersions.zip sampleVersions.tail).map (fun p => p.1.lt p.2) =
    List.replicate 12 (some true) := by rfl

example : Ver.eq ⟨0, [1, 0], none, none, none, none⟩ ⟨0, [1, 0, 0], none, none, none, none⟩ = true := by rfl

example : ValidVersion ⟨1, [2, 0], some (c!"dev", 3), some (c!"rc", 1), some (c!"post", 2), some [.text c!"ab", .num 1]⟩ := by
  constructor <;> simp [ValidPart]

end Gyp
