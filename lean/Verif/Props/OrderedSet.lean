import Verif.Model.OrderedSet
import Mathlib.Data.List.Chain
import Mathlib.Data.List.Nodup
/-
C06: the insertion-ordered set behaves as a duplicate-free list.
-/
namespace Gyp
open OSet

/-- The operations of a history. -/
inductive SetOp (α : Type) where
  | add (k : α)
  | discard (k : α)
  | update (items : List α)
  | pop (last : Bool)

variable {α : Type} [DecidableEq α]

theorem filter_ne_self {k : α} {l : List α} (h : k ∉ l) : l.filter (· ≠ k) = l := by
  rw [List.filter_eq_self]
  intro a ha
  have : a ≠ k := fun e => h (e ▸ ha)
  simpa using this

/-- The intended meaning: the set is a list, oldest insertion first; `listAdd`
(Model/OrderedSet.lean) appends an element unless it is there. -/
def listStep (l : List α) : SetOp α → List α
  | .add k => listAdd l k
  | .discard k => l.filter (· ≠ k)
  | .update items => items.foldl listAdd l
  | .pop true => l.dropLast
  | .pop false => l.tail

/-- What `pop` returns, `none` being the `KeyError`. -/
def listPop (l : List α) (last : Bool) : Option α := if last then l.getLast? else l.head?

/-- Running one operation on the container; a failing `pop` changes nothing. -/
def setStep (s : OSet α) : SetOp α → OSet α
  | .add k => s.add k
  | .discard k => s.discard k
  | .update items => s.update items
  | .pop last => match s.pop last with
    | none => s
    | some r => r.2

/-- The representation invariant: the cells `ids` form the ring `0, ids, 0`. -/
structure Ring (s : OSet α) (ids : List Nat) (l : List α) : Prop where
  chain : List.IsChain (fun a b => s.next a = b ∧ s.prev b = a) (0 :: ids ++ [0])
  nodup : ids.Nodup
  pos : 0 ∉ ids
  bound : ∀ i ∈ ids, i < s.fresh
  fresh : 0 < s.fresh
  keys : ids.map s.key = l.map some
  lnodup : l.Nodup
  map : s.map.Perm (l.zip ids)

theorem Ring.length {s : OSet α} {ids : List Nat} {l : List α} (h : Ring s ids l) :
    ids.length = l.length := by
  simpa using congrArg List.length h.keys

theorem Ring.fst {s : OSet α} {ids : List Nat} {l : List α} (h : Ring s ids l) :
    (l.zip ids).map Prod.fst = l := by
  rw [List.map_fst_zip]; exact h.length.symm.le

theorem Ring.find {s : OSet α} {ids : List Nat} {l : List α} (h : Ring s ids l) (k : α) (i : Nat) :
    s.find k = some i ↔ (k, i) ∈ l.zip ids := by
  rw [← h.map.mem_iff]
  have hn : (s.map.map Prod.fst).Nodup := by
    rw [(h.map.map Prod.fst).nodup_iff, h.fst]; exact h.lnodup
  unfold OSet.find
  generalize s.map = m at hn
  induction m with
  | nil => simp
  | cons e m ih =>
    obtain ⟨k', i'⟩ := e
    simp only [List.map_cons, List.nodup_cons] at hn
    rw [List.find?_cons]
    by_cases hk : k' = k
    · subst hk
      simp only [decide_true, Option.map_some, Option.some.injEq, List.mem_cons, Prod.mk.injEq,
        true_and]
      constructor
      · intro e; exact Or.inl e.symm
      · rintro (e | e)
        · exact e.symm
        · exact absurd (List.mem_map_of_mem (f := Prod.fst) e) hn.1
    · simp only [hk, decide_false, List.mem_cons, Prod.mk.injEq]
      refine Iff.trans (ih hn.2) ⟨Or.inr, ?_⟩
      rintro (⟨e, -⟩ | e)
      · exact absurd e.symm hk
      · exact e

theorem Ring.contains {s : OSet α} {ids : List Nat} {l : List α} (h : Ring s ids l) (k : α) :
    s.contains k = true ↔ k ∈ l := by
  unfold OSet.contains
  rw [Option.isSome_iff_exists]
  constructor
  · rintro ⟨i, hi⟩
    have := List.mem_map_of_mem (f := Prod.fst) ((h.find k i).mp hi)
    rwa [h.fst] at this
  · intro hk
    rw [← h.fst] at hk
    obtain ⟨⟨k', i⟩, hm, rfl⟩ := List.mem_map.mp hk
    exact ⟨i, (h.find _ i).mpr hm⟩

theorem ring_empty : Ring (OSet.empty : OSet α) [] [] :=
  ⟨by simp [OSet.empty], List.nodup_nil, by simp, by simp, by simp [OSet.empty], rfl,
    List.nodup_nil, List.Perm.nil⟩

/-- The end of a chain. -/
theorem isChain_concat_iff {β : Type} (R : β → β → Prop) (l : List β) (a b : β) :
    List.IsChain R (l ++ [a, b]) ↔ List.IsChain R (l ++ [a]) ∧ R a b := by
  rw [show l ++ [a, b] = (l ++ [a]) ++ [b] by simp, List.isChain_append]
  simp

theorem isChain_congr {β : Type} {R S : β → β → Prop} {l : List β}
    (h : List.IsChain R l) (hRS : ∀ p a b q, l = p ++ a :: b :: q → R a b → S a b) :
    List.IsChain S l := by
  induction l with
  | nil => exact List.isChain_nil
  | cons x xs ih =>
    cases xs with
    | nil => exact List.isChain_singleton x
    | cons y ys =>
      rw [List.isChain_cons_cons] at h ⊢
      refine ⟨hRS [] x y ys rfl h.1, ih h.2 ?_⟩
      intro p a b q e
      exact hRS (x :: p) a b q (by rw [e]; rfl)

/-- Splitting the ring at its last proper cell. -/
theorem ring_last (ids : List Nat) : ∃ p z, 0 :: ids = p ++ [z] := by
  refine ⟨(0 :: ids).dropLast, (0 :: ids).getLast (by simp), ?_⟩
  rw [List.dropLast_append_getLast]

theorem nodup_split_ne {l p q : List Nat} {a b : Nat} (hn : l.Nodup) (h : l = p ++ a :: b :: q) :
    ∀ x ∈ p, x ≠ a ∧ x ≠ b := by
  subst h
  rw [List.nodup_append] at hn
  intro x hx
  exact ⟨hn.2.2 x hx a (by simp), hn.2.2 x hx b (by simp)⟩

theorem ring_add {s : OSet α} {ids : List Nat} {l : List α} (h : Ring s ids l) (k : α) :
    ∃ ids', Ring (s.add k) ids' (listAdd l k) := by
  unfold OSet.add listAdd
  by_cases hk : k ∈ l
  · rw [if_pos ((h.contains k).mpr hk), if_pos hk]
    exact ⟨ids, h⟩
  · have hc : ¬ s.contains k = true := fun e => hk ((h.contains k).mp e)
    rw [if_neg hc, if_neg hk]
    refine ⟨ids ++ [s.fresh], ?_⟩
    have hnf : s.fresh ∉ ids := fun e => lt_irrefl _ (h.bound _ e)
    have hn0 : (0 :: ids).Nodup := List.nodup_cons.mpr ⟨h.pos, h.nodup⟩
    have hnf0 : s.fresh ≠ 0 := h.fresh.ne'
    obtain ⟨p, z, hz⟩ := ring_last ids
    have hch := h.chain
    rw [hz, List.append_assoc] at hch
    obtain ⟨hch1, hz1, hz2⟩ := (isChain_concat_iff _ p z 0).mp hch
    constructor
    · rw [← List.cons_append, hz]
      rw [show p ++ [z] ++ [s.fresh] ++ [0] = (p ++ [z]) ++ [s.fresh, 0] by simp,
        isChain_concat_iff, show p ++ [z] ++ [s.fresh] = p ++ [z, s.fresh] by simp,
        isChain_concat_iff]
      have hzf : z ≠ s.fresh := by
        have hm : z ∈ 0 :: ids := by rw [hz]; simp
        rcases List.mem_cons.mp hm with e | e
        · rw [e]; exact hnf0.symm
        · exact fun e' => hnf (e' ▸ e)
      refine ⟨⟨?_, ?_⟩, ?_⟩
      · refine isChain_congr hch1 ?_
        intro p' a b q hab ⟨r1, r2⟩
        have hab' : 0 :: ids = p' ++ a :: b :: q := hz.trans hab
        have hmem : ∀ x ∈ 0 :: ids, x ≠ s.fresh := by
          intro x hx
          rcases List.mem_cons.mp hx with e | e
          · rw [e]; exact hnf0.symm
          · exact fun e' => hnf (e' ▸ e)
        have ha : a ≠ s.fresh := hmem a (by rw [hab']; simp)
        have hb : b ≠ s.fresh := hmem b (by rw [hab']; simp)
        have hb0 : b ≠ 0 := by
          intro e
          subst e
          cases p' with
          | nil =>
            rw [hab'] at hn0
            have e0 : (0 : Nat) = a := (List.cons.inj hab').1
            subst e0
            simp at hn0
          | cons y ys =>
            have e0 : (0 : Nat) = y := (List.cons.inj hab').1
            rw [hab', ← e0] at hn0
            simp at hn0
        have haz : a ≠ z := by
          intro e
          subst e
          rw [hz] at hn0
          have hl : (p ++ [a]).getLast? = (p' ++ a :: b :: q).getLast? := by rw [hab]
          rw [List.getLast?_append] at hl
          have hmem2 : a ∈ b :: q := by
            have : (p' ++ a :: b :: q).getLast? = (b :: q).getLast? := by
              rw [show p' ++ a :: b :: q = (p' ++ [a]) ++ (b :: q) by simp,
                List.getLast?_append]
              cases hq : (b :: q).getLast? with
              | none => simp at hq
              | some v => rfl
            rw [this] at hl
            simp only [List.getLast?_singleton, Option.some_or] at hl
            exact List.mem_of_getLast? hl.symm
          rw [hab, List.nodup_append] at hn0
          exact (List.nodup_cons.mp hn0.2.1).1 hmem2
        simp only [slotSet]
        rw [if_neg (by rw [hz2]; exact haz), if_neg ha, if_neg hb0, if_neg hb]
        exact ⟨r1, r2⟩
      · simp only [slotSet]
        rw [hz2]
        simp [hnf0]
      · simp only [slotSet]
        rw [hz2]
        simp [hzf.symm]
    · simp [List.nodup_append, h.nodup]
      intro a ha e; exact hnf (e ▸ ha)
    · simp [h.pos, hnf0.symm]
    · intro i hi
      rw [List.mem_append, List.mem_singleton] at hi
      rcases hi with e | e
      · exact Nat.lt_succ_of_lt (h.bound i e)
      · rw [e]; exact Nat.lt_succ_self _
    · exact Nat.succ_pos _
    · simp only [List.map_append, List.map_cons, List.map_nil]
      congr 1
      · rw [← h.keys]
        apply List.map_congr_left
        intro i hi
        have : i ≠ s.fresh := fun e => hnf (e ▸ hi)
        simp [slotSet, this]
      · simp [slotSet]
    · simp [List.nodup_append, h.lnodup]
      intro a ha e; exact hk (e ▸ ha)
    · rw [List.zip_append h.length.symm]
      exact h.map.append (by simp)

theorem ring_discard {s : OSet α} {ids : List Nat} {l : List α} (h : Ring s ids l) (k : α) :
    ∃ ids', Ring (s.discard k) ids' (l.filter (· ≠ k)) := by
  unfold OSet.discard
  cases hf : s.find k with
  | none =>
    refine ⟨ids, ?_⟩
    have hk : k ∉ l := by
      intro hk
      have := (h.contains k).mpr hk
      simp [OSet.contains, hf] at this
    rw [filter_ne_self hk]
    exact h
  | some i =>
    have hm := (h.find k i).mp hf
    obtain ⟨zp, zq, hzip⟩ := List.append_of_mem hm
    -- split both lists at the same place
    have hl : l = zp.map Prod.fst ++ k :: zq.map Prod.fst := by
      have := congrArg (List.map Prod.fst) hzip
      rwa [h.fst, List.map_append, List.map_cons] at this
    have hids : ids = zp.map Prod.snd ++ i :: zq.map Prod.snd := by
      have := congrArg (List.map Prod.snd) hzip
      rwa [List.map_snd_zip h.length.le, List.map_append, List.map_cons] at this
    generalize hlp : zp.map Prod.fst = lp at hl
    generalize hlq : zq.map Prod.fst = lq at hl
    generalize hip : zp.map Prod.snd = ip at hids
    generalize hiq : zq.map Prod.snd = iq at hids
    have hlen : lp.length = ip.length := by rw [← hlp, ← hip]; simp
    have hn := h.lnodup
    rw [hl, List.nodup_append] at hn
    have hkq : k ∉ lq := (List.nodup_cons.mp hn.2.1).1
    have hkp : k ∉ lp := fun e => hn.2.2 k e k (by simp) rfl
    have hfl : l.filter (· ≠ k) = lp ++ lq := by
      rw [hl, List.filter_append, List.filter_cons_of_neg (by simp),
        filter_ne_self hkp, filter_ne_self hkq]
    rw [hfl]
    have hi := h.nodup
    rw [hids, List.nodup_append] at hi
    have hiq' : i ∉ iq := (List.nodup_cons.mp hi.2.1).1
    have hip' : i ∉ ip := fun e => hi.2.2 i e i (by simp) rfl
    refine ⟨ip ++ iq, ?_⟩
    have hpos := h.pos
    rw [hids] at hpos
    have hi0 : i ≠ 0 := by rintro rfl; simp at hpos
    -- the ring around cell i
    obtain ⟨p, z, hz⟩ := ring_last ip
    obtain ⟨y, q, hy⟩ : ∃ y q, iq ++ [0] = y :: q := by
      cases iq with
      | nil => exact ⟨0, [], rfl⟩
      | cons y q => exact ⟨y, q ++ [0], rfl⟩
    have hring : 0 :: ids ++ [0] = p ++ z :: i :: y :: q := by
      rw [hids, ← List.cons_append, hz, List.append_assoc, List.cons_append, hy]
      simp
    have hch := h.chain
    rw [hring] at hch
    have hch1 : List.IsChain (fun a b => s.next a = b ∧ s.prev b = a) (p ++ [z]) := by
      rw [show p ++ z :: i :: y :: q = (p ++ [z]) ++ (i :: y :: q) by simp,
        List.isChain_append] at hch
      exact hch.1
    have hch2 : List.IsChain (fun a b => s.next a = b ∧ s.prev b = a) (z :: i :: y :: q) :=
      (List.isChain_append.mp hch).2.1
    rw [List.isChain_cons_cons, List.isChain_cons_cons] at hch2
    obtain ⟨⟨n1, p1⟩, ⟨n2, p2⟩, hch3⟩ := hch2
    constructor
    · show List.IsChain (fun a b => slotSet s.next (s.prev i) (s.next i) a = b ∧
        slotSet s.prev (s.next i) (s.prev i) b = a) _
      rw [p1, n2, ← List.cons_append, hz, List.append_assoc, List.append_assoc, hy]
      have hzz : (0 :: (ip ++ iq)).Nodup := by
        rw [List.nodup_cons]
        refine ⟨fun e => hpos ?_, ?_⟩
        · rw [List.mem_append] at e ⊢
          rcases e with e | e
          · exact Or.inl e
          · exact Or.inr (List.mem_cons_of_mem _ e)
        · rw [List.nodup_append]
          exact ⟨hi.1, (List.nodup_cons.mp hi.2.1).2,
            fun a ha b hb => hi.2.2 a ha b (List.mem_cons_of_mem _ hb)⟩
      rw [← List.cons_append, hz] at hzz
      -- hzz : (p ++ [z] ++ iq).Nodup
      rw [show p ++ ([z] ++ (y :: q)) = (p ++ [z]) ++ (y :: q) by simp, List.isChain_append]
      have hz_notin : ∀ x ∈ p, x ≠ z := by
        intro x hx
        rw [List.append_assoc, List.nodup_append] at hzz
        exact hzz.2.2 x hx z (by simp)
      have hy_notin : ∀ b ∈ p ++ [z], b ≠ y ∨ b = 0 := by
        intro b hb
        cases iq with
        | nil =>
          have e : (0 : Nat) = y := (List.cons.inj hy).1
          rw [← e]
          by_cases hb0 : b = 0
          · exact Or.inr hb0
          · exact Or.inl hb0
        | cons y' q' =>
          have e : y' = y := (List.cons.inj hy).1
          subst e
          left
          rw [List.nodup_append] at hzz
          exact hzz.2.2 b hb y' (by simp)
      refine ⟨?_, ?_, ?_⟩
      · refine isChain_congr hch1 ?_
        intro p' a b q' hab ⟨r1, r2⟩
        have hnd : (p ++ [z]).Nodup := (List.nodup_append.mp hzz).1
        have hap : a ≠ z := by
          intro e
          subst e
          have hl2 : (p ++ [a]).getLast? = (p' ++ a :: b :: q').getLast? := by rw [hab]
          have : (p' ++ a :: b :: q').getLast? = (b :: q').getLast? := by
            rw [show p' ++ a :: b :: q' = (p' ++ [a]) ++ (b :: q') by simp, List.getLast?_append]
            cases hq : (b :: q').getLast? with
            | none => simp at hq
            | some v => rfl
          rw [this, List.getLast?_append] at hl2
          simp only [List.getLast?_singleton, Option.some_or] at hl2
          have hmem2 := List.mem_of_getLast? hl2.symm
          rw [hab, List.nodup_append] at hnd
          exact (List.nodup_cons.mp hnd.2.1).1 hmem2
        have hb0 : b ≠ 0 := by
          have hz' : 0 :: ip = p' ++ a :: b :: q' := hz.trans hab
          rw [← hz] at hnd
          rw [hz'] at hnd
          intro e
          subst e
          cases p' with
          | nil =>
            have e0 : (0 : Nat) = a := (List.cons.inj hz').1
            subst e0
            simp at hnd
          | cons w ws =>
            have e0 : (0 : Nat) = w := (List.cons.inj hz').1
            rw [← e0] at hnd
            simp at hnd
        have hby : b ≠ y := by
          rcases hy_notin b (by rw [hab]; simp) with e | e
          · exact e
          · exact absurd e hb0
        simp only [slotSet]
        rw [if_neg hap, if_neg hby]
        exact ⟨r1, r2⟩
      · refine isChain_congr hch3 ?_
        intro p' a b q' hab ⟨r1, r2⟩
        have hyq : y :: q = iq ++ [0] := hy.symm
        have hiq0 : (iq ++ [0]).Nodup := by
          rw [List.nodup_append]
          refine ⟨(List.nodup_cons.mp hi.2.1).2, by simp, ?_⟩
          intro a ha b hb e
          rw [List.mem_singleton] at hb
          subst hb; subst e
          exact hpos (by simp [ha])
        rw [← hyq] at hiq0
        have hby : b ≠ y := by
          intro e
          subst e
          cases p' with
          | nil =>
            have e0 : b = a := (List.cons.inj hab).1
            rw [hab, ← e0] at hiq0
            simp at hiq0
          | cons w ws =>
            have e0 : b = w := (List.cons.inj hab).1
            rw [hab, ← e0] at hiq0
            simp at hiq0
        have haz : a ≠ z := by
          have hanl : a ∈ iq := by
            -- a is not the last element of iq ++ [0]
            have hdl : a ∈ (y :: q).dropLast := by
              rw [hab]
              rw [show p' ++ a :: b :: q' = (p' ++ [a]) ++ (b :: q') by simp,
                List.dropLast_append_of_ne_nil (by simp)]
              simp
            rw [hyq, List.dropLast_append_of_ne_nil (by simp)] at hdl
            simpa using hdl
          intro e
          subst e
          rw [List.append_assoc, List.nodup_append] at hzz
          have := hzz.2.1
          simp [hanl] at this
        simp only [slotSet]
        rw [if_neg haz, if_neg hby]
        exact ⟨r1, r2⟩
      · intro a ha b hb
        simp at ha hb
        subst ha; subst hb
        simp [slotSet]
    · rw [List.nodup_append]
      exact ⟨hi.1, (List.nodup_cons.mp hi.2.1).2,
            fun a ha b hb => hi.2.2 a ha b (List.mem_cons_of_mem _ hb)⟩
    · intro e
      apply hpos
      rw [List.mem_append] at e ⊢
      rcases e with e | e
      · exact Or.inl e
      · exact Or.inr (List.mem_cons_of_mem _ e)
    · intro j hj
      apply h.bound
      rw [hids]
      rw [List.mem_append] at hj ⊢
      rcases hj with e | e
      · exact Or.inl e
      · exact Or.inr (List.mem_cons_of_mem _ e)
    · exact h.fresh
    · show (ip ++ iq).map s.key = _
      have hk' := h.keys
      rw [hids, hl] at hk'
      simp only [List.map_append, List.map_cons] at hk' ⊢
      have := List.append_inj hk' (by simp [hlen])
      rw [this.1, (List.cons.inj this.2).2]
    · rw [List.nodup_append]
      exact ⟨hn.1, (List.nodup_cons.mp hn.2.1).2,
        fun a ha b hb => hn.2.2 a ha b (List.mem_cons_of_mem _ hb)⟩
    · show (s.map.filter _).Perm _
      refine (h.map.filter _).trans ?_
      rw [hl, hids, List.zip_append hlen, List.zip_append hlen, List.filter_append,
        List.zip_cons_cons, List.filter_cons_of_neg (by simp)]
      rw [List.filter_eq_self.mpr, List.filter_eq_self.mpr]
      · intro a ha
        have := (List.of_mem_zip (a := a.1) (b := a.2) ha).1
        have : a.1 ≠ k := fun e => hkq (e ▸ this)
        simpa using this
      · intro a ha
        have := (List.of_mem_zip (a := a.1) (b := a.2) ha).1
        have : a.1 ≠ k := fun e => hkp (e ▸ this)
        simpa using this

theorem ring_update {s : OSet α} {ids : List Nat} {l : List α} (h : Ring s ids l)
    (items : List α) : ∃ ids', Ring (s.update items) ids' (items.foldl listAdd l) := by
  unfold OSet.update
  induction items generalizing s ids l with
  | nil => exact ⟨ids, h⟩
  | cons k ks ih =>
    simp only [List.foldl_cons]
    obtain ⟨ids1, h1⟩ := ring_add h k
    by_cases hc : s.contains k = true
    · rw [if_pos hc]
      have : s.add k = s := by simp [OSet.add, hc]
      rw [this] at h1
      exact ih h1
    · rw [if_neg hc]
      exact ih h1

theorem Ring.iter_aux {s : OSet α} (ids : List Nat) (l : List α) (a : Nat)
    (hch : List.IsChain (fun a b => s.next a = b ∧ s.prev b = a) (a :: ids ++ [0]))
    (hpos : 0 ∉ ids) (hk : ids.map s.key = l.map some) : Iter s (s.next a) l := by
  induction ids generalizing a l with
  | nil =>
    have : l = [] := by simpa using hk.symm
    subst this
    simp at hch
    rw [hch.1]
    exact .done
  | cons i is ih =>
    cases l with
    | nil => simp at hk
    | cons k ks =>
      simp only [List.map_cons, List.cons.injEq] at hk
      simp only [List.cons_append, List.isChain_cons_cons] at hch
      simp only [List.mem_cons, not_or] at hpos
      rw [hch.1.1]
      refine .yield (fun e => hpos.1 e.symm) hk.1 (ih ks i ?_ hpos.2 hk.2)
      simpa using hch.2

theorem Ring.enumerates {s : OSet α} {ids : List Nat} {l : List α} (h : Ring s ids l) :
    s.Enumerates l := Ring.iter_aux ids l 0 h.chain h.pos h.keys

theorem Ring.rev_aux {s : OSet α} (ids : List Nat) (l : List α) (a : Nat)
    (hch : List.IsChain (fun a b => s.next a = b ∧ s.prev b = a) (0 :: ids ++ [a]))
    (hpos : 0 ∉ ids) (hk : ids.map s.key = l.map some) : RevIter s (s.prev a) l.reverse := by
  induction ids using List.reverseRecOn generalizing a l with
  | nil =>
    have : l = [] := by simpa using hk.symm
    subst this
    simp at hch
    rw [hch.2]
    exact .done
  | append_singleton is i ih =>
    rcases List.eq_nil_or_concat l with rfl | ⟨ks, k, rfl⟩
    · simp at hk
    · simp only [List.concat_eq_append, List.map_append, List.map_cons, List.map_nil] at hk
      have hlen : is.length = ks.length := by
        have := congrArg List.length hk
        simpa using this
      obtain ⟨hk1, hk2⟩ := List.append_inj hk (by simpa using hlen)
      rw [show 0 :: (is ++ [i]) ++ [a] = (0 :: is) ++ [i, a] by simp, isChain_concat_iff] at hch
      rw [hch.2.2]
      have hi : i ≠ 0 := by rintro rfl; simp at hpos
      rw [List.concat_eq_append, List.reverse_append]
      refine .yield hi (List.cons.inj hk2).1 (ih ks i hch.1 ?_ hk1)
      intro e; exact hpos (by simp [e])

theorem Ring.revEnumerates {s : OSet α} {ids : List Nat} {l : List α} (h : Ring s ids l) :
    s.RevEnumerates l.reverse := Ring.rev_aux ids l 0 h.chain h.pos h.keys

theorem Ring.len {s : OSet α} {ids : List Nat} {l : List α} (h : Ring s ids l) :
    s.len = l.length := by
  unfold OSet.len
  rw [h.map.length_eq, List.length_zip, h.length, Nat.min_self]

theorem filter_ne_head {k : α} {ks : List α} (hn : (k :: ks).Nodup) :
    (k :: ks).filter (· ≠ k) = ks := by
  rw [List.filter_cons_of_neg (by simp)]
  exact filter_ne_self (List.nodup_cons.mp hn).1

theorem filter_ne_last {k : α} {ks : List α} (hn : (ks ++ [k]).Nodup) :
    (ks ++ [k]).filter (· ≠ k) = ks := by
  rw [List.filter_append, List.filter_cons_of_neg (by simp), List.filter_nil, List.append_nil]
  refine List.filter_eq_self.mpr fun a ha => ?_
  rw [List.nodup_append] at hn
  simpa using hn.2.2 a ha k (by simp)

theorem iter_head {s : OSet α} {i : Nat} {k : α} {l : List α} (h : Iter s i (k :: l)) :
    s.key i = some k := by
  cases h with
  | yield _ h2 _ => exact h2

theorem revIter_head {s : OSet α} {i : Nat} {k : α} {l : List α} (h : RevIter s i (k :: l)) :
    s.key i = some k := by
  cases h with
  | yield _ h2 _ => exact h2

theorem ring_pop {s : OSet α} {ids : List Nat} {l : List α} (h : Ring s ids l) (last : Bool) :
    (l = [] ∧ s.pop last = none) ∨
    ∃ k s', s.pop last = some (some k, s') ∧ listPop l last = some k ∧
      ∃ ids', Ring s' ids' (listStep l (.pop last)) := by
  cases l with
  | nil => left; exact ⟨rfl, by simp [OSet.pop, h.len]⟩
  | cons k ks =>
    right
    cases last with
    | false =>
      have hk : s.key (s.next 0) = some k := by
        exact iter_head h.enumerates
      refine ⟨k, s.discard k, by simp [OSet.pop, h.len, hk], rfl, ?_⟩
      obtain ⟨ids', h'⟩ := ring_discard h k
      rw [filter_ne_head h.lnodup] at h'
      exact ⟨ids', h'⟩
    | true =>
      obtain ⟨ms, m, hm⟩ : ∃ ms m, k :: ks = ms ++ [m] :=
        ⟨(k :: ks).dropLast, (k :: ks).getLast (by simp), by rw [List.dropLast_append_getLast]⟩
      have hk : s.key (s.prev 0) = some m := by
        have := h.revEnumerates
        rw [hm, List.reverse_append] at this
        exact revIter_head this
      have hlen : s.len ≠ 0 := by rw [h.len]; simp
      refine ⟨m, s.discard m, by simp [OSet.pop, hlen, hk], by simp [listPop, hm], ?_⟩
      obtain ⟨ids', h'⟩ := ring_discard h m
      rw [hm] at h' ⊢
      have hn := h.lnodup
      rw [hm] at hn
      rw [filter_ne_last hn] at h'
      refine ⟨ids', ?_⟩
      simpa [listStep] using h'

theorem ring_step {s : OSet α} {ids : List Nat} {l : List α} (h : Ring s ids l) (op : SetOp α) :
    ∃ ids', Ring (setStep s op) ids' (listStep l op) := by
  cases op with
  | add k => exact ring_add h k
  | discard k => exact ring_discard h k
  | update items => exact ring_update h items
  | pop last =>
    rcases ring_pop h last with ⟨rfl, e⟩ | ⟨k, s', e, -, ids', h'⟩
    · refine ⟨ids, ?_⟩
      have : listStep ([] : List α) (.pop last) = [] := by cases last <;> rfl
      rw [this]
      simpa [setStep, e] using h
    · exact ⟨ids', by simpa [setStep, e] using h'⟩

theorem ring_history (ops : List (SetOp α)) :
    ∃ ids, Ring (ops.foldl setStep OSet.empty) ids (ops.foldl listStep []) := by
  suffices ∀ (s : OSet α) ids l, Ring s ids l →
      ∃ ids', Ring (ops.foldl setStep s) ids' (ops.foldl listStep l) from
    this _ _ _ ring_empty
  induction ops with
  | nil => intro s ids l h; exact ⟨ids, h⟩
  | cons op ops ih =>
    intro s ids l h
    obtain ⟨ids1, h1⟩ := ring_step h op
    exact ih _ _ _ h1

theorem iter_unique {s : OSet α} {i : Nat} {l l' : List α} (h : Iter s i l) (h' : Iter s i l') :
    l = l' := by
  induction h generalizing l' with
  | done => cases h' with
    | done => rfl
    | yield h _ _ => exact absurd rfl h
  | yield hi hk _ ih => cases h' with
    | done => exact absurd rfl hi
    | yield _ hk' h' =>
      rw [hk] at hk'
      rw [Option.some.inj hk', ih h']

/-- C06: after every history, enumerating the container terminates with exactly the
list the history means, and with nothing else. -/
theorem C06_enumerates (ops : List (SetOp α)) :
    (ops.foldl setStep OSet.empty).Enumerates (ops.foldl listStep []) ∧
    ∀ l, (ops.foldl setStep OSet.empty).Enumerates l → l = ops.foldl listStep [] := by
  obtain ⟨ids, h⟩ := ring_history ops
  exact ⟨h.enumerates, fun l hl => iter_unique hl h.enumerates⟩

/-- C06: reverse enumeration is the mirror image. -/
theorem C06_reversed (ops : List (SetOp α)) (l : List α)
    (hl : (ops.foldl setStep OSet.empty).Enumerates l) :
    (ops.foldl setStep OSet.empty).RevEnumerates l.reverse := by
  obtain ⟨ids, h⟩ := ring_history ops
  rw [iter_unique hl h.enumerates]
  exact h.revEnumerates

/-- C06: membership and length agree with the enumeration, which has no duplicates. -/
theorem C06_membership_and_length (ops : List (SetOp α)) (l : List α)
    (hl : (ops.foldl setStep OSet.empty).Enumerates l) :
    l.Nodup ∧ (ops.foldl setStep OSet.empty).len = l.length ∧
    ∀ k, (ops.foldl setStep OSet.empty).contains k = true ↔ k ∈ l := by
  obtain ⟨ids, h⟩ := ring_history ops
  rw [iter_unique hl h.enumerates]
  exact ⟨h.lnodup, h.len, fun k => h.contains k⟩

/-- C06: `pop` returns the newest (or oldest) element of the enumeration and removes
it; it fails exactly on the empty container. -/
theorem C06_pop (ops : List (SetOp α)) (last : Bool) (l : List α)
    (hl : (ops.foldl setStep OSet.empty).Enumerates l) :
    ((ops.foldl setStep OSet.empty).pop last).map Prod.fst = (listPop l last).map some := by
  obtain ⟨ids, h⟩ := ring_history ops
  rw [iter_unique hl h.enumerates]
  rcases ring_pop h last with ⟨e1, e2⟩ | ⟨k, s', e, e2, -⟩
  · rw [e1, e2]; cases last <;> rfl
  · rw [e, e2]; rfl

/-- Reading a history: is the last operation that mentions `k` an addition? -/
def addedLast (k : α) (ops : List (SetOp α)) : Bool :=
  ops.foldl (fun b op => match op with
    | .add j => if j = k then true else b
    | .discard j => if j = k then false else b
    | .update js => if k ∈ js then true else b
    | .pop _ => b) false

theorem mem_listAdd (l : List α) (j k : α) : k ∈ listAdd l j ↔ k = j ∨ k ∈ l := by
  unfold listAdd
  by_cases h : j ∈ l
  · rw [if_pos h]
    constructor
    · exact Or.inr
    · rintro (rfl | e)
      · exact h
      · exact e
  · rw [if_neg h]; simp [or_comm]

theorem mem_foldl_listAdd (items l : List α) (k : α) :
    k ∈ items.foldl listAdd l ↔ k ∈ items ∨ k ∈ l := by
  induction items generalizing l with
  | nil => simp
  | cons j js ih =>
    rw [List.foldl_cons, ih, mem_listAdd, List.mem_cons]
    constructor
    · rintro (e | e | e)
      · exact Or.inl (Or.inr e)
      · exact Or.inl (Or.inl e)
      · exact Or.inr e
    · rintro ((e | e) | e)
      · exact Or.inr (Or.inl e)
      · exact Or.inl e
      · exact Or.inr (Or.inr e)

/-- C06: without `pop`, an element is in the container exactly when the last operation
that mentions it added it. -/
theorem C06_added_and_not_removed (ops : List (SetOp α))
    (hp : ∀ op ∈ ops, ∀ b, op ≠ .pop b) (k : α) :
    (ops.foldl setStep OSet.empty).contains k = addedLast k ops := by
  obtain ⟨ids, h⟩ := ring_history ops
  rw [Bool.eq_iff_iff, h.contains]
  clear h ids
  unfold addedLast
  induction ops using List.reverseRecOn with
  | nil => simp
  | append_singleton ops op ih =>
    have ih := ih (fun o ho => hp o (by simp [ho]))
    rw [List.foldl_append, List.foldl_append]
    simp only [List.foldl_cons, List.foldl_nil]
    cases op with
    | add j =>
      by_cases hj : j = k
      · subst hj; simp [listStep, mem_listAdd]
      · simp only [listStep, mem_listAdd, hj, if_false]
        rw [← ih]
        simp [show k ≠ j from fun e => hj e.symm]
    | discard j =>
      by_cases hj : j = k
      · subst hj; simp [listStep]
      · simp only [listStep, hj, if_false]
        rw [← ih]
        simp [show k ≠ j from fun e => hj e.symm]
    | update js =>
      by_cases hj : k ∈ js
      · simp [listStep, mem_foldl_listAdd, hj]
      · simp only [listStep, mem_foldl_listAdd, hj, if_false]
        rw [← ih]
        simp
    | pop b => exact absurd rfl (hp (.pop b) (by simp) b)

example : ([.add 1, .add 2, .add 3, .discard 1, .add 2, .add 1, .pop false, .update [4, 3]].foldl
    listStep ([] : List Nat)) = [3, 1, 4] := by decide

example : (([.add 1, .update [2, 3], .discard 1, .add 1, .pop false] : List (SetOp Nat)).foldl
    setStep OSet.empty).Enumerates [3, 1] :=
  (C06_enumerates _).1

end Gyp
