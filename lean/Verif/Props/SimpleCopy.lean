import Verif.Spec.SimpleCopy
import Mathlib.Data.List.Nodup
/-
C59: copied settings share no mutable state.
-/
namespace Gyp
open Spec

/-! ### Reading -/

/-- `h'` has all objects of `h`. -/
def HeapExtends (h h' : Heap) : Prop := ∀ (a : Nat) (o : HObj), h[a]? = some o → h'[a]? = some o

mutual
theorem Spec.HDenotes.mono {h h' : Heap} (he : HeapExtends h h') {v : HVal} {t : Tree} :
    HDenotes h v t → HDenotes h' v t
  | .atom a => .atom a
  | .list ho hi => .list (he _ _ ho) (Spec.DenoteItems.mono he hi)
  | .dict ho hi => .dict (he _ _ ho) (DenoteEntries.mono he hi)
theorem Spec.DenoteItems.mono {h h' : Heap} (he : HeapExtends h h') {v : List HVal} {t : List Tree} :
    DenoteItems h v t → DenoteItems h' v t
  | .nil => .nil
  | .cons hd hs => .cons (HDenotes.mono he hd) (Spec.DenoteItems.mono he hs)
theorem Spec.DenoteEntries.mono {h h' : Heap} (he : HeapExtends h h') {v : List (HVal × HVal)}
    {t : List (Atom × Tree)} : DenoteEntries h v t → DenoteEntries h' v t
  | .nil => .nil
  | .cons hd hs => .cons (HDenotes.mono he hd) (DenoteEntries.mono he hs)
end

mutual
theorem Spec.HDenotes.unique {h : Heap} {v : HVal} {t t' : Tree} (hd : HDenotes h v t)
    (hd' : HDenotes h v t') : t = t' := by
  match hd, hd' with
  | .atom a, .atom _ => rfl
  | .list ho hi, .list ho' hi' =>
    rw [ho] at ho'; cases ho'
    rw [DenoteItems.unique hi hi']
  | .list ho _, .dict ho' _ => rw [ho] at ho'; cases ho'
  | .dict ho _, .list ho' _ => rw [ho] at ho'; cases ho'
  | .dict ho hi, .dict ho' hi' =>
    rw [ho] at ho'; cases ho'
    rw [DenoteEntries.unique hi hi']
theorem Spec.DenoteItems.unique {h : Heap} {v : List HVal} {t t' : List Tree} (hd : DenoteItems h v t)
    (hd' : DenoteItems h v t') : t = t' := by
  match hd, hd' with
  | .nil, .nil => rfl
  | .cons h1 h2, .cons h1' h2' => rw [HDenotes.unique h1 h1', DenoteItems.unique h2 h2']
theorem Spec.DenoteEntries.unique {h : Heap} {v : List (HVal × HVal)} {t t' : List (Atom × Tree)}
    (hd : DenoteEntries h v t) (hd' : DenoteEntries h v t') : t = t' := by
  match hd, hd' with
  | .nil, .nil => rfl
  | .cons h1 h2, .cons h1' h2' => rw [HDenotes.unique h1 h1', DenoteEntries.unique h2 h2']
end

/-! ### What the copy leaves -/

/-- The heap grew from `h` to `h'`; the new objects refer to new objects only. -/
structure Grown (h h' : Heap) : Prop where
  pre : ∃ new, h' = h ++ new
  fresh : ∀ a o, h.length ≤ a → h'[a]? = some o → ∀ b, .ref b ∈ contents o → h.length ≤ b ∧ b < h'.length
  keys : ∀ a items, h.length ≤ a → h'[a]? = some (.dict items) → (items.map Prod.fst).Nodup

theorem Grown.refl (h : Heap) : Grown h h := by
  refine ⟨⟨[], by simp⟩, ?_, ?_⟩
  · intro a o ha ho
    rw [List.getElem?_eq_none ha] at ho; cases ho
  · intro a o ha ho
    rw [List.getElem?_eq_none ha] at ho; cases ho

theorem Grown.extends {h h' : Heap} (g : Grown h h') : HeapExtends h h' := by
  obtain ⟨new, rfl⟩ := g.pre
  intro a o ho
  rw [List.getElem?_append_left (List.getElem?_eq_some_iff.mp ho).1]
  exact ho

theorem Grown.le {h h' : Heap} (g : Grown h h') : h.length ≤ h'.length := by
  obtain ⟨new, rfl⟩ := g.pre
  simp

theorem Grown.trans {h h' h'' : Heap} (g : Grown h h') (g' : Grown h' h'') : Grown h h'' := by
  have hle := g.le
  have hle' := g'.le
  obtain ⟨n1, e1⟩ := g.pre
  obtain ⟨n2, e2⟩ := g'.pre
  have hold : ∀ a, a < h'.length → h''[a]? = h'[a]? := by
    intro a ha
    rw [e2, List.getElem?_append_left ha]
  refine ⟨⟨n1 ++ n2, by rw [e2, e1]; simp⟩, ?_, ?_⟩
  · intro a o ha ho b hb
    by_cases h1 : a < h'.length
    · rw [hold a h1] at ho
      obtain ⟨x, y⟩ := g.fresh a o ha ho b hb
      exact ⟨x, by omega⟩
    · obtain ⟨x, y⟩ := g'.fresh a o (by omega) ho b hb
      exact ⟨by omega, y⟩
  · intro a items ha ho
    by_cases h1 : a < h'.length
    · rw [hold a h1] at ho
      exact g.keys a items ha ho
    · exact g'.keys a items (by omega) ho

/-- The value is an atom or refers to an object made after `h`. -/
def NewVal (h h' : Heap) (v : HVal) : Prop := ∀ a, v = .ref a → h.length ≤ a ∧ a < h'.length

theorem NewVal.later {h h' h'' : Heap} {v : HVal} (hv : NewVal h h' v) (g : Grown h' h'') :
    NewVal h h'' v := fun a e => ⟨(hv a e).1, Nat.lt_of_lt_of_le (hv a e).2 g.le⟩

theorem NewVal.earlier {h h' h'' : Heap} {v : HVal} (g : Grown h h') (hv : NewVal h' h'' v) :
    NewVal h h'' v := fun a e => ⟨Nat.le_trans g.le (hv a e).1, (hv a e).2⟩

theorem Grown.push {h h' : Heap} (g : Grown h h') (o : HObj) (hc : ∀ v ∈ contents o, NewVal h h' v)
    (hk : ∀ items, o = .dict items → (items.map Prod.fst).Nodup) : Grown h (h' ++ [o]) := by
  have hle := g.le
  obtain ⟨n1, e1⟩ := g.pre
  have hget : ∀ a p, (h' ++ [o])[a]? = some p → h'[a]? = some p ∨ (a = h'.length ∧ p = o) := by
    intro a p hp
    by_cases h1 : a < h'.length
    · rw [List.getElem?_append_left h1] at hp; exact .inl hp
    · rw [List.getElem?_append_right (by omega)] at hp
      have := List.getElem?_eq_some_iff.mp hp
      obtain ⟨h2, h3⟩ := this
      simp at h2
      refine .inr ⟨by omega, ?_⟩
      simpa using h3.symm
  refine ⟨⟨n1 ++ [o], by rw [e1]; simp⟩, ?_, ?_⟩
  · intro a p ha hp b hb
    rcases hget a p hp with hp | ⟨_, rfl⟩
    · obtain ⟨x, y⟩ := g.fresh a p ha hp b hb
      exact ⟨x, by simp; omega⟩
    · obtain ⟨x, y⟩ := hc _ hb b rfl
      exact ⟨x, by simp; omega⟩
  · intro a items ha hp
    rcases hget a _ hp with hp | ⟨_, e⟩
    · exact g.keys a items ha hp
    · exact hk items e.symm

/-- What a correct copy does for one value of the heap `base`. -/
def CopiesTo (base : Heap) (x : HVal) (h : Heap) (y : HVal) (h' : Heap) : Prop :=
  Grown h h' ∧ NewVal h h' y ∧ ∃ t, HDenotes base x t ∧ HDenotes h' y t

/-- The value refers to an object of the heap, if to any. -/
def OldVal (h : Heap) (v : HVal) : Prop := ∀ a, v = .ref a → a < h.length

theorem hset_fresh {d : List (HVal × HVal)} {k v : HVal} (h : k ∉ d.map Prod.fst) :
    hset d k v = d ++ [(k, v)] := by
  induction d with
  | nil => rfl
  | cons p d ih =>
    obtain ⟨a, b⟩ := p
    simp only [List.map_cons, List.mem_cons, not_or] at h
    simp only [hset]
    rw [if_neg (fun e => h.1 e.symm), ih h.2]
    rfl

theorem copyItems_spec {copy : HVal → Heap → Except CopyErr (HVal × Heap)} {base : Heap}
    (hc : ∀ x h y h', OldVal base x → Grown base h → copy x h = .ok (y, h') → CopiesTo base x h y h') :
    ∀ (xs : List HVal) (h : Heap) (ys : List HVal) (h' : Heap), (∀ x ∈ xs, OldVal base x) → Grown base h →
      copyItems copy xs h = .ok (ys, h') →
      Grown h h' ∧ (∀ y ∈ ys, NewVal h h' y) ∧ ∃ ts, DenoteItems base xs ts ∧ DenoteItems h' ys ts := by
  intro xs
  induction xs with
  | nil =>
    intro h ys h' _ _ e
    simp only [copyItems, Except.ok.injEq, Prod.mk.injEq] at e
    obtain ⟨rfl, rfl⟩ := e
    exact ⟨Grown.refl _, by simp, [], .nil, .nil⟩
  | cons x xs ih =>
    intro h ys h' ho g e
    simp only [copyItems] at e
    cases h1 : copy x h with
    | error e' => rw [h1] at e; cases e
    | ok p =>
      obtain ⟨y, hm⟩ := p
      rw [h1] at e
      simp only at e
      obtain ⟨g1, n1, t, d1, d2⟩ := hc x h y hm (ho x (by simp)) g h1
      cases h2 : copyItems copy xs hm with
      | error e' => rw [h2] at e; cases e
      | ok p =>
        obtain ⟨ys', hf⟩ := p
        rw [h2] at e
        simp only [Except.ok.injEq, Prod.mk.injEq] at e
        obtain ⟨rfl, rfl⟩ := e
        obtain ⟨g2, n2, ts, d3, d4⟩ := ih hm ys' hf (fun z hz => ho z (by simp [hz])) (g.trans g1) h2
        refine ⟨g1.trans g2, ?_, t :: ts, .cons d1 d3, .cons (d2.mono g2.extends) d4⟩
        intro z hz
        rcases List.mem_cons.mp hz with rfl | hz
        · exact n1.later g2
        · exact (n2 z hz).earlier g1

theorem copyEntries_spec {copy : HVal → Heap → Except CopyErr (HVal × Heap)} {base : Heap}
    (hc : ∀ x h y h', OldVal base x → Grown base h → copy x h = .ok (y, h') → CopiesTo base x h y h')
    : ∀ (xs acc : List (HVal × HVal)) (h : Heap)
      (ys : List (HVal × HVal)) (h' : Heap), (∀ x ∈ xs, OldVal base x.2) → (∀ x ∈ xs, ∀ a, x.1 ≠ .ref a) →
      (acc.map Prod.fst ++ xs.map Prod.fst).Nodup → Grown base h →
      copyEntries copy xs acc h = .ok (ys, h') →
      Grown h h' ∧ ∃ zs, ys = acc ++ zs ∧ zs.map Prod.fst = xs.map Prod.fst ∧
        (∀ z ∈ zs, NewVal h h' z.1 ∧ NewVal h h' z.2) ∧
        ∃ ts, DenoteEntries base xs ts ∧ DenoteEntries h' zs ts := by
  intro xs
  induction xs with
  | nil =>
    intro acc h ys h' _ _ _ _ e
    simp only [copyEntries, Except.ok.injEq, Prod.mk.injEq] at e
    obtain ⟨rfl, rfl⟩ := e
    exact ⟨Grown.refl _, [], by simp, rfl, by simp, [], .nil, .nil⟩
  | cons x xs ih =>
    obtain ⟨k, v⟩ := x
    intro acc h ys h' ho hk hn g e
    simp only [copyEntries] at e
    cases h1 : copy v h with
    | error e' => rw [h1] at e; cases e
    | ok p =>
      obtain ⟨v', hm⟩ := p
      rw [h1] at e
      simp only at e
      obtain ⟨g1, n1, t, d1, d2⟩ := hc v h v' hm (ho (k, v) (by simp)) g h1
      cases h2 : copy k hm with
      | error e' => rw [h2] at e; cases e
      | ok p =>
        obtain ⟨k', hm2⟩ := p
        rw [h2] at e
        simp only at e
        have hkr : ∀ a, k ≠ .ref a := hk (k, v) (by simp)
        obtain ⟨g2, n2, tk, d3, d4⟩ := hc k hm k' hm2 (fun a e => absurd e (hkr a)) (g.trans g1) h2
        obtain ⟨a, rfl, rfl⟩ : ∃ a, k = .atom a ∧ tk = .atom a := by
          cases d3 with
          | atom a => exact ⟨a, rfl, rfl⟩
          | list _ _ => exact absurd rfl (hkr _)
          | dict _ _ => exact absurd rfl (hkr _)
        have hk' : k' = .atom a := by cases d4; rfl
        subst hk'
        have hfresh : HVal.atom a ∉ acc.map Prod.fst := by
          intro hm
          rw [List.map_cons, List.nodup_append] at hn
          exact hn.2.2 _ hm _ (by simp) rfl
        rw [hset_fresh hfresh] at e
        obtain ⟨g3, zs, rfl, hz, n3, ts, d5, d6⟩ := ih (acc ++ [(.atom a, v')]) hm2 ys h'
          (fun z hz => ho z (by simp [hz])) (fun z hz => hk z (by simp [hz]))
          (by simpa using hn) ((g.trans g1).trans g2) e
        refine ⟨(g1.trans g2).trans g3, (.atom a, v') :: zs, by simp, by simp [hz], ?_, (a, t) :: ts,
          .cons d1 d5, .cons ((d2.mono g2.extends).mono g3.extends) d6⟩
        intro z hz
        rcases List.mem_cons.mp hz with rfl | hz
        · exact ⟨fun b e => (by cases e), (n1.later g2).later g3⟩
        · exact ⟨((n3 z hz).1.earlier g2).earlier g1, ((n3 z hz).2.earlier g2).earlier g1⟩

theorem getElem?_push_last (h : Heap) (o : HObj) : (h ++ [o])[h.length]? = some o := by
  rw [List.getElem?_append_right (Nat.le_refl _)]
  simp

theorem deepcopy_spec {base : Heap} (hg : GoodHeap base) : ∀ (n : Nat) (x : HVal) (h : Heap) (y : HVal)
    (h' : Heap), OldVal base x → Grown base h → deepcopy n x h = .ok (y, h') → CopiesTo base x h y h' := by
  intro n
  induction n with
  | zero => intro x h y h' _ _ e; cases e
  | succ n ih =>
    intro x h y h' ho g e
    cases x with
    | atom a =>
      simp only [deepcopy, Except.ok.injEq, Prod.mk.injEq] at e
      obtain ⟨rfl, rfl⟩ := e
      exact ⟨Grown.refl _, fun b e => (by cases e), .atom a, .atom a, .atom a⟩
    | other i => cases e
    | ref a =>
      have ha := ho a rfl
      have hget : h[a]? = base[a]? := by
        obtain ⟨new, rfl⟩ := g.pre
        rw [List.getElem?_append_left ha]
      simp only [deepcopy] at e
      rw [hget] at e
      cases hb : base[a]? with
      | none => rw [hb] at e; cases e
      | some o =>
        rw [hb] at e
        have hmem : o ∈ base := List.mem_of_getElem? hb
        cases o with
        | list items =>
          simp only at e
          cases h1 : copyItems (deepcopy n) items h with
          | error e' => rw [h1] at e; cases e
          | ok p =>
            obtain ⟨ys, hm⟩ := p
            rw [h1] at e
            simp only [Except.ok.injEq, Prod.mk.injEq] at e
            obtain ⟨rfl, rfl⟩ := e
            obtain ⟨g1, n1, ts, d1, d2⟩ := copyItems_spec (base := base) ih items h ys hm
              (fun z hz b e => hg.refs _ hmem b (by subst e; exact hz)) g h1
            have g2 : Grown h (hm ++ [.list ys]) := g1.push _ n1 (by intro i e; cases e)
            refine ⟨g2, ?_, .list ts, .list hb d1, .list (getElem?_push_last _ _) (d2.mono ?_)⟩
            · intro b e
              cases e
              exact ⟨g1.le, by simp⟩
            · intro b o hbo
              rw [List.getElem?_append_left (List.getElem?_eq_some_iff.mp hbo).1]
              exact hbo
        | dict items =>
          simp only at e
          cases h1 : copyEntries (deepcopy n) items [] h with
          | error e' => rw [h1] at e; cases e
          | ok p =>
            obtain ⟨ys, hm⟩ := p
            rw [h1] at e
            simp only [Except.ok.injEq, Prod.mk.injEq] at e
            obtain ⟨rfl, rfl⟩ := e
            obtain ⟨g1, zs, hzs, hz, n1, ts, d1, d2⟩ := copyEntries_spec (base := base) ih items [] h ys hm
              (fun z hz b e => hg.refs _ hmem b (by
                simp only [contents, List.mem_append, List.mem_map]
                exact .inr ⟨z, hz, e⟩)) (hg.hashable items hmem) (by simpa using hg.keys items hmem) g h1
            rw [List.nil_append] at hzs
            subst hzs
            have g2 : Grown h (hm ++ [.dict ys]) := g1.push _ (by
                intro v hv
                simp only [contents, List.mem_append, List.mem_map] at hv
                rcases hv with ⟨p, hp, rfl⟩ | ⟨p, hp, rfl⟩
                · exact (n1 p hp).1
                · exact (n1 p hp).2) (by
                  intro i e
                  cases e
                  rw [hz]
                  exact hg.keys items hmem)
            refine ⟨g2, ?_, .dict ts, .dict hb d1, .dict (getElem?_push_last _ _) (d2.mono ?_)⟩
            · intro b e
              cases e
              exact ⟨g1.le, by simp⟩
            · intro b o hbo
              rw [List.getElem?_append_left (List.getElem?_eq_some_iff.mp hbo).1]
              exact hbo

/-! ### The copy -/

/-- **C59** (value).  If the copy is made, the original was a finite nested value of the
supported types and the copy is the same value; everything that existed before is
as it was. -/
theorem C59_value {h : Heap} (hg : GoodHeap h) (limit : Nat) {x : HVal} (hx : ∀ a, x = .ref a → a < h.length)
    {y : HVal} {h' : Heap} (hcopy : deepcopy limit x h = .ok (y, h')) :
    (∃ t, HDenotes h x t ∧ HDenotes h' x t ∧ HDenotes h' y t) ∧ ∀ a, a < h.length → h'[a]? = h[a]? := by
  obtain ⟨g, _, t, d1, d2⟩ := deepcopy_spec hg limit x h y h' hx (Grown.refl _) hcopy
  refine ⟨⟨t, d1, d1.mono g.extends, d2⟩, ?_⟩
  intro a ha
  obtain ⟨new, rfl⟩ := g.pre
  rw [List.getElem?_append_left ha]

mutual
theorem depth_pos : ∀ t : Tree, 0 < t.depth
  | .atom _ => by simp [Tree.depth]
  | .list _ => by simp only [Tree.depth]; omega
  | .dict _ => by simp only [Tree.depth]; omega
end

theorem Spec.HDenotes.old {h : Heap} {x : HVal} {t : Tree} (hd : HDenotes h x t) : OldVal h x := by
  intro a e
  subst e
  cases hd with
  | list ho _ => exact (List.getElem?_eq_some_iff.mp ho).1
  | dict ho _ => exact (List.getElem?_eq_some_iff.mp ho).1

theorem copyItems_ok {n : Nat} {base : Heap} (hg : GoodHeap base)
    (ih : ∀ x t h, HDenotes base x t → t.depth ≤ n → Grown base h → ∃ y h', deepcopy n x h = .ok (y, h')) :
    ∀ (xs : List HVal) (ts : List Tree) (h : Heap), DenoteItems base xs ts → depthItems ts ≤ n → Grown base h →
      ∃ ys h', copyItems (deepcopy n) xs h = .ok (ys, h') := by
  intro xs
  induction xs with
  | nil => intro ts h _ _ _; exact ⟨[], h, rfl⟩
  | cons x xs ihx =>
    intro ts h hd hn g
    cases hd with
    | cons hd hs =>
      simp only [depthItems] at hn
      obtain ⟨y, h1, e1⟩ := ih x _ h hd (by omega) g
      have g1 := (deepcopy_spec hg n x h y h1 hd.old g e1).1
      obtain ⟨ys, h2, e2⟩ := ihx _ h1 hs (by omega) (g.trans g1)
      exact ⟨y :: ys, h2, by simp only [copyItems, e1, e2]⟩

theorem copyEntries_ok {n : Nat} {base : Heap} (hg : GoodHeap base)
    (ih : ∀ x t h, HDenotes base x t → t.depth ≤ n → Grown base h → ∃ y h', deepcopy n x h = .ok (y, h')) :
    ∀ (xs acc : List (HVal × HVal)) (ts : List (Atom × Tree)) (h : Heap), DenoteEntries base xs ts →
      depthEntries ts ≤ n → Grown base h →
      ∃ ys h', copyEntries (deepcopy n) xs acc h = .ok (ys, h') := by
  intro xs
  induction xs with
  | nil => intro acc ts h _ _ _; exact ⟨acc, h, rfl⟩
  | cons x xs ihx =>
    intro acc ts h hd hn g
    cases hd with
    | @cons k v t _ ts hd hs =>
      simp only [depthEntries] at hn
      obtain ⟨y, h1, e1⟩ := ih v _ h hd (by omega) g
      have g1 := (deepcopy_spec hg n v h y h1 hd.old g e1).1
      have hn1 : 1 ≤ n := by have := depth_pos t; omega
      obtain ⟨m, rfl⟩ : ∃ m, n = m + 1 := ⟨n - 1, by omega⟩
      have e2 : deepcopy (m + 1) (.atom k) h1 = .ok (.atom k, h1) := rfl
      obtain ⟨ys, h2, e3⟩ := ihx (hset acc (.atom k) y) _ h1 hs (by omega) (g.trans g1)
      exact ⟨ys, h2, by simp only [copyEntries, e1, e2, e3]⟩

theorem deepcopy_ok {base : Heap} (hg : GoodHeap base) : ∀ (n : Nat) (x : HVal) (t : Tree) (h : Heap),
    HDenotes base x t → t.depth ≤ n → Grown base h → ∃ y h', deepcopy n x h = .ok (y, h') := by
  intro n
  induction n with
  | zero => intro x t h _ hn _; have := depth_pos t; omega
  | succ n ih =>
    intro x t h hd hn g
    cases hd with
    | atom a => exact ⟨.atom a, h, rfl⟩
    | list ho hi =>
      simp only [Tree.depth] at hn
      obtain ⟨ys, h1, e⟩ := copyItems_ok hg ih _ _ h hi (by omega) g
      have := g.extends _ _ ho
      exact ⟨_, _, by simp only [deepcopy, this, e]; rfl⟩
    | dict ho hi =>
      simp only [Tree.depth] at hn
      obtain ⟨ys, h1, e⟩ := copyEntries_ok hg ih _ [] _ h hi (by omega) g
      have := g.extends _ _ ho
      exact ⟨_, _, by simp only [deepcopy, this, e]; rfl⟩

/-- **C59** (totality).  Every finite nested value of the supported types that is not
nested more deeply than the recursion limit is copied. -/
theorem C59_copied {h : Heap} (hg : GoodHeap h) (limit : Nat) {x : HVal} {t : Tree} (hx : HDenotes h x t)
    (hd : t.depth ≤ limit) : ∃ y h', deepcopy limit x h = .ok (y, h') :=
  deepcopy_ok hg limit x t h hx hd (Grown.refl _)

theorem denoteItems_mem {h : Heap} {vs : List HVal} {ts : List Tree} (hd : DenoteItems h vs ts) :
    ∀ v ∈ vs, ∃ t, HDenotes h v t ∧ t.depth ≤ depthItems ts := by
  induction vs generalizing ts with
  | nil => intro v hv; cases hv
  | cons w vs ih =>
    cases hd with
    | cons hd hs =>
      intro v hv
      simp only [depthItems]
      rcases List.mem_cons.mp hv with rfl | hv
      · exact ⟨_, hd, by omega⟩
      · obtain ⟨t, h1, h2⟩ := ih hs v hv
        exact ⟨t, h1, by omega⟩

theorem depthEntries_pos (ts : List (Atom × Tree)) : 1 ≤ depthEntries ts := by
  induction ts with
  | nil => simp [depthEntries]
  | cons p ts ih => obtain ⟨k, t⟩ := p; simp only [depthEntries]; omega

theorem denoteEntries_mem {h : Heap} {vs : List (HVal × HVal)} {ts : List (Atom × Tree)}
    (hd : DenoteEntries h vs ts) :
    ∀ p ∈ vs, (∃ k, p.1 = .atom k) ∧ ∃ t, HDenotes h p.2 t ∧ t.depth ≤ depthEntries ts := by
  induction vs generalizing ts with
  | nil => intro v hv; cases hv
  | cons w vs ih =>
    cases hd with
    | cons hd hs =>
      intro v hv
      simp only [depthEntries]
      rcases List.mem_cons.mp hv with rfl | hv
      · exact ⟨⟨_, rfl⟩, _, hd, by omega⟩
      · obtain ⟨hk, t, h1, h2⟩ := ih hs v hv
        exact ⟨hk, t, h1, by omega⟩

theorem denotes_inside {h : Heap} {a : Nat} {t : Tree} {o : HObj} (hd : HDenotes h (.ref a) t)
    (ho : h[a]? = some o) {w : HVal} (hw : w ∈ contents o) : ∃ t', HDenotes h w t' ∧ t'.depth < t.depth := by
  cases hd with
  | list ho' hi =>
    rw [ho] at ho'; cases ho'
    obtain ⟨t', h1, h2⟩ := denoteItems_mem hi w hw
    exact ⟨t', h1, by simp only [Tree.depth]; omega⟩
  | @dict _ items ts ho' hi =>
    rw [ho] at ho'; cases ho'
    simp only [contents, List.mem_append, List.mem_map] at hw
    rcases hw with ⟨p, hp, rfl⟩ | ⟨p, hp, rfl⟩
    · obtain ⟨⟨k, hk⟩, _⟩ := denoteEntries_mem hi p hp
      refine ⟨.atom k, by rw [hk]; exact .atom k, ?_⟩
      have := depthEntries_pos ts
      simp only [Tree.depth]; omega
    · obtain ⟨_, t', h1, h2⟩ := denoteEntries_mem hi p hp
      exact ⟨t', h1, by simp only [Tree.depth]; omega⟩

theorem denotes_reach {h : Heap} {v : HVal} {t : Tree} (hd : HDenotes h v t) {a : Nat} (hr : HReach h v a) :
    ∃ t', HDenotes h (.ref a) t' ∧ t'.depth ≤ t.depth := by
  induction hr with
  | here e => subst e; exact ⟨t, hd, Nat.le_refl _⟩
  | step hr ho hb ih =>
    obtain ⟨t1, h1, h2⟩ := ih
    obtain ⟨t2, h3, h4⟩ := denotes_inside h1 ho hb
    exact ⟨t2, h3, by omega⟩

/-- **C59** (refusal).  A value of any other type, anywhere inside, is refused. -/
theorem C59_unsupported {h : Heap} (hg : GoodHeap h) (limit : Nat) {x : HVal}
    (hx : ∀ a, x = .ref a → a < h.length)
    (hbad : (∃ i, x = .other i) ∨ ∃ a o i, HReach h x a ∧ h[a]? = some o ∧ .other i ∈ contents o) :
    ∃ e, deepcopy limit x h = .error e := by
  cases hc : deepcopy limit x h with
  | error e => exact ⟨e, rfl⟩
  | ok p =>
    obtain ⟨y, h'⟩ := p
    obtain ⟨⟨t, d, _, _⟩, _⟩ := C59_value hg limit hx hc
    rcases hbad with ⟨i, rfl⟩ | ⟨a, o, i, hr, ho, hi⟩
    · cases d
    · obtain ⟨t1, h1, _⟩ := denotes_reach d hr
      obtain ⟨t2, h2, _⟩ := denotes_inside h1 ho hi
      cases h2

/-- **C59** (refusal).  A value that contains itself is refused. -/
theorem C59_cyclic {h : Heap} (hg : GoodHeap h) (limit : Nat) {x : HVal}
    (hx : ∀ a, x = .ref a → a < h.length) {a b : Nat} {o : HObj} (hr : HReach h x a)
    (ho : h[a]? = some o) (hb : .ref b ∈ contents o) (hcycle : HReach h (.ref b) a) :
    ∃ e, deepcopy limit x h = .error e := by
  cases hc : deepcopy limit x h with
  | error e => exact ⟨e, rfl⟩
  | ok p =>
    obtain ⟨y, h'⟩ := p
    obtain ⟨⟨t, d, _, _⟩, _⟩ := C59_value hg limit hx hc
    obtain ⟨t1, h1, _⟩ := denotes_reach d hr
    obtain ⟨t2, h2, h3⟩ := denotes_inside h1 ho hb
    obtain ⟨t3, h4, h5⟩ := denotes_reach h2 hcycle
    rw [HDenotes.unique h4 h1] at h5
    omega

/-! ### Later changes -/

/-- The objects that a part of the program can reach. -/
def CanReach (s : Two) (w : Holder) (a : Nat) : Prop := ∃ v, s.holds w v ∧ HReach s.heap v a

theorem reach_of_unchanged {h h' : Heap} {v : HVal} (hu : ∀ a, HReach h v a → h'[a]? = h[a]?) {a : Nat}
    (hr : HReach h' v a) : HReach h v a := by
  induction hr with
  | here e => exact .here e
  | step hr ho hb ih =>
    rw [hu _ ih] at ho
    exact .step ih ho hb

theorem reach_trans {h : Heap} {v : HVal} {a b : Nat} (h1 : HReach h v a) (h2 : HReach h (.ref a) b) :
    HReach h v b := by
  induction h2 with
  | here e => cases e; exact h1
  | step hr ho hb ih => exact .step ih ho hb

theorem reach_inside {h : Heap} {a : Nat} {o : HObj} (ho : h[a]? = some o) {w : HVal} (hw : w ∈ contents o)
    {b : Nat} (hb : HReach h w b) : HReach h (.ref a) b := by
  induction hb with
  | here e => subst e; exact .step (.here rfl) ho hw
  | step _ ho' hb ih => exact .step ih ho' hb

mutual
theorem Spec.HDenotes.kept {h h' : Heap} {v : HVal} {t : Tree} (hd : HDenotes h v t)
    (hu : ∀ a, HReach h v a → h'[a]? = h[a]?) : HDenotes h' v t := by
  match hd with
  | .atom a => exact .atom a
  | .list ho hi =>
    exact .list (by rw [hu _ (.here rfl)]; exact ho) (DenoteItems.kept hi fun w hw a ha =>
      hu a (reach_inside ho hw ha))
  | .dict ho hi =>
    exact .dict (by rw [hu _ (.here rfl)]; exact ho) (DenoteEntries.kept hi fun w hw a ha =>
      hu a (reach_inside ho (by
        simp only [contents, List.mem_append, List.mem_map]
        exact .inr ⟨w, hw, rfl⟩) ha))
theorem Spec.DenoteItems.kept {h h' : Heap} {v : List HVal} {t : List Tree} (hd : DenoteItems h v t)
    (hu : ∀ w ∈ v, ∀ a, HReach h w a → h'[a]? = h[a]?) : DenoteItems h' v t := by
  match hd with
  | .nil => exact .nil
  | .cons h1 h2 =>
    exact .cons (HDenotes.kept h1 (hu _ (by simp))) (DenoteItems.kept h2 fun w hw => hu w (by simp [hw]))
theorem Spec.DenoteEntries.kept {h h' : Heap} {v : List (HVal × HVal)} {t : List (Atom × Tree)}
    (hd : DenoteEntries h v t)
    (hu : ∀ w ∈ v, ∀ a, HReach h w.2 a → h'[a]? = h[a]?) : DenoteEntries h' v t := by
  match hd with
  | .nil => exact .nil
  | .cons h1 h2 =>
    exact .cons (HDenotes.kept h1 (hu _ (List.mem_cons_self ..))) (DenoteEntries.kept h2 fun w hw => hu w (by simp [hw]))
end

/-- The two parts of the program have nothing in common. -/
structure Apart (s : Two) : Prop where
  apart : ∀ a, CanReach s .ofCopy a → ¬ CanReach s .ofRest a
  live : ∀ w a, CanReach s w a → a < s.heap.length

def Spec.Holder.other : Holder → Holder
  | .ofCopy => .ofRest
  | .ofRest => .ofCopy

theorem Apart.not {s : Two} (hs : Apart s) {w : Holder} {a : Nat} (h1 : CanReach s w a)
    (h2 : CanReach s w.other a) : False := by
  cases w
  · exact hs.apart a h1 h2
  · exact hs.apart a h2 h1

/-- If the one that acts can reach nothing but what it could reach and new objects, and
what the other one can reach is as it was, they stay apart. -/
theorem Apart.next {s s' : Two} (hs : Apart s) (w : Holder) (hle : s.heap.length ≤ s'.heap.length)
    (hw : ∀ a, CanReach s' w a → CanReach s w a ∨ (s.heap.length ≤ a ∧ a < s'.heap.length))
    (ho : ∀ a, CanReach s' w.other a → CanReach s w.other a) : Apart s' := by
  have key : ∀ a, CanReach s' w a → CanReach s' w.other a → False := by
    intro a h1 h2
    have h2 := ho a h2
    rcases hw a h1 with h1 | h1
    · exact hs.not h1 h2
    · have := hs.live _ _ h2; omega
  refine ⟨?_, ?_⟩
  · intro a h1 h2
    cases w
    · exact key a h1 h2
    · exact key a h2 h1
  · intro w' a h
    by_cases hww : w' = w
    · subst hww
      rcases hw a h with h1 | h1
      · have := hs.live _ _ h1; omega
      · exact h1.2
    · have : w' = w.other := by cases w <;> cases w' <;> first | rfl | exact absurd rfl hww
      subst this
      have := hs.live _ _ (ho a h); omega

theorem Apart.step {s s' : Two} {w : Holder} (hs : Apart s) (hstep : Step w s s') :
    Apart s' ∧ (∀ v, s'.holds w.other v ↔ s.holds w.other v) ∧
      (∀ v, s.holds w v → s'.holds w v) ∧
      (∀ a, CanReach s w.other a → s'.heap[a]? = s.heap[a]?) := by
  have hne : w.other ≠ w := by cases w <;> decide
  have hkeep : ∀ (s' : Two), (∀ v, s'.holds w.other v ↔ s.holds w.other v) →
      (∀ a, CanReach s w.other a → s'.heap[a]? = s.heap[a]?) →
      ∀ a, CanReach s' w.other a → CanReach s w.other a := by
    rintro s' h1 h2 a ⟨v, hv, hr⟩
    have hv := (h1 v).mp hv
    exact ⟨v, hv, reach_of_unchanged (fun b hb => h2 b ⟨v, hv, hb⟩) hr⟩
  cases hstep with
  | atom a =>
    have hh : ∀ v, (s.holds w.other v ∨ (w.other = w ∧ v = .atom a)) ↔ s.holds w.other v :=
      fun v => ⟨fun h => h.elim id fun h => absurd h.1 hne, .inl⟩
    refine ⟨hs.next w (Nat.le_refl _) ?_ (hkeep _ hh fun _ _ => rfl), hh, fun _ => .inl, fun _ _ => rfl⟩
    rintro b ⟨v, hv | ⟨_, rfl⟩, hr⟩
    · exact .inl ⟨v, hv, hr⟩
    · exfalso
      induction hr with
      | here e => cases e
      | step _ _ _ ih => exact ih
  | @load a o u hh ho hu =>
    have hh' : ∀ v, (s.holds w.other v ∨ (w.other = w ∧ v = u)) ↔ s.holds w.other v :=
      fun v => ⟨fun h => h.elim id fun h => absurd h.1 hne, .inl⟩
    refine ⟨hs.next w (Nat.le_refl _) ?_ (hkeep _ hh' fun _ _ => rfl), hh', fun _ => .inl, fun _ _ => rfl⟩
    rintro b ⟨v, hv | ⟨_, rfl⟩, hr⟩
    · exact .inl ⟨v, hv, hr⟩
    · refine .inl ⟨.ref a, hh, ?_⟩
      induction hr with
      | here e => subst e; exact .step (.here rfl) ho hu
      | step _ ho' hb ih => exact .step ih ho' hb
  | make o hc =>
    have hh : ∀ v, (s.holds w.other v ∨ (w.other = w ∧ v = .ref s.heap.length)) ↔ s.holds w.other v :=
      fun v => ⟨fun h => h.elim id fun h => absurd h.1 hne, .inl⟩
    have hold : ∀ w a, CanReach s w a → (s.heap ++ [o])[a]? = s.heap[a]? := by
      intro w a ha
      rw [List.getElem?_append_left (hs.live _ _ ha)]
    refine ⟨hs.next w (by simp) ?_ (hkeep _ hh (hold _)), hh, fun _ => .inl, hold _⟩
    rintro b ⟨v, hv, hr⟩
    replace hv : s.holds w v ∨ v = .ref s.heap.length := hv.imp id And.right
    replace hr : HReach (s.heap ++ [o]) v b := hr
    show CanReach s w b ∨ (s.heap.length ≤ b ∧ b < (s.heap ++ [o]).length)
    induction hr with
    | here e =>
      rcases hv with hv | hv
      · exact .inl ⟨_, hv, .here e⟩
      · rw [hv] at e; cases e; exact .inr ⟨Nat.le_refl _, by simp⟩
    | @step c d o' hr' ho' hb ih =>
      rcases ih with hc1 | ⟨h1, h2⟩
      · rw [hold _ _ hc1] at ho'
        obtain ⟨u, hu, hur⟩ := hc1
        exact .inl ⟨u, hu, .step hur ho' hb⟩
      · have : c = s.heap.length := by simp at h2; omega
        subst this
        rw [getElem?_push_last] at ho'
        cases ho'
        exact .inl ⟨_, hc _ hb, .here rfl⟩
  | @change a o new hh ho hc =>
    have hreach : CanReach s w a := ⟨_, hh, .here rfl⟩
    have hold : ∀ b, CanReach s w.other b → (s.heap.set a new)[b]? = s.heap[b]? := by
      intro b hb
      have : a ≠ b := by rintro rfl; exact hs.not hreach hb
      rw [List.getElem?_set_ne this]
    have hlen : a < s.heap.length := (List.getElem?_eq_some_iff.mp ho).1
    refine ⟨hs.next w (by simp) ?_ (hkeep _ (fun _ => Iff.rfl) hold), fun _ => Iff.rfl, fun _ => id, hold⟩
    rintro b ⟨v, hv, hr⟩
    refine .inl ?_
    replace hr : HReach (s.heap.set a new) v b := hr
    replace hv : s.holds w v := hv
    induction hr with
    | here e => exact ⟨_, hv, .here e⟩
    | @step c d o' hr' ho' hb ih =>
      by_cases hca : a = c
      · subst hca
        rw [List.getElem?_set_self hlen] at ho'
        cases ho'
        rcases hc _ hb with h1 | h1
        · exact ⟨_, h1, .here rfl⟩
        · exact ⟨_, hh, .step (.here rfl) ho h1⟩
      · rw [List.getElem?_set_ne hca] at ho'
        obtain ⟨u, hu, hur⟩ := ih
        exact ⟨u, hu, .step hur ho' hb⟩

theorem Apart.run {who : Holder → Prop} {s s' : Two} (hs : Apart s) (hr : Run who s s') : Apart s' := by
  induction hr with
  | refl => exact hs
  | tail _ _ hstep ih => exact (ih.step hstep).1

theorem Apart.run_of {w : Holder} {s s' : Two} (hs : Apart s) (hr : Run (· = w) s s') :
    (∀ v, s.holds w.other v → s'.holds w.other v) ∧
      (∀ a, CanReach s w.other a → s'.heap[a]? = s.heap[a]? ∧ CanReach s' w.other a) := by
  induction hr with
  | refl => exact ⟨fun _ => id, fun a ha => ⟨rfl, ha⟩⟩
  | @tail t u w' hr hw hstep ih =>
    subst hw
    obtain ⟨h1, h2⟩ := ih
    obtain ⟨_, h4, _, h6⟩ := (hs.run hr).step hstep
    refine ⟨fun v hv => (h4 v).mpr (h1 v hv), fun a ha => ?_⟩
    obtain ⟨e, hc⟩ := h2 a ha
    refine ⟨by rw [h6 a hc, e], ?_⟩
    obtain ⟨v, hv, hr'⟩ := hc
    refine ⟨v, (h4 v).mpr hv, ?_⟩
    clear e ha
    have hall : ∀ b, HReach t.heap v b → u.heap[b]? = t.heap[b]? := fun b hb => h6 b ⟨v, hv, hb⟩
    exact reach_of_unchanged (h := u.heap) (h' := t.heap)
      (fun b hb => (hall b (reach_of_unchanged hall hb)).symm) hr'

theorem afterCopy_apart {h : Heap} (hg : GoodHeap h) {limit : Nat} {x : HVal}
    (hx : ∀ a, x = .ref a → a < h.length) {y : HVal} {h' : Heap}
    (hcopy : deepcopy limit x h = .ok (y, h')) : Apart (afterCopy h h' y) := by
  obtain ⟨g, hy, t, d1, d2⟩ := deepcopy_spec hg limit x h y h' hx (Grown.refl _) hcopy
  have h1 : ∀ a, CanReach (afterCopy h h' y) .ofCopy a → h.length ≤ a ∧ a < h'.length := by
    rintro a ⟨v, hv, hr⟩
    replace hv : v = y := hv
    subst hv
    replace hr : HReach h' v a := hr
    induction hr with
    | here e => exact hy _ e
    | step hr ho hb ih => exact g.fresh _ _ ih.1 ho _ hb
  have h2 : ∀ a, CanReach (afterCopy h h' y) .ofRest a → a < h.length := by
    rintro a ⟨v, hv, hr⟩
    replace hv : ∀ a, v = .ref a → a < h.length := hv
    replace hr : HReach h' v a := hr
    induction hr with
    | here e => exact hv _ e
    | @step a b o hr ho hb ih =>
      have ha := ih
      obtain ⟨new, rfl⟩ := g.pre
      rw [List.getElem?_append_left ha] at ho
      exact hg.refs o (List.mem_of_getElem? ho) _ hb
  refine ⟨?_, ?_⟩
  · intro a ha hb
    have := h1 a ha
    have := h2 a hb
    omega
  · intro w a ha
    have := g.le
    cases w
    · exact (h1 a ha).2
    · have := h2 a ha
      show a < h'.length
      omega

/-- **C59**.  Let the holder of the copy and the rest of the program, which holds
everything that existed before, run on in any interleaving.  Whatever one of them
does at any time, everything that the other one can see stays as it is. -/
theorem C59_independent {h : Heap} (hg : GoodHeap h) {limit : Nat} {x : HVal}
    (hx : ∀ a, x = .ref a → a < h.length) {y : HVal} {h' : Heap}
    (hcopy : deepcopy limit x h = .ok (y, h')) {s s' : Two}
    (hrun : Run (fun _ => True) (afterCopy h h' y) s) {w w' : Holder} (hw : w' ≠ w)
    (hmore : Run (· = w) s s') (v : HVal) (hv : s.holds w' v) : Unchanged s.heap s'.heap v := by
  have hs := (afterCopy_apart hg hx hcopy).run hrun
  have : w' = w.other := by cases w <;> cases w' <;> first | rfl | exact absurd rfl hw
  subst this
  intro a ha
  exact ((hs.run_of hmore).2 a ⟨v, hv, ha⟩).1

/-- **C59** (in terms of values).  Changes made through the copy are not seen
through the original, and the other way round. -/
theorem C59_values_kept {h : Heap} (hg : GoodHeap h) {limit : Nat} {x : HVal}
    (hx : ∀ a, x = .ref a → a < h.length) {y : HVal} {h' : Heap}
    (hcopy : deepcopy limit x h = .ok (y, h')) :
    ∃ t, HDenotes h x t ∧
      (∀ s, Run (· = .ofCopy) (afterCopy h h' y) s → HDenotes s.heap x t) ∧
      (∀ s, Run (· = .ofRest) (afterCopy h h' y) s → HDenotes s.heap y t) := by
  obtain ⟨⟨t, d1, d2, d3⟩, _⟩ := C59_value hg limit hx hcopy
  have keep : ∀ {v : HVal} {s : Two}, HDenotes h' v t → Unchanged h' s.heap v → HDenotes s.heap v t :=
    fun hd hu => hd.kept hu
  refine ⟨t, d1, fun s hr => keep d2 ?_, fun s hr => keep d3 ?_⟩
  · exact C59_independent hg hx hcopy (.refl _) (w := .ofCopy) (w' := .ofRest) (by decide) hr x hx
  · exact C59_independent hg hx hcopy (.refl _) (w := .ofRest) (w' := .ofCopy) (by decide) hr y rfl

/-! ### Examples -/

/-- `{'sources': [s, 1], 'again': s}` with `s = ['a.c']`. -/
def exHeap : Heap :=
  [.list [.atom (.str c!"a.c")], .list [.ref 0, .atom (.int 1)],
   .dict [(.atom (.str c!"sources"), .ref 1), (.atom (.str c!"again"), .ref 0)]]

def exHeapCopy : Heap :=
  exHeap ++ [.list [.atom (.str c!"a.c")], .list [.ref 3, .atom (.int 1)], .list [.atom (.str c!"a.c")],
    .dict [(.atom (.str c!"sources"), .ref 4), (.atom (.str c!"again"), .ref 5)]]

example : GoodHeap exHeap := by
  refine ⟨?_, ?_, ?_⟩
  · intro o ho a ha
    simp only [exHeap, List.mem_cons, List.not_mem_nil, or_false] at ho
    rcases ho with rfl | rfl | rfl <;> simp [contents] at ha <;> simp [exHeap] <;> omega
  · intro items hi
    simp [exHeap] at hi
    subst hi
    decide
  · intro items hi p hp a
    simp [exHeap] at hi
    subst hi
    simp at hp
    rcases hp with rfl | rfl <;> simp

example : deepcopy 4 (.ref 2) exHeap = .ok (.ref 6, exHeapCopy) := by decide +kernel

example : deepcopy 3 (.ref 2) exHeap = .error .recursion := by decide +kernel

example : HDenotes exHeap (.ref 2) (.dict
    [(.str c!"sources", .list [.list [.atom (.str c!"a.c")], .atom (.int 1)]),
     (.str c!"again", .list [.atom (.str c!"a.c")])]) :=
  .dict (items := [(.atom (.str c!"sources"), .ref 1), (.atom (.str c!"again"), .ref 0)]) rfl
    (.cons (.list (items := [.ref 0, .atom (.int 1)]) rfl
      (.cons (.list (items := [.atom (.str c!"a.c")]) rfl (.cons (.atom _) .nil)) (.cons (.atom _) .nil)))
     (.cons (.list (items := [.atom (.str c!"a.c")]) rfl (.cons (.atom _) .nil)) .nil))

/-- `copy['sources'].append('b.c')` is a run of the holder of the copy. -/
example : ∃ s, Run (· = Holder.ofCopy) (afterCopy exHeap exHeapCopy (.ref 6)) s ∧
    s.heap[4]? = some (.list [.ref 3, .atom (.int 1), .atom (.str c!"b.c")]) := by
  refine ⟨_, .tail (.tail (.tail (.refl _) rfl (.load _ (a := 6) rfl rfl (v := .ref 4) ?_)) rfl
    (.atom _ (.str c!"b.c"))) rfl
    (.change _ (a := 4) (.list [.ref 3, .atom (.int 1), .atom (.str c!"b.c")]) ?_ rfl ?_), ?_⟩
  · decide +kernel
  · exact .inl (.inr ⟨rfl, rfl⟩)
  · intro v hv
    simp only [contents, List.mem_cons, List.not_mem_nil, or_false] at hv
    rcases hv with rfl | rfl | rfl
    · exact .inr (by decide +kernel)
    · exact .inr (by decide +kernel)
    · exact .inl (.inr ⟨rfl, rfl⟩)
  · rfl

/-- A list that contains itself is refused. -/
example : deepcopy 100 (.ref 0) [.list [.ref 0]] = .error .recursion := by decide +kernel

example : deepcopy 100 (.ref 0) [.list [.other 7]] = .error .unsupported := by decide +kernel

end Gyp
