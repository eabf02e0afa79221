import Verif.Props.DepOrder
/-
Proofs about the queries on one node of an accepted dependency graph.
-/
namespace Gyp
open Spec

/-- What an accepted graph looks like. -/
structure Accepted (targets : Targets) (g : DepGraph) (flat : List Str) : Prop where
  ok : GraphOK g targets.names targets.edges
  nodup : flat.Nodup
  mem : ∀ t, t ∈ flat ↔ t ∈ targets.names
  order : ∀ t d, d ∈ targets.edges t → Before flat d t

theorem build_accepted {targets : Targets} (hn : targets.names.Nodup) {fuel : Nat} {g : DepGraph}
    {flat : List Str} (h : BuildDependencyList targets fuel = .ok (g, flat)) :
    Accepted targets g flat := by
  obtain ⟨h1, h2, h3⟩ := C10_order targets hn fuel g flat h
  refine ⟨?_, h1, h2, fun t d hd => h3 t d ((Targets.mem_edges hn t d).mp hd)⟩
  unfold BuildDependencyList at h
  cases hl : linkTargets targets with
  | error e => rw [hl] at h; cases h
  | ok g0 =>
    rw [hl] at h
    obtain ⟨g1, hg1, hinv⟩ := linkTargets_ok targets hn
      (fun e he d hd => linkTargets_known hl e.1 e.2 he d hd)
    rw [hl] at hg1
    obtain rfl := Except.ok.inj hg1
    have hok := graphOK_of_linv hn hinv
    simp only [bind, Except.bind] at h
    cases hf : FlattenToList g0 fuel with
    | none => rw [hf] at h; cases h
    | some r =>
      rw [hf] at h
      simp only at h
      by_cases hlen : r.length ≠ targets.length
      · rw [if_pos hlen] at h; cases h
      · rw [if_neg hlen] at h
        have := (Prod.mk.inj (Except.ok.inj h)).1
        rw [← this]; exact hok

theorem Accepted.length {targets : Targets} {g : DepGraph} {flat : List Str}
    (h : Accepted targets g flat) (hn : targets.names.Nodup) : flat.length = targets.length := by
  have h1 := nodup_length_le h.nodup (U := targets.names) (fun t ht => (h.mem t).mp ht)
  have h2 := nodup_length_le hn (U := flat) (fun t ht => (h.mem t).mpr ht)
  have h3 : targets.names.length = targets.length := by simp [Targets.names]
  omega

theorem Accepted.idx_lt {targets : Targets} {g : DepGraph} {flat : List Str}
    (h : Accepted targets g flat) (hn : targets.names.Nodup) {t : Str} (ht : t ∈ targets.names) :
    flat.idxOf t < targets.length := by
  rw [← h.length hn]
  exact List.idxOf_lt_length_of_mem ((h.mem t).mpr ht)

theorem Accepted.edge_mem {targets : Targets} {g : DepGraph} {flat : List Str}
    (h : Accepted targets g flat) {t d : Str} (hd : d ∈ targets.edges t) : d ∈ targets.names :=
  (h.mem d).mp (h.order t d hd).mem_left

/-! ### Deep dependencies -/

/-- A list that contains, before each element, everything the element depends on. -/
structure DInv (edges : Str → List Str) (l : List Str) : Prop where
  nodup : l.Nodup
  order : ∀ x ∈ l, ∀ y ∈ edges x, Before l y x

theorem DInv.add {edges : Str → List Str} {l : List Str} (h : DInv edges l) (r : Str)
    (hr : ∀ y ∈ edges r, y ∈ l) : DInv edges (listAdd l r) := by
  by_cases hm : r ∈ l
  · rwa [listAdd_of_mem hm]
  · refine ⟨listAdd_nodup r h.nodup, ?_⟩
    rw [listAdd_of_notMem hm]
    intro x hx y hy
    rcases List.mem_append.mp hx with hx | hx
    · exact (h.order x hx y hy).append_right _
    · rw [List.mem_singleton] at hx
      subst hx
      exact Before.split (hr y hy) (by simp)

/-- The step of the loop of `DeepDependencies`. -/
def deepStep (g : DepGraph) (fuel : Nat) (deps : List Str) (dependency : Node) :
    Option (List Str) :=
  match dependency with
  | none => some deps
  | some r =>
    if r ∈ deps then some deps
    else (DeepDependencies g fuel (some r) deps).map fun deps' => listAdd deps' r

theorem DeepDependencies_succ (g : DepGraph) (fuel : Nat) (n : Node) (deps : List Str) :
    DeepDependencies g (fuel + 1) n deps = (g.dependencies n).foldlM (deepStep g fuel) deps := rfl

theorem deep_post {targets : Targets} {g : DepGraph} {flat : List Str}
    (h : Accepted targets g flat) (fuel : Nat) (t : Str)
    (ht : t ∈ targets.names) (hf : flat.idxOf t < fuel) (deps : List Str)
    (hd : DInv targets.edges deps) :
    ∃ r, DeepDependencies g fuel (some t) deps = some r ∧ DInv targets.edges r ∧
      (∀ x ∈ deps, x ∈ r) ∧ (∀ x ∈ r, x ∈ deps ∨ Reach1 targets.edges t x) ∧
      (∀ d ∈ targets.edges t, d ∈ r) := by
  induction fuel generalizing t deps with
  | zero => omega
  | succ fuel ih =>
    rw [DeepDependencies_succ, h.ok.deps t ht]
    by_cases he : targets.edges t = []
    · rw [if_pos he]
      exact ⟨deps, rfl, hd, fun _ hx => hx, fun _ hx => Or.inl hx, by simp [he]⟩
    · rw [if_neg he]
      have loop : ∀ (l : List Str) (deps : List Str), (∀ d ∈ l, d ∈ targets.edges t) →
          DInv targets.edges deps →
          ∃ r, (l.map some).foldlM (deepStep g fuel) deps = some r ∧ DInv targets.edges r ∧
            (∀ x ∈ deps, x ∈ r) ∧ (∀ x ∈ r, x ∈ deps ∨ Reach1 targets.edges t x) ∧
            (∀ d ∈ l, d ∈ r) := by
        intro l
        induction l with
        | nil => intro deps _ hd; exact ⟨deps, rfl, hd, fun _ hx => hx, fun _ hx => Or.inl hx, by simp⟩
        | cons d l ihl =>
          intro deps hl hd
          have hdt := hl d (by simp)
          have hstep : ∃ r, deepStep g fuel deps (some d) = some r ∧ DInv targets.edges r ∧
              (∀ x ∈ deps, x ∈ r) ∧ (∀ x ∈ r, x ∈ deps ∨ Reach1 targets.edges t x) ∧ d ∈ r := by
            unfold deepStep
            by_cases hm : d ∈ deps
            · simp only [if_pos hm]
              exact ⟨deps, rfl, hd, fun _ hx => hx, fun _ hx => Or.inl hx, hm⟩
            · simp only [if_neg hm]
              have hlt := (h.order t d hdt).idxOf h.nodup
              obtain ⟨r, e, i1, i2, i3, i4⟩ := ih d (h.edge_mem hdt) (by omega) deps hd
              refine ⟨listAdd r d, by rw [e]; rfl, i1.add d i4, ?_, ?_, ?_⟩
              · intro x hx; rw [mem_listAdd]; exact Or.inr (i2 x hx)
              · intro x hx
                rw [mem_listAdd] at hx
                rcases hx with rfl | hx
                · exact Or.inr (.single hdt)
                · rcases i3 x hx with h1 | h1
                  · exact Or.inl h1
                  · exact Or.inr (.head hdt h1)
              · rw [mem_listAdd]; exact Or.inl rfl
          obtain ⟨r1, e1, a1, a2, a3, a4⟩ := hstep
          obtain ⟨r2, e2, b1, b2, b3, b4⟩ := ihl r1 (fun x hx => hl x (by simp [hx])) a1
          refine ⟨r2, ?_, b1, fun x hx => b2 x (a2 x hx), ?_, ?_⟩
          · rw [List.map_cons, List.foldlM_cons, e1]
            exact e2
          · intro x hx
            rcases b3 x hx with h1 | h1
            · exact a3 x h1
            · exact Or.inr h1
          · intro x hx
            rcases List.mem_cons.mp hx with rfl | hx
            · exact b2 _ a4
            · exact b4 x hx
      exact loop _ deps (fun _ hx => hx) hd

/-! ### Imported dependencies -/

theorem direct_eq {targets : Targets} {g : DepGraph}
    (h : GraphOK g targets.names targets.edges) {t : Str} (ht : t ∈ targets.names) :
    DirectDependencies g t = (targets.edges t).foldl listAdd [] := by
  unfold DirectDependencies
  rw [h.deps t ht]
  by_cases he : targets.edges t = []
  · rw [if_pos he, he]; rfl
  · rw [if_neg he]
    congr 1
    induction targets.edges t with
    | nil => rfl
    | cons x xs ih => exact congrArg (x :: ·) ih

theorem insertIdx_length {α : Type} (p q : List α) (x : α) :
    (p ++ q).insertIdx p.length x = p ++ x :: q := by
  induction p with
  | nil => simp
  | cons y ys ih => simp [ih]

/-- Inserting exports puts new entries, which come from the export list, right behind
the exporter. -/
theorem insertImports_spec (index k : Nat) (l p q : List Str) (hp : p.length = index + k)
    (hn : (p ++ q).Nodup) :
    ∃ new, insertImports index k l (p ++ q) = p ++ new ++ q ∧ (p ++ new ++ q).Nodup ∧
      (∀ x ∈ new, x ∈ l) ∧ (∀ x ∈ l, x ∈ p ++ new ++ q) := by
  induction l generalizing k p with
  | nil => exact ⟨[], by simp [insertImports], by simpa using hn, by simp, by simp⟩
  | cons x xs ih =>
    unfold insertImports
    by_cases hx : x ∈ p ++ q
    · rw [if_pos hx]
      obtain ⟨new, e, h1, h2, h3⟩ := ih k p hp hn
      refine ⟨new, e, h1, fun y hy => List.mem_cons_of_mem _ (h2 y hy), ?_⟩
      intro y hy
      rcases List.mem_cons.mp hy with rfl | hy
      · rcases List.mem_append.mp hx with h | h <;> simp [h]
      · exact h3 y hy
    · rw [if_neg hx]
      have hins : (p ++ q).insertIdx (index + k) x = (p ++ [x]) ++ q := by
        rw [← hp, insertIdx_length]
        simp
      rw [hins]
      have hn' : ((p ++ [x]) ++ q).Nodup := by
        have : (x :: (p ++ q)).Nodup := List.nodup_cons.mpr ⟨hx, hn⟩
        refine List.Perm.nodup ?_ this
        simpa using (List.perm_middle (a := x) (l₁ := p) (l₂ := q)).symm
      obtain ⟨new, e, h1, h2, h3⟩ := ih (k + 1) (p ++ [x]) (by simp; omega) hn'
      refine ⟨x :: new, ?_, ?_, ?_, ?_⟩
      · rw [e]; simp
      · simpa using h1
      · intro y hy
        rcases List.mem_cons.mp hy with rfl | hy
        · simp
        · exact List.mem_cons_of_mem _ (h2 y hy)
      · intro y hy
        rcases List.mem_cons.mp hy with rfl | hy
        · simp
        · have := h3 y hy; simpa using this

theorem before_of_sublist {α : Type} {r : List α} {a b : α} (h : [a, b].Sublist r) :
    Before r a b := by
  induction r with
  | nil => simp at h
  | cons x xs ih =>
    cases h with
    | cons _ h => exact (ih h).cons x
    | cons_cons _ h => exact Before.head _ (List.singleton_sublist.mp h)

/-- `e` is declared as re-exported by `d`. -/
def Targets.Exports (ts : Targets) (d e : Str) : Prop := ∃ s, (d, s) ∈ ts ∧ e ∈ s.exports

/-- The direct dependencies of `t` and everything they re-export, over any number of
steps. -/
inductive Targets.Imported (ts : Targets) (t : Str) : Str → Prop where
  | direct {d : Str} (h : ts.DependsOn t d) : Imported ts t d
  | «export» {d e : Str} (h : Imported ts t d) (he : ts.Exports d e) : Imported ts t e

/-- State of the import loop. -/
structure IInv (P : Str → Prop) (ts : Targets) (index : Nat) (deps : List Str) : Prop where
  nodup : deps.Nodup
  sound : ∀ x ∈ deps, P x
  known : ∀ i (h : i < deps.length), i < index → deps[i] ∈ ts.names
  done : ∀ i (h : i < deps.length), i < index → ∀ e, ts.Exports deps[i] e → e ∈ deps
  index_le : index ≤ deps.length

theorem importLoop_spec (P : Str → Prop) (ts : Targets) (hn : ts.names.Nodup)
    (hP : ∀ d e, P d → ts.Exports d e → P e)
    (fuel index : Nat) (deps : List Str)
    (h : IInv P ts index deps) (hf : ts.length < fuel + index) :
    (∃ r, importLoop ts fuel index deps = .ok r ∧ r.Nodup ∧ (∀ x ∈ r, P x ∧ x ∈ ts.names) ∧
      (∀ x ∈ deps, x ∈ r) ∧ (∀ d ∈ r, ∀ e, ts.Exports d e → e ∈ r) ∧ deps.Sublist r ∧
      (∀ x ∈ r, x ∈ deps ∨ ∃ d, ts.Exports d x ∧ Before r d x)) ∨
    (∃ x, importLoop ts fuel index deps = .error (.keyError x) ∧ P x ∧ x ∉ ts.names) := by
  induction fuel generalizing index deps with
  | zero =>
    have h1 := nodup_length_le (l := deps.take index) (U := ts.names)
      (h.nodup.sublist (List.take_sublist _ _)) (by
        intro x hx
        obtain ⟨i, hi, rfl⟩ := List.mem_take_iff_getElem.mp hx
        exact h.known i (by omega) (by omega))
    rw [List.length_take] at h1
    have h2 : ts.names.length = ts.length := by simp [Targets.names]
    have := h.index_le
    omega
  | succ fuel ih =>
    unfold importLoop
    by_cases hi : index < deps.length
    · rw [List.getElem?_eq_getElem hi]
      by_cases hmem : deps[index] ∈ ts.names
      swap
      · right
        refine ⟨deps[index], ?_, h.sound _ (List.getElem_mem hi), hmem⟩
        simp only [(Targets.get?_none (ts := ts) _).mpr hmem]
      obtain ⟨s, hs⟩ := Option.isSome_iff_exists.mp ((Targets.get?_isSome (ts := ts) _).mpr hmem)
      simp only [hs]
      have hsm := (Targets.get?_eq_some hn _ s).mp hs
      -- split the list behind the exporter
      have hsplit : deps = deps.take (index + 1) ++ deps.drop (index + 1) := by simp
      have hlen : (deps.take (index + 1)).length = index + 1 := by simp; omega
      obtain ⟨new, e1, e2, e3, e4⟩ := insertImports_spec index 1 s.exports
        (deps.take (index + 1)) (deps.drop (index + 1)) hlen (by rw [← hsplit]; exact h.nodup)
      rw [← hsplit] at e1
      rw [e1]
      have hPi : P deps[index] := h.sound _ (List.getElem_mem hi)
      have hmemr : ∀ x, x ∈ deps.take (index + 1) ++ new ++ deps.drop (index + 1) ↔
          x ∈ deps ∨ x ∈ new := by
        intro x
        conv_rhs => rw [hsplit]
        simp only [List.mem_append]
        tauto
      have hnext : IInv P ts (index + 1) (deps.take (index + 1) ++ new ++ deps.drop (index + 1)) := by
        refine ⟨e2, ?_, ?_, ?_, ?_⟩
        · intro x hx
          rcases (hmemr x).mp hx with h1 | h1
          · exact h.sound x h1
          · exact hP _ _ hPi ⟨s, hsm, e3 x h1⟩
        · intro i hil hlt
          have hget : (deps.take (index + 1) ++ new ++ deps.drop (index + 1))[i] =
              deps[i]'(by omega) := by
            rw [List.getElem_append_left (by simp; omega),
              List.getElem_append_left (by rw [hlen]; omega), List.getElem_take]
          rw [hget]
          by_cases hii : i < index
          · exact h.known i (by omega) hii
          · have : i = index := by omega
            subst this
            exact hmem
        · intro i hil hlt e he
          have hget : (deps.take (index + 1) ++ new ++ deps.drop (index + 1))[i] =
              deps[i]'(by omega) := by
            rw [List.getElem_append_left (by simp; omega),
              List.getElem_append_left (by rw [hlen]; omega), List.getElem_take]
          rw [hget] at he
          rw [hmemr]
          by_cases hii : i < index
          · exact Or.inl (h.done i (by omega) hii e he)
          · have : i = index := by omega
            subst this
            have : e ∈ s.exports := by
              obtain ⟨s', hs', he'⟩ := he
              have h1 := (Targets.get?_eq_some hn _ s').mpr hs'
              rw [hs] at h1
              obtain rfl := Option.some.inj h1
              exact he'
            rw [← hmemr]
            exact e4 e this
        · simp; omega
      obtain ⟨r, r1, r2, r3, r4, r5, r6, r7⟩ | herr := ih (index + 1) _ hnext (by omega)
      swap
      · exact Or.inr herr
      left
      have hsub : deps.Sublist (deps.take (index + 1) ++ new ++ deps.drop (index + 1)) := by
        conv_lhs => rw [hsplit]
        rw [List.append_assoc]
        exact (List.Sublist.refl _).append (List.sublist_append_right _ _)
      refine ⟨r, r1, r2, r3, fun x hx => r4 x ((hmemr x).mpr (Or.inl hx)), r5, hsub.trans r6, ?_⟩
      intro x hx
      rcases r7 x hx with h1 | h1
      · rcases (hmemr x).mp h1 with h2 | h2
        · exact Or.inl h2
        · right
          refine ⟨deps[index], ⟨s, hsm, e3 x h2⟩, ?_⟩
          have hb : Before (deps.take (index + 1) ++ new ++ deps.drop (index + 1)) deps[index] x := by
            apply Before.append_right
            apply Before.split
            · exact List.mem_take_iff_getElem.mpr ⟨index, by omega, rfl⟩
            · exact h2
          obtain ⟨p, q, t, e⟩ := hb
          have hs1 : [deps[index], x].Sublist r := by
            refine List.Sublist.trans ?_ r6
            rw [e]
            refine List.Sublist.trans ?_ (List.sublist_append_right _ _)
            refine List.Sublist.cons_cons _ ?_
            refine List.Sublist.trans ?_ (List.sublist_append_right _ _)
            simp
          exact before_of_sublist hs1
      · exact Or.inr h1
    · rw [List.getElem?_eq_none (by omega)]
      left
      refine ⟨deps, rfl, h.nodup, ?_, fun _ hx => hx, ?_, List.Sublist.refl _,
        fun _ hx => Or.inl hx⟩
      · intro x hx
        obtain ⟨i, hi', rfl⟩ := List.mem_iff_getElem.mp hx
        exact ⟨h.sound _ hx, h.known i hi' (by omega)⟩
      intro d hd e he
      obtain ⟨i, hi', rfl⟩ := List.mem_iff_getElem.mp hd
      exact h.done i hi' (by omega) e he

/-! ### Link dependencies -/

/-- The target types that are produced by a linker. -/
def linkedProducts : List Str :=
  [c!"executable", c!"shared_library", c!"loadable_module", c!"mac_kernel_extension",
   c!"windows_driver"]

/-- The target types that are never linked into something else. -/
def finalProducts : List Str :=
  [c!"executable", c!"loadable_module", c!"mac_kernel_extension", c!"windows_driver"]

/-- May `b` be linked into something else? -/
def Targets.Linked (ts : Targets) (shared : Bool) (b : Str) : Prop :=
  ∃ s, (b, s) ∈ ts ∧ s.type ∉ finalProducts ∧ (s.type = c!"shared_library" → shared = true)

/-- Are the dependencies of the dependency `a` looked at as well? -/
def Targets.Transparent (ts : Targets) (a : Str) : Prop :=
  ∃ s, (a, s) ∈ ts ∧ s.type ∉ linkedProducts ∧ (s.type = c!"none" → s.traverse = true)

/-- The targets that go into the link of `t`: those that can be linked and are reached
from `t` through targets that are not linked products themselves. -/
inductive Targets.LinkSet (ts : Targets) (shared : Bool) (t : Str) : Str → Prop where
  | self : LinkSet ts shared t t
  | dep {a b : Str} (ha : LinkSet ts shared t a) (hthrough : a = t ∨ ts.Transparent a)
      (hd : ts.DependsOn a b) (hb : ts.Linked shared b) : LinkSet ts shared t b

/-- Everything that `a` contributes is in the list. -/
def LinkClosed (ts : Targets) (shared : Bool) (t : Str) (l : List Str) (a : Str) : Prop :=
  (a = t ∨ ts.Transparent a) → ∀ b, ts.DependsOn a b → ts.Linked shared b → b ∈ l

structure KInv (ts : Targets) (shared : Bool) (t : Str) (stack l : List Str) : Prop where
  nodup : l.Nodup
  sound : ∀ x ∈ l, ts.LinkSet shared t x
  closed : ∀ x ∈ l, x ∈ stack ∨ LinkClosed ts shared t l x
  start : t ∈ l

theorem linkDeps_sub {ts : Targets} {g : DepGraph} {flat : List Str} {shared : Bool}
    (hn : ts.names.Nodup) (h : Accepted ts g flat) (t : Str) (fuel : Nat) (n : Str)
    (hnm : n ∈ ts.names) (hf : flat.idxOf n < fuel) (stack deps : List Str)
    (hinv : KInv ts shared t stack deps)
    (hreach : ∃ a, ts.LinkSet shared t a ∧ (a = t ∨ ts.Transparent a) ∧ ts.DependsOn a n) :
    ∃ r, linkDepsInternal ts g shared fuel false deps (some n) = .ok r ∧
      KInv ts shared t stack r ∧ (∀ x ∈ deps, x ∈ r) ∧ (ts.Linked shared n → n ∈ r) ∧
      (∃ new, r = deps ++ new) := by
  induction fuel generalizing n deps stack with
  | zero => omega
  | succ fuel ih =>
    obtain ⟨s, hs⟩ := Option.isSome_iff_exists.mp ((Targets.get?_isSome (ts := ts) n).mpr hnm)
    have hsm := (Targets.get?_eq_some hn n s).mp hs
    have huniq : ∀ s', (n, s') ∈ ts → s' = s := by
      intro s' hs'
      have := (Targets.get?_eq_some hn n s').mpr hs'
      rw [hs] at this
      exact (Option.some.inj this).symm
    unfold linkDepsInternal
    simp only [hs, Bool.false_and, Bool.false_eq_true, if_false, Bool.not_false, true_and,
      Bool.false_or]
    have hlinkset : ts.Linked shared n → ts.LinkSet shared t n := by
      intro hl
      obtain ⟨a, ha, hth, hd⟩ := hreach
      exact .dep ha hth hd hl
    -- an element that closes at once
    have hadd : ts.Linked shared n → ¬ (n = t ∨ ts.Transparent n) ∨ n ∈ deps →
        KInv ts shared t stack (listAdd deps n) := by
      intro hl hc
      by_cases hm : n ∈ deps
      · rw [listAdd_of_mem hm]; exact hinv
      · have hc := hc.resolve_right hm
        refine ⟨listAdd_nodup _ hinv.nodup, ?_, ?_, ?_⟩
        · intro x hx
          rw [mem_listAdd] at hx
          rcases hx with rfl | hx
          · exact hlinkset hl
          · exact hinv.sound x hx
        · intro x hx
          rw [mem_listAdd] at hx
          rcases hx with rfl | hx
          · exact Or.inr fun hth => absurd hth hc
          · rcases hinv.closed x hx with h1 | h1
            · exact Or.inl h1
            · refine Or.inr fun hth b hb hbl => ?_
              rw [mem_listAdd]; exact Or.inr (h1 hth b hb hbl)
        · rw [mem_listAdd]; exact Or.inr hinv.start
    have hmemadd : ∀ x ∈ deps, x ∈ listAdd deps n := fun x hx => by
      rw [mem_listAdd]; exact Or.inr hx
    have hnadd : n ∈ listAdd deps n := by rw [mem_listAdd]; exact Or.inl rfl
    have hpre : ∃ new, listAdd deps n = deps ++ new := by
      by_cases hm : n ∈ deps
      · exact ⟨[], by rw [listAdd_of_mem hm]; simp⟩
      · exact ⟨[n], listAdd_of_notMem hm⟩
    by_cases h1 : s.type = c!"none" ∧ !s.traverse
    · rw [if_pos h1]
      have hl : ts.Linked shared n := by
        refine ⟨s, hsm, ?_, ?_⟩
        · rw [h1.1]; decide
        · rw [h1.1]; intro e; exact absurd e (by decide)
      refine ⟨_, rfl, hadd hl ?_, hmemadd, fun _ => hnadd, hpre⟩
      by_cases hm : n ∈ deps
      · exact Or.inr hm
      · left
        rintro (rfl | ⟨s', hs', -, h3⟩)
        · exact hm hinv.start
        · rw [huniq s' hs'] at h3
          have := h3 h1.1
          simp [this] at h1
    rw [if_neg h1]
    by_cases h2 : s.type ∈ finalTypes
    · rw [if_pos h2]
      refine ⟨deps, rfl, hinv, fun _ hx => hx, ?_, [], by simp⟩
      rintro ⟨s', hs', h3, -⟩
      rw [huniq s' hs'] at h3
      exact absurd h2 h3
    rw [if_neg h2]
    by_cases h3 : s.type = c!"shared_library" ∧ !shared
    · rw [if_pos h3]
      refine ⟨deps, rfl, hinv, fun _ hx => hx, ?_, [], by simp⟩
      rintro ⟨s', hs', -, h4⟩
      rw [huniq s' hs'] at h4
      have := h4 h3.1
      simp [this] at h3
    rw [if_neg h3]
    have hl : ts.Linked shared n := by
      refine ⟨s, hsm, h2, fun e => ?_⟩
      cases hsh : shared with
      | true => rfl
      | false => exact absurd ⟨e, by simp [hsh]⟩ h3
    by_cases h4 : n ∈ deps
    · rw [if_pos h4]
      exact ⟨deps, rfl, hinv, fun _ hx => hx, fun _ => h4, [], by simp⟩
    rw [if_neg h4]
    by_cases h5 : s.type ∈ linkableTypes
    · simp only [h5, decide_true, Bool.not_true, Bool.false_eq_true, if_false]
      refine ⟨_, rfl, hadd hl (Or.inl ?_), hmemadd, fun _ => hnadd, hpre⟩
      rintro (rfl | ⟨s', hs', h6, -⟩)
      · exact h4 hinv.start
      · rw [huniq s' hs'] at h6
        exact h6 h5
    · simp only [h5, decide_false, Bool.not_false, if_true]
      have htrans : ts.Transparent n := by
        refine ⟨s, hsm, h5, fun e => ?_⟩
        cases ht : s.traverse with
        | true => rfl
        | false => exact absurd ⟨e, by simp [ht]⟩ h1
      -- the children, with `n` on the stack
      have hstart : KInv ts shared t (n :: stack) (listAdd deps n) := by
        refine ⟨listAdd_nodup _ hinv.nodup, ?_, ?_, ?_⟩
        · intro x hx
          rw [mem_listAdd] at hx
          rcases hx with rfl | hx
          · exact hlinkset hl
          · exact hinv.sound x hx
        · intro x hx
          rw [mem_listAdd] at hx
          rcases hx with rfl | hx
          · exact Or.inl (by simp)
          · rcases hinv.closed x hx with h1 | h1
            · exact Or.inl (by simp [h1])
            · refine Or.inr fun hth b hb hbl => ?_
              rw [mem_listAdd]; exact Or.inr (h1 hth b hb hbl)
        · rw [mem_listAdd]; exact Or.inr hinv.start
      rw [h.ok.deps n hnm]
      have hedges : ∀ b, ts.DependsOn n b ↔ b ∈ ts.edges n := fun b => (Targets.mem_edges hn n b).symm
      have loop : ∀ (l : List Str) (deps : List Str), (∀ d ∈ l, d ∈ ts.edges n) →
          KInv ts shared t (n :: stack) deps →
          ∃ r, (l.map some).foldlM (linkDepsInternal ts g shared fuel false) deps = .ok r ∧
            KInv ts shared t (n :: stack) r ∧ (∀ x ∈ deps, x ∈ r) ∧
            (∀ d ∈ l, ts.Linked shared d → d ∈ r) ∧ (∃ new, r = deps ++ new) := by
        intro l
        induction l with
        | nil => intro deps _ hd; exact ⟨deps, rfl, hd, fun _ hx => hx, by simp, [], by simp⟩
        | cons d l ihl =>
          intro deps hl' hd
          have hdn := hl' d (by simp)
          have hlt := (h.order n d hdn).idxOf h.nodup
          obtain ⟨r1, a0, a1, a2, a3, new1, a4⟩ := ih d (h.edge_mem hdn) (by omega) (n :: stack)
            deps hd ⟨n, hlinkset hl, Or.inr htrans, (hedges d).mpr hdn⟩
          obtain ⟨r2, b0, b1, b2, b3, new2, b4⟩ := ihl r1 (fun x hx => hl' x (by simp [hx])) a1
          refine ⟨r2, ?_, b1, fun x hx => b2 x (a2 x hx), ?_, new1 ++ new2, by rw [b4, a4]; simp⟩
          · rw [List.map_cons, List.foldlM_cons, a0]
            exact b0
          · intro x hx hxl
            rcases List.mem_cons.mp hx with rfl | hx
            · exact b2 _ (a3 hxl)
            · exact b3 x hx hxl
      have hfinish : ∀ r, KInv ts shared t (n :: stack) r →
          (∀ d ∈ ts.edges n, ts.Linked shared d → d ∈ r) → KInv ts shared t stack r := by
        intro r hr hall
        refine ⟨hr.nodup, hr.sound, ?_, hr.start⟩
        intro x hx
        rcases hr.closed x hx with h1 | h1
        · rcases List.mem_cons.mp h1 with rfl | h1
          · exact Or.inr fun _ b hb hbl => hall b ((hedges b).mp hb) hbl
          · exact Or.inl h1
        · exact Or.inr h1
      by_cases he : ts.edges n = []
      · rw [if_pos he]
        refine ⟨listAdd deps n, ?_, hfinish _ hstart (by simp [he]), hmemadd, fun _ => hnadd, hpre⟩
        cases fuel <;> simp [linkDepsInternal, pure, Except.pure, bind, Except.bind]
      · rw [if_neg he]
        obtain ⟨r, r0, r1, r2, r3, new, r4⟩ := loop (ts.edges n) (listAdd deps n)
          (fun _ hx => hx) hstart
        obtain ⟨new0, hnew0⟩ := hpre
        exact ⟨r, r0, hfinish r r1 r3, fun x hx => r2 x (hmemadd x hx), fun _ => r2 n hnadd,
          new0 ++ new, by rw [r4, hnew0]; simp⟩

end Gyp
