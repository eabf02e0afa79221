import Verif.Model.XcodeSort
import Verif.Spec.XcodeSort
import Verif.Props.VersionOrder
import Verif.Props.FindVS
/-
C118: the order of files and groups in Xcode projects.
-/
namespace Gyp
open Spec

theorem isPlainGroup_folder (x : XNode) : isPlainGroup x = folder x := by
  cases x with
  | file n t p => rfl
  | group v n t p cs => cases v <;> rfl

theorem sortName_shown (x : XNode) : sortName x = shown x := by
  cases x with
  | file n t p => cases n <;> cases p <;> rfl
  | group v n t p cs => cases n <;> cases p <;> rfl

theorem strLe_strLt : ∀ (a b : Str), strLe a b = !strLt b a
  | [], [] => rfl
  | [], _ :: _ => rfl
  | _ :: _, [] => rfl
  | a :: s, b :: t => by
    unfold strLe strLt
    by_cases h : a = b
    · rw [if_pos h, if_pos h.symm, strLe_strLt s t]
    · rw [if_neg h, if_neg (Ne.symm h)]
      have : a.toNat ≠ b.toNat := fun e => h (Char.ext (UInt32.toNat_inj.mp e))
      by_cases h1 : a.toNat < b.toNat
      · simp [h1]; omega
      · simp [h1]; omega

theorem strLe_alphabetically (a b : Str) : strLe a b = true ↔ ¬ Alphabetically b a := by
  rw [strLe_strLt]
  unfold Alphabetically
  rw [← lex_strLt]
  simp

/-- The comparison, as an order by kind and name. -/
theorem notAfter_compare (a b : XNode) : notAfter xcCompare a b = true ↔
    (folder a = true ∨ folder b = false) ∧ (folder a = folder b → strLe (shown a) (shown b) = true) := by
  have ht := strLe_total (shown a) (shown b)
  unfold notAfter xcCompare cmpStr
  rw [isPlainGroup_folder, isPlainGroup_folder, sortName_shown, sortName_shown]
  cases ha : folder a <;> cases hb : folder b <;> cases h1 : strLe (shown a) (shown b) <;>
    cases h2 : strLe (shown b) (shown a) <;> simp_all

theorem notAfter_sortsBefore (a b : XNode) : notAfter xcCompare a b = true ↔ ¬ SortsBefore b a := by
  rw [notAfter_compare, strLe_alphabetically]
  unfold SortsBefore
  cases folder a <;> cases folder b <;> simp

theorem notAfter_total (a b : XNode) : notAfter xcCompare a b = true ∨ notAfter xcCompare b a = true := by
  rw [notAfter_compare, notAfter_compare]
  have ht := strLe_total (shown a) (shown b)
  cases folder a <;> cases folder b <;> simp [ht]

theorem notAfter_trans (a b c : XNode) (h1 : notAfter xcCompare a b = true) (h2 : notAfter xcCompare b c = true) :
    notAfter xcCompare a c = true := by
  rw [notAfter_compare] at *
  have ht := strLe_trans (shown a) (shown b) (shown c)
  revert h1 h2
  cases folder a <;> cases folder b <;> cases folder c <;> simp
  · exact ht
  · exact ht

theorem notAfter_antisymm (a b : XNode) (h1 : notAfter xcCompare a b = true) (h2 : notAfter xcCompare b a = true) :
    alike a b = true := by
  rw [notAfter_compare] at *
  have ht := strLe_antisymm (shown a) (shown b)
  unfold alike
  revert h1 h2
  cases folder a <;> cases folder b <;> simp
  · exact ht
  · exact ht

theorem notAfter_alike {x a b : XNode} (h1 : alike x a = true) (h2 : alike x b = true) :
    notAfter xcCompare a b = true := by
  unfold alike at h1 h2
  simp only [Bool.and_eq_true, beq_iff_eq] at h1 h2
  rw [notAfter_compare, ← h1.1, ← h1.2, ← h2.1, ← h2.2]
  have := strLe_total (shown x) (shown x)
  cases folder x <;> simpa using this

/-! ### What sorting leaves -/

theorem sortNode_folder (x : XNode) : folder (sortNode x) = folder x ∧ shown (sortNode x) = shown x := by
  cases x with
  | file n t p => rw [sortNode]; exact ⟨rfl, rfl⟩
  | group v n t p cs =>
    rw [sortNode]
    constructor
    · cases v <;> rfl
    · cases n <;> cases p <;> rfl

theorem sortNodes_map : ∀ cs : List XNode, sortNodes cs = cs.map sortNode
  | [] => by simp [sortNodes]
  | c :: cs => by simp [sortNodes, sortNodes_map cs]

mutual
theorem sortNode_arranged : (x : XNode) → Arranged x (sortNode x)
  | .file n t p => by rw [sortNode]; exact .file
  | .group v n t p cs => by
    rw [sortNode]
    refine .group (sortNodes_arranged cs) (pySorted_perm _ _).symm ?_ ?_
    · exact (pySorted_pairwise _ notAfter_total notAfter_trans _).imp fun h => (notAfter_sortsBefore _ _).mp h
    · intro x
      exact pySorted_filter (notAfter xcCompare) (alike x) (fun a b h1 h2 => notAfter_alike h1 h2) _

theorem sortNodes_arranged : (cs : List XNode) → List.Forall₂ Arranged cs (sortNodes cs)
  | [] => by rw [sortNodes]; exact .nil
  | c :: cs => by rw [sortNodes]; exact .cons (sortNode_arranged c) (sortNodes_arranged cs)
end

/-- C118: in every group, at any depth, the folders come first and then the rest, both
alphabetically; nothing is lost or added, and entries of the same kind and name stay in their
order. -/
theorem C118_sorted (x : XNode) : Arranged x (sortNode x) := sortNode_arranged x

theorem alike_comm (a b : XNode) : alike a b = alike b a := by
  unfold alike
  rw [Bool.beq_comm (a := folder a), BEq.comm (a := shown a)]

theorem unlike_injective : ∀ {l : List XNode}, (l.Pairwise fun a b => alike a b = false) →
    ∀ a ∈ l, ∀ b ∈ l, alike a b = true → a = b
  | [], _, _, h, _, _, _ => by cases h
  | x :: l, hd, a, ha, b, hb, hab => by
    obtain ⟨h1, h2⟩ := List.pairwise_cons.mp hd
    rcases List.mem_cons.mp ha with rfl | ha
    · rcases List.mem_cons.mp hb with rfl | hb
      · rfl
      · rw [h1 b hb] at hab; cases hab
    · rcases List.mem_cons.mp hb with rfl | hb
      · rw [alike_comm, h1 a (by assumption)] at hab; cases hab
      · exact unlike_injective h2 a ha b hb hab

theorem pySorted_canonical {l m : List XNode} (hp : l.Perm m) (hd : l.Pairwise fun a b => alike a b = false) :
    pySorted (notAfter xcCompare) l = pySorted (notAfter xcCompare) m := by
  have inj := unlike_injective hd
  refine List.Perm.eq_of_pairwise (le := fun a b => notAfter xcCompare a b = true) ?_
    (pySorted_pairwise _ notAfter_total notAfter_trans _) (pySorted_pairwise _ notAfter_total notAfter_trans _)
    ((pySorted_perm _ l).trans (hp.trans (pySorted_perm _ m).symm))
  intro a b ha hb h1 h2
  exact inj a ((pySorted_perm _ l).mem_iff.mp ha) b (hp.mem_iff.mpr ((pySorted_perm _ m).mem_iff.mp hb))
    (notAfter_antisymm a b h1 h2)

mutual
theorem sortNode_canonical : (x y : XNode) → AllUnlike x → Rearranged x y → sortNode x = sortNode y
  | .file n t p, y, _, h => by cases h; rfl
  | .group v n t p cs, y, hu, h => by
    cases h with
    | group hf hp =>
      cases hu with
      | group hd hc =>
        rename_i ds es
        have e := sortNodes_canonical cs ds hc hf
        rw [sortNode, sortNode]
        congr 1
        have hd' : (sortNodes cs).Pairwise fun a b => alike a b = false := by
          rw [sortNodes_map, List.pairwise_map]
          refine hd.imp fun {a b} h => ?_
          unfold alike at h ⊢
          rw [(sortNode_folder a).1, (sortNode_folder a).2, (sortNode_folder b).1, (sortNode_folder b).2]
          exact h
        refine pySorted_canonical ?_ hd'
        rw [e, sortNodes_map, sortNodes_map]
        exact hp.map _

theorem sortNodes_canonical : (cs ds : List XNode) → (∀ c ∈ cs, AllUnlike c) → List.Forall₂ Rearranged cs ds →
    sortNodes cs = sortNodes ds
  | [], ds, _, h => by cases h; rfl
  | c :: cs, ds, hu, h => by
    cases h with
    | cons h1 h2 =>
      rename_i d ds'
      rw [sortNodes, sortNodes, sortNode_canonical c d (hu c (List.mem_cons_self ..)) h1,
        sortNodes_canonical cs ds' (fun x hx => hu x (List.mem_cons_of_mem _ hx)) h2]
end

/-- C118: where no group has two entries of the same kind and name, the order in which files and
groups were added does not matter: neither to the sorted tree nor to the ids of its objects. -/
theorem C118_any_order (x y : XNode) (hu : AllUnlike x) (h : Rearranged x y) :
    sortNode x = sortNode y ∧ ∀ seed, nodeChains seed (sortNode x) = nodeChains seed (sortNode y) := by
  have := sortNode_canonical x y hu h
  exact ⟨this, fun _ => by rw [this]⟩

/-! ### The main group -/

theorem insertSorted_congr {le le' : XNode → XNode → Bool} (x : XNode) : ∀ (l : List XNode),
    (∀ y ∈ l, le x y = le' x y) → insertSorted le x l = insertSorted le' x l
  | [], _ => rfl
  | y :: l, h => by
    unfold insertSorted
    rw [h y (List.mem_cons_self ..), insertSorted_congr x l fun z hz => h z (List.mem_cons_of_mem _ hz)]

theorem pySorted_congr {le le' : XNode → XNode → Bool} : ∀ (l : List XNode),
    (∀ x ∈ l, ∀ y ∈ l, le x y = le' x y) → pySorted le l = pySorted le' l
  | [], _ => rfl
  | x :: l, h => by
    have ih := pySorted_congr l fun a ha b hb => h a (List.mem_cons_of_mem _ ha) b (List.mem_cons_of_mem _ hb)
    show insertSorted le x (pySorted le l) = insertSorted le' x (pySorted le' l)
    rw [ih]
    refine insertSorted_congr x _ fun y hy => ?_
    exact h x (List.mem_cons_self ..) y (List.mem_cons_of_mem _ ((pySorted_perm le' l).mem_iff.mp hy))

/-- The order of the main group by place and name. -/
def placeLe (a b : XNode) : Bool :=
  decide (places.idxOf (shown a) < places.idxOf (shown b)) ||
    (decide (places.idxOf (shown a) = places.idxOf (shown b)) && strLe (shown a) (shown b))

theorem placeLe_total (a b : XNode) : placeLe a b = true ∨ placeLe b a = true := by
  unfold placeLe
  have := strLe_total (shown a) (shown b)
  simp only [Bool.or_eq_true, Bool.and_eq_true, decide_eq_true_eq]
  rcases Nat.lt_trichotomy (places.idxOf (shown a)) (places.idxOf (shown b)) with h | h | h
  · exact .inl (.inl h)
  · rcases this with t | t
    · exact .inl (.inr ⟨h, t⟩)
    · exact .inr (.inr ⟨h.symm, t⟩)
  · exact .inr (.inl h)

theorem placeLe_trans (a b c : XNode) (h1 : placeLe a b = true) (h2 : placeLe b c = true) : placeLe a c = true := by
  unfold placeLe at *
  simp only [Bool.or_eq_true, Bool.and_eq_true, decide_eq_true_eq] at *
  rcases h1 with h1 | ⟨h1, t1⟩ <;> rcases h2 with h2 | ⟨h2, t2⟩
  · exact .inl (by omega)
  · exact .inl (by omega)
  · exact .inl (by omega)
  · exact .inr ⟨by omega, strLe_trans _ _ _ t1 t2⟩

theorem idxOf_places (s : Str) : s ∈ places ↔ places.idxOf s < places.length := List.idxOf_lt_length_iff.symm

theorem idxOf_injective {s t : Str} (hs : s ∈ places) (h : places.idxOf s = places.idxOf t) : s = t := by
  have h1 := (idxOf_places s).mp hs
  have h2 : places.idxOf t < places.length := h ▸ h1
  have e1 := List.getElem_idxOf h1
  have e2 := List.getElem_idxOf h2
  rw [← e1, ← e2]
  simp [h]

theorem notAfter_root {a b : XNode} (ha : folder a = true) (hb : folder b = true) :
    notAfter xcCompareRoot a b = placeLe a b := by
  have hg : isAnyGroup a = true := by
    cases a with
    | file => cases ha
    | group => rfl
  have ia := idxOf_places (shown a)
  have ib := idxOf_places (shown b)
  have na := List.idxOf_le_length (a := shown a) (l := places)
  have nb := List.idxOf_le_length (a := shown b) (l := places)
  have er : rootOrder = places := rfl
  have key := notAfter_compare a b
  unfold notAfter at key ⊢
  unfold xcCompareRoot placeLe
  rw [sortName_shown, sortName_shown, er]
  simp only [hg, true_and]
  by_cases h1 : shown a ∈ places <;> by_cases h2 : shown b ∈ places
  · have l1 := ia.mp h1
    have l2 := ib.mp h2
    by_cases e : shown a = shown b
    · have := strLe_total (shown b) (shown b)
      simp [h1, h2, e]
      simpa using this
    · have hne : places.idxOf (shown a) ≠ places.idxOf (shown b) := fun h => e (idxOf_injective h1 h)
      by_cases hlt : places.idxOf (shown a) < places.idxOf (shown b)
      · simp [h1, h2, hlt]
      · have : places.idxOf (shown b) < places.idxOf (shown a) := by omega
        simp [h1, h2, hlt, hne, this]
  · have l1 := ia.mp h1
    have l2 := mt ib.mpr h2
    have : places.idxOf (shown a) < places.idxOf (shown b) := by omega
    simp only [h1, h2, this, decide_true, Bool.true_or, not_true_eq_false, not_false_eq_true, and_true, and_false,
      and_self, if_true, if_false, true_and, false_and]
    decide
  · have l1 := mt ia.mpr h1
    have l2 := ib.mp h2
    have : ¬ places.idxOf (shown a) < places.idxOf (shown b) := by omega
    have hne : places.idxOf (shown a) ≠ places.idxOf (shown b) := by omega
    simp only [h1, h2, this, hne, decide_false, Bool.false_or, Bool.false_and, not_true_eq_false, not_false_eq_true,
      and_true, and_false, and_self, if_true, if_false, true_and, false_and]
    decide
  · have l1 := mt ia.mpr h1
    have l2 := mt ib.mpr h2
    have e : places.idxOf (shown a) = places.idxOf (shown b) := by omega
    rw [ha, hb] at key
    have key' : (decide (xcCompare a b ≤ 0) = true) ↔ strLe (shown a) (shown b) = true := by simpa using key
    simp only [h1, h2, not_false_eq_true, and_self, if_true, e, Nat.lt_irrefl, decide_false, Bool.false_or,
      decide_true, Bool.true_and]
    exact Bool.eq_iff_iff.mpr key'

theorem placeLe_rootBefore (a b : XNode) (h : placeLe a b = true) : ¬ RootBefore b a := by
  unfold placeLe at h
  simp only [Bool.or_eq_true, Bool.and_eq_true, decide_eq_true_eq] at h
  have ia := idxOf_places (shown a)
  have ib := idxOf_places (shown b)
  have na := List.idxOf_le_length (a := shown a) (l := places)
  have nb := List.idxOf_le_length (a := shown b) (l := places)
  rintro (⟨i, j, hi, hj, hlt⟩ | ⟨h1, h2⟩ | ⟨h1, h2, h3⟩)
  · have nd : places.Nodup := by decide
    obtain ⟨hi', ei⟩ := List.getElem?_eq_some_iff.mp hi
    obtain ⟨hj', ej⟩ := List.getElem?_eq_some_iff.mp hj
    have e1 : places.idxOf (shown b) = i := by rw [← ei]; exact List.Nodup.idxOf_getElem nd i hi'
    have e2 : places.idxOf (shown a) = j := by rw [← ej]; exact List.Nodup.idxOf_getElem nd j hj'
    omega
  · have := ib.mp h1
    have := mt ia.mpr h2
    omega
  · have l1 := mt ib.mpr h1
    have l2 := mt ia.mpr h2
    rcases h with h | ⟨_, h⟩
    · omega
    · exact (strLe_alphabetically _ _).mp h h3

theorem mapM_some {α β : Type} {f : α → Option β} : ∀ {l : List α} {m : List β}, l.mapM f = some m →
    m.map some = l.map f
  | [], m, h => by simp at h; subst h; rfl
  | a :: l, m, h => by
    rw [List.mapM_cons] at h
    cases hf : f a with
    | none => simp [hf] at h
    | some b =>
      cases hl : l.mapM f with
      | none => simp [hf, hl] at h
      | some bs =>
        simp [hf, hl] at h
        subst h
        simp [hf, mapM_some hl]

theorem mapM_forall₂ {α β : Type} {f : α → Option β} {R : α → β → Prop} : ∀ {l : List α} {m : List β},
    (∀ a ∈ l, ∀ b, f a = some b → R a b) → l.mapM f = some m → List.Forall₂ R l m
  | [], m, _, h => by simp at h; subst h; exact .nil
  | a :: l, m, hR, h => by
    rw [List.mapM_cons] at h
    cases hf : f a with
    | none => simp [hf] at h
    | some b =>
      cases hl : l.mapM f with
      | none => simp [hf, hl] at h
      | some bs =>
        simp [hf, hl] at h
        subst h
        exact .cons (hR a (List.mem_cons_self ..) b hf)
          (mapM_forall₂ (fun x hx => hR x (List.mem_cons_of_mem _ hx)) hl)

/-- C118: the groups of the main group come out in their places, `Source` first and `Build` last,
and others after them alphabetically; each of them is put in order, and the products are in the
order of their targets. -/
theorem C118_main_group (targets : List (Option Nat)) (cs out : List XNode) (hf : ∀ c ∈ cs, folder c = true)
    (h : sortRoot targets cs = some out) :
    ∃ mid, cs.Perm mid ∧ (mid.Pairwise fun a b => ¬ RootBefore b a) ∧
      List.Forall₂ (RootArranged targets) mid out := by
  unfold sortRoot at h
  refine ⟨_, (pySorted_perm (notAfter xcCompareRoot) cs).symm, ?_, mapM_forall₂ ?_ h⟩
  · rw [pySorted_congr (le' := placeLe) cs fun x hx y hy => notAfter_root (hf x hx) (hf y hy)]
    exact (pySorted_pairwise _ placeLe_total placeLe_trans _).imp fun h => placeLe_rootBefore _ _ h
  · intro a ha b hb
    unfold sortRootChild at hb
    cases a with
    | file n t p =>
      have := hf _ ((pySorted_perm _ cs).mem_iff.mp ha)
      cases this
    | group v n t p ds =>
      simp only [sortName_shown] at hb
      by_cases hp : shown (.group v n t p ds) = c!"Products"
      · rw [if_pos hp] at hb
        unfold sortProducts at hb
        simp only at hb
        cases hm : (targets.filterMap id).mapM (fun i => ds[i]?) with
        | none => rw [hm] at hb; cases hb
        | some ps =>
          rw [hm] at hb
          by_cases hl : ps.length = ds.length
          · simp [hl] at hb
            subst hb
            exact .products hp (mapM_some hm) hl
          · simp [hl] at hb
      · rw [if_neg hp] at hb
        cases hb
        exact .other hp (sortNode_arranged _)

theorem mapM_all {α β : Type} {f : α → Option β} (g : α → β) : ∀ {l : List α}, (∀ a ∈ l, f a = some (g a)) →
    l.mapM f = some (l.map g)
  | [], _ => rfl
  | a :: l, h => by
    rw [List.mapM_cons, h a (List.mem_cons_self ..), mapM_all g fun x hx => h x (List.mem_cons_of_mem _ hx)]
    rfl

/-- C118: when each product is made by one native target, no product is lost: the list of products
is the old one in the order of the targets. -/
theorem C118_products (targets : List (Option Nat)) (cs : List XNode)
    (h : (targets.filterMap id).Perm (List.range cs.length)) :
    ∃ ps, sortProducts targets cs = some ps ∧ cs.Perm ps := by
  have hx : ∀ i ∈ targets.filterMap id, cs[i]? = some (cs.getD i (.file none [] none)) := by
    intro i hi
    have : i < cs.length := List.mem_range.mp (h.mem_iff.mp hi)
    simp [this]
  have hl : ((targets.filterMap id).map fun i => cs.getD i (.file none [] none)).length = cs.length := by
    rw [List.length_map, h.length_eq, List.length_range]
  refine ⟨_, by simp only [sortProducts, mapM_all _ hx]; rw [if_pos hl], ?_⟩
  have e : (List.range cs.length).map (fun i => cs.getD i (.file none [] none)) = cs := by
    apply List.ext_getElem
    · simp
    · intro i h1 h2
      simp [h2]
  have := (h.map fun i => cs.getD i (.file none [] none)).symm
  rw [e] at this
  exact this

/-- C118: if all children of the main group are groups with different names, the order in which
they were added does not matter. -/
theorem C118_main_any_order (targets : List (Option Nat)) (cs ds : List XNode) (hf : ∀ c ∈ cs, folder c = true)
    (hd : cs.Pairwise fun a b => shown a ≠ shown b) (h : cs.Perm ds) : sortRoot targets cs = sortRoot targets ds := by
  unfold sortRoot
  rw [pySorted_congr (le' := placeLe) cs fun x hx y hy => notAfter_root (hf x hx) (hf y hy),
    pySorted_congr (le' := placeLe) ds fun x hx y hy =>
      notAfter_root (hf x (h.mem_iff.mpr hx)) (hf y (h.mem_iff.mpr hy))]
  congr 1
  have hu : cs.Pairwise fun a b => alike a b = false := by
    refine hd.imp fun {a b} h => ?_
    unfold alike
    simp [h]
  have inj := unlike_injective hu
  refine List.Perm.eq_of_pairwise (le := fun a b => placeLe a b = true) ?_
    (pySorted_pairwise _ placeLe_total placeLe_trans _) (pySorted_pairwise _ placeLe_total placeLe_trans _)
    ((pySorted_perm _ cs).trans (h.trans (pySorted_perm _ ds).symm))
  intro a b ha hb h1 h2
  have ha' := (pySorted_perm _ cs).mem_iff.mp ha
  have hb' := h.mem_iff.mpr ((pySorted_perm _ ds).mem_iff.mp hb)
  refine inj a ha' b hb' ?_
  unfold alike
  rw [hf a ha', hf b hb']
  unfold placeLe at h1 h2
  simp only [Bool.or_eq_true, Bool.and_eq_true, decide_eq_true_eq] at h1 h2
  have : strLe (shown a) (shown b) = true ∧ strLe (shown b) (shown a) = true := by
    rcases h1 with h1 | h1 <;> rcases h2 with h2 | h2
    · omega
    · omega
    · omega
    · exact ⟨h1.2, h2.2⟩
  rw [strLe_antisymm _ _ this.1 this.2]
  simp

/-- C118 remark: the comparison for the main group is about groups only; a file with the name of
a place and another group each come after the other. -/
theorem C118_files_in_main_group :
    xcCompareRoot (.file (some c!"Source") groupTree none) (.group false (some c!"Tests") groupTree none []) = 1 ∧
    xcCompareRoot (.group false (some c!"Tests") groupTree none []) (.file (some c!"Source") groupTree none) = 1 :=
  ⟨rfl, rfl⟩

/-! Concrete cases. -/

/-- Files, a folder and a variant group, out of order. -/
def unsorted : XNode :=
  .group false (some c!"Source") groupTree none
    [.file none groupTree (some c!"z.c"), .group true (some c!"Main.strings") groupTree none [],
     .group false none groupTree (some c!"lib")
       [.file none groupTree (some c!"b.c"), .file none groupTree (some c!"a.c")],
     .file none groupTree (some c!"B.c")]

example : sortNode unsorted = .group false (some c!"Source") groupTree none
    [.group false none groupTree (some c!"lib")
       [.file none groupTree (some c!"a.c"), .file none groupTree (some c!"b.c")],
     .file none groupTree (some c!"B.c"), .group true (some c!"Main.strings") groupTree none [],
     .file none groupTree (some c!"z.c")] := rfl

example : AllUnlike unsorted := by
  refine .group (by simp [alike, folder, shown]) ?_
  intro c hc
  simp at hc
  rcases hc with rfl | rfl | rfl | rfl
  · exact .file
  · exact .group .nil (by simp)
  · refine .group (by simp [alike, folder, shown]) ?_
    intro c hc
    simp at hc
    rcases hc with rfl | rfl <;> exact .file
  · exact .file

example : (sortRoot [none, some 1, some 0] [.group false (some c!"Tests") groupTree none [],
    .group false (some c!"Products") groupTree none [.file none groupTree (some c!"a"), .file none groupTree (some c!"b")],
    unsorted]).map (·.map shown) = some [c!"Source", c!"Products", c!"Tests"] := rfl

example : ([none, some 1, some 0].filterMap id).Perm (List.range 2) := by decide

end Gyp
