import Mathlib.Logic.Function.Basic
import Mathlib.Data.List.Nodup
import Verif.Spec.Analyzer
import Verif.Proofs.Graph
import Verif.Props.OrderedSet
/-
Proofs about the change analyzer.
-/
namespace Gyp
open Spec

theorem modTab_same (tab : Str → ATarget) (t : Str) (f : ATarget → ATarget) :
    modTab tab t f t = f (tab t) := by simp [modTab]

theorem modTab_ne (tab : Str → ATarget) {t x : Str} (f : ATarget → ATarget) (h : x ≠ t) :
    modTab tab t f x = tab x := by simp [modTab, h]

theorem modTab_apply (tab : Str → ATarget) (t x : Str) (f : ATarget → ATarget) :
    modTab tab t f x = if x = t then f (tab x) else tab x := by
  by_cases h : x = t
  · subst h; simp [modTab]
  · simp [modTab, h]

theorem nodup_foldl_listAdd (l ds : List Str) (h : l.Nodup) : (ds.foldl listAdd l).Nodup := by
  induction ds generalizing l with
  | nil => exact h
  | cons d ds ih => exact ih _ (listAdd_nodup d h)

theorem mem_setUnion (a b : List Str) (x : Str) : x ∈ setUnion a b ↔ x ∈ a ∨ x ∈ b := by
  simp [setUnion, mem_foldl_listAdd, or_comm]

theorem nodup_setUnion (a b : List Str) : (setUnion a b).Nodup :=
  nodup_foldl_listAdd _ _ (nodup_foldl_listAdd _ _ List.nodup_nil)

/-- What folding `linkDep` over the dependencies does. -/
theorem linkDeps_spec (t : Str) (ds : List Str) (s : GState)
    (hn : s.names.Nodup) (hr : s.roots.Nodup) (hsub : ∀ x ∈ s.roots, x ∈ s.names) :
    let s' := ds.foldl (linkDep t) s
    s'.names.Nodup ∧ s'.roots.Nodup ∧
    (∀ x, x ∈ s'.names ↔ x ∈ s.names ∨ x ∈ ds) ∧
    (∀ x, x ∈ s'.roots ↔ x ∈ s.roots ∧ x ∉ ds) ∧
    (∀ x, s'.tab x = { s.tab x with
      deps := if x = t then ds.foldl listAdd (s.tab x).deps else (s.tab x).deps
      backDeps := if x ∈ ds then listAdd (s.tab x).backDeps t else (s.tab x).backDeps }) ∧
    s'.matching = s.matching ∧ s'.fileTargets = s.fileTargets := by
  induction ds generalizing s with
  | nil => simp [hn, hr]
  | cons d ds ih =>
    simp only [List.foldl_cons]
    have hn1 : (linkDep t s d).names.Nodup := listAdd_nodup d hn
    have hr1 : (linkDep t s d).roots.Nodup := by
      simp only [linkDep]
      split
      · exact hr.filter _
      · exact hr
    have hroots : ∀ x, x ∈ (linkDep t s d).roots ↔ x ∈ s.roots ∧ x ≠ d := by
      intro x
      simp only [linkDep]
      by_cases hd : d ∈ s.names
      · simp [hd]
      · simp only [hd, if_false]
        constructor
        · intro h; exact ⟨h, fun e => hd (e ▸ hsub x h)⟩
        · exact fun h => h.1
    have hnames : ∀ x, x ∈ (linkDep t s d).names ↔ x ∈ s.names ∨ x = d := by
      intro x; simp only [linkDep]; rw [mem_listAdd]; tauto
    obtain ⟨a1, a2, a3, a4, a5, a6, a7⟩ := ih (linkDep t s d) hn1 hr1
      (fun x hx => (hnames x).mpr (Or.inl (hsub x ((hroots x).mp hx).1)))
    refine ⟨a1, a2, ?_, ?_, ?_, a6, a7⟩
    · intro x; rw [a3, hnames, List.mem_cons]; tauto
    · intro x; rw [a4, hroots, List.mem_cons]; tauto
    · intro x
      rw [a5]
      simp only [linkDep, modTab_apply]
      by_cases hxt : x = t <;> by_cases hxd : x = d <;> by_cases hds : x ∈ ds <;>
        simp_all [listAdd_of_mem, mem_listAdd]

/-- The invariant of the loop of `_GenerateTargets`. -/
structure GenInv (inp : AInput) (stack : List Str) (s : GState) : Prop where
  nd : s.names.Nodup
  fresh : ∀ t, t ∉ s.names → s.tab t = {}
  unvisited : ∀ t, (s.tab t).visited = false → s.tab t = { backDeps := (s.tab t).backDeps }
  visitedNames : ∀ t, (s.tab t).visited = true → t ∈ s.names
  visited : ∀ t, (s.tab t).visited = true → ∃ d hit,
    inp.dicts t = some d ∧ touched inp t d = .ok hit ∧
    s.tab t = visitRecord d hit { deps := (s.tab t).deps, backDeps := (s.tab t).backDeps }
  deps : ∀ t x, x ∈ (s.tab t).deps ↔ (s.tab t).visited = true ∧ x ∈ depEdges inp t
  back : ∀ x y, x ∈ (s.tab y).backDeps ↔ (s.tab x).visited = true ∧ y ∈ depEdges inp x
  depNames : ∀ t x, (s.tab t).visited = true → x ∈ depEdges inp t → x ∈ s.names
  ndDeps : ∀ t, (s.tab t).deps.Nodup
  ndBack : ∀ t, (s.tab t).backDeps.Nodup
  ndMatching : s.matching.Nodup
  matching : ∀ t, t ∈ s.matching ↔ (s.tab t).visited = true ∧ ChangedTarget inp t
  ndRoots : s.roots.Nodup
  roots : ∀ t, t ∈ s.roots ↔ t ∈ s.names ∧ (s.tab t).backDeps = []
  fileTargets : ∀ t, t ∈ s.fileTargets ↔ (s.tab t).visited = true ∧ inBuildFiles inp t = true
  todo : ∀ t ∈ s.names, (s.tab t).visited = true ∨ t ∈ stack
  reach : ∀ t, t ∈ s.names ∨ t ∈ stack → InBuild inp t
  start : ∀ t ∈ inp.targetList, t ∈ s.names ∨ t ∈ stack

theorem genInv_init (inp : AInput) : GenInv inp inp.targetList.reverse {} where
  nd := List.nodup_nil
  fresh := fun _ _ => rfl
  unvisited := fun _ _ => rfl
  visitedNames := fun _ h => by cases h
  visited := fun _ h => by cases h
  deps := fun _ _ => by simp
  back := fun _ _ => by simp
  depNames := fun _ _ h => by cases h
  ndDeps := fun _ => List.nodup_nil
  ndBack := fun _ => List.nodup_nil
  ndMatching := List.nodup_nil
  matching := fun _ => by simp
  ndRoots := List.nodup_nil
  roots := fun _ => by simp
  fileTargets := fun _ => by simp
  todo := fun _ h => by simp at h
  reach := fun t h => by
    rcases h with h | h
    · simp at h
    · exact ⟨t, by simpa using h, .refl⟩
  start := fun t h => Or.inr (by simpa using h)

theorem genInv_skip {inp : AInput} {t : Str} {stack : List Str} {s : GState}
    (h : GenInv inp (t :: stack) s) (hv : (s.tab t).visited = true) : GenInv inp stack s :=
  { h with
    todo := fun x hx => by
      rcases h.todo x hx with h1 | h1
      · exact Or.inl h1
      · rcases List.mem_cons.mp h1 with rfl | h1
        · exact Or.inl hv
        · exact Or.inr h1
    reach := fun x hx => h.reach x (by rcases hx with h1 | h1 <;> simp [h1])
    start := fun x hx => by
      rcases h.start x hx with h1 | h1
      · exact Or.inl h1
      · rcases List.mem_cons.mp h1 with rfl | h1
        · exact Or.inl (h.visitedNames _ hv)
        · exact Or.inr h1 }

theorem genInv_create {inp : AInput} {t : Str} {stack : List Str} {s : GState}
    (h : GenInv inp (t :: stack) s) : GenInv inp (t :: stack) (createTarget t s) ∧
      t ∈ (createTarget t s).names ∧ (createTarget t s).tab = s.tab := by
  unfold createTarget
  by_cases hm : t ∈ s.names
  · rw [if_pos hm]; exact ⟨h, hm, rfl⟩
  · rw [if_neg hm]
    refine ⟨?_, by simp, rfl⟩
    have hf := h.fresh t hm
    exact { h with
      nd := by
        show (s.names ++ [t]).Nodup
        rw [← listAdd_of_notMem hm]; exact listAdd_nodup t h.nd
      fresh := fun x hx => h.fresh x (fun e => hx (by simp [e]))
      visitedNames := fun x hx => by simp [h.visitedNames x hx]
      depNames := fun x y h1 h2 => by simp [h.depNames x y h1 h2]
      ndRoots := listAdd_nodup t h.ndRoots
      roots := fun x => by
        show x ∈ listAdd s.roots t ↔ x ∈ s.names ++ [t] ∧ _
        rw [mem_listAdd, h.roots]
        simp only [List.mem_append, List.mem_singleton]
        constructor
        · rintro (rfl | ⟨h1, h2⟩)
          · exact ⟨Or.inr rfl, by rw [hf]⟩
          · exact ⟨Or.inl h1, h2⟩
        · rintro ⟨h1 | h1, h2⟩
          · exact Or.inr ⟨h1, h2⟩
          · exact Or.inl h1
      todo := fun x hx => by
        simp only [List.mem_append, List.mem_singleton] at hx
        rcases hx with hx | rfl
        · exact h.todo x hx
        · simp
      reach := fun x hx => by
        simp only [List.mem_append, List.mem_singleton] at hx
        rcases hx with (hx | rfl) | hx
        · exact h.reach x (Or.inl hx)
        · exact h.reach x (Or.inr (by simp))
        · exact h.reach x (Or.inr hx)
      start := fun x hx => by
        rcases h.start x hx with h1 | h1
        · exact Or.inl (by simp [h1])
        · exact Or.inr h1 }

theorem depEdges_some {inp : AInput} {t : Str} {d : TInfo} (h : inp.dicts t = some d) :
    depEdges inp t = d.dependencies := by simp [depEdges, h]

theorem genInv_visit {inp : AInput} {t : Str} {stack : List Str} {s : GState} {d : TInfo}
    {hit : Bool} (h : GenInv inp (t :: stack) s) (hm : t ∈ s.names)
    (hv : (s.tab t).visited = false) (hd : inp.dicts t = some d)
    (ht : touched inp t d = .ok hit) :
    GenInv inp (d.dependencies.reverse ++ stack) (visitTarget inp t d hit s) := by
  have hun := h.unvisited t hv
  have he := depEdges_some hd
  unfold visitTarget
  obtain ⟨a1, a2, a3, a4, a5, a6, a7⟩ := linkDeps_spec t d.dependencies
    { s with
      tab := modTab s.tab t (visitRecord d hit)
      matching := if hit then s.matching ++ [t] else s.matching
      fileTargets := if inBuildFiles inp t then listAdd s.fileTargets t else s.fileTargets }
    h.nd h.ndRoots (fun x hx => ((h.roots x).mp hx).1)
  simp only at a1 a2 a3 a4 a5 a6 a7 ⊢
  generalize hs' : d.dependencies.foldl (linkDep t) _ = s' at a1 a2 a3 a4 a5 a6 a7 ⊢
  have hdeps0 : (s.tab t).deps = [] := by rw [hun]
  -- the fields of the new records
  have vvis : ∀ x, (s'.tab x).visited = (if x = t then true else (s.tab x).visited) := by
    intro x
    rw [a5]
    by_cases hx : x = t
    · subst hx; simp [modTab_same, visitRecord]
    · simp [modTab_ne _ _ hx, hx]
  have vdeps : ∀ x, (s'.tab x).deps =
      (if x = t then d.dependencies.foldl listAdd [] else (s.tab x).deps) := by
    intro x
    rw [a5]
    by_cases hx : x = t
    · subst hx; simp [modTab_same, visitRecord, hdeps0]
    · simp [modTab_ne _ _ hx, hx]
  have vback : ∀ x, (s'.tab x).backDeps =
      (if x ∈ d.dependencies then listAdd (s.tab x).backDeps t else (s.tab x).backDeps) := by
    intro x
    rw [a5]
    by_cases hx : x = t
    · subst hx; simp [modTab_same, visitRecord]
    · simp [modTab_ne _ _ hx]
  have htb : ∀ y, t ∉ (s.tab y).backDeps := by
    intro y hy
    have := ((h.back t y).mp hy).1
    rw [hv] at this; cases this
  constructor
  case nd => exact a1
  case fresh =>
    intro x hx
    have hx' : x ∉ s.names ∧ x ∉ d.dependencies := by
      constructor
      · exact fun e => hx ((a3 x).mpr (Or.inl e))
      · exact fun e => hx ((a3 x).mpr (Or.inr e))
    have hxt : x ≠ t := fun e => hx'.1 (e ▸ hm)
    rw [a5]
    simp [modTab_ne _ _ hxt, hxt, hx'.2, h.fresh x hx'.1]
  case unvisited =>
    intro x hx
    rw [vvis] at hx
    by_cases hxt : x = t
    · simp [hxt] at hx
    · rw [if_neg hxt] at hx
      have := h.unvisited x hx
      rw [vback, a5]
      simp only [modTab_ne _ _ hxt, hxt, if_false]
      rw [this]
  case visitedNames =>
    intro x hx
    rw [vvis] at hx
    rw [a3]
    by_cases hxt : x = t
    · exact Or.inl (hxt ▸ hm)
    · rw [if_neg hxt] at hx; exact Or.inl (h.visitedNames x hx)
  case visited =>
    intro x hx
    rw [vvis] at hx
    by_cases hxt : x = t
    · subst hxt
      refine ⟨d, hit, hd, ht, ?_⟩
      rw [vdeps, vback, a5]
      simp only [modTab_same, if_true]
      rw [hun]
      simp [visitRecord]
    · rw [if_neg hxt] at hx
      obtain ⟨d', hit', b1, b2, b3⟩ := h.visited x hx
      refine ⟨d', hit', b1, b2, ?_⟩
      rw [vdeps, vback, a5]
      simp only [modTab_ne _ _ hxt, hxt, if_false]
      rw [b3]
      simp [visitRecord]
  case deps =>
    intro x y
    rw [vvis, vdeps]
    by_cases hxt : x = t
    · subst hxt; simp [mem_foldl_listAdd, he]
    · simp only [hxt, if_false]; exact h.deps x y
  case back =>
    intro x y
    rw [vvis, vback]
    by_cases hxt : x = t
    · subst hxt
      simp only [if_true, true_and, he]
      split
      · rename_i hy; simp [mem_listAdd, hy]
      · rename_i hy; simp [hy, htb]
    · simp only [hxt, if_false]
      rw [← h.back]
      split
      · simp [mem_listAdd, hxt]
      · rfl
  case depNames =>
    intro x y h1 h2
    rw [vvis] at h1
    rw [a3]
    by_cases hxt : x = t
    · subst hxt; rw [he] at h2; exact Or.inr h2
    · rw [if_neg hxt] at h1; exact Or.inl (h.depNames x y h1 h2)
  case ndDeps =>
    intro x
    rw [vdeps]
    split
    · exact nodup_foldl_listAdd _ _ List.nodup_nil
    · exact h.ndDeps x
  case ndBack =>
    intro x
    rw [vback]
    split
    · exact listAdd_nodup _ (h.ndBack x)
    · exact h.ndBack x
  case ndMatching =>
    rw [a6]
    have htm : t ∉ s.matching := fun e => by
      have := ((h.matching t).mp e).1
      rw [hv] at this; cases this
    split
    · rw [← listAdd_of_notMem htm]; exact listAdd_nodup t h.ndMatching
    · exact h.ndMatching
  case matching =>
    intro x
    rw [a6, vvis]
    have hch : ChangedTarget inp t ↔ hit = true := by
      constructor
      · rintro ⟨d', h1, h2⟩
        rw [hd] at h1; cases h1; rw [ht] at h2; injection h2
      · rintro rfl; exact ⟨d, hd, ht⟩
    by_cases hxt : x = t
    · subst hxt
      have htm : x ∉ s.matching := fun e => by
        have := ((h.matching x).mp e).1
        rw [hv] at this; cases this
      cases hit <;> simp [hch, htm]
    · simp only [hxt, if_false]
      rw [← h.matching]
      cases hit <;> simp [hxt]
  case ndRoots => exact a2
  case roots =>
    intro x
    rw [a4, a3, vback, h.roots]
    by_cases hx : x ∈ d.dependencies
    · simp only [hx, not_true, and_false, if_true, or_true, true_and, false_iff]
      intro e
      have : t ∈ listAdd (s.tab x).backDeps t := (mem_listAdd _ _ _).mpr (Or.inl rfl)
      rw [e] at this; cases this
    · simp [hx]
  case fileTargets =>
    intro x
    rw [a7, vvis]
    by_cases hxt : x = t
    · subst hxt
      have htm : x ∉ s.fileTargets := fun e => by
        have := ((h.fileTargets x).mp e).1
        rw [hv] at this; cases this
      by_cases hb : inBuildFiles inp x = true
      · simp [hb, mem_listAdd]
      · simp [hb, htm]
    · simp only [hxt, if_false]
      rw [← h.fileTargets]
      split
      · simp [mem_listAdd, hxt]
      · rfl
  case todo =>
    intro x hx
    rw [vvis]
    by_cases hxt : x = t
    · simp [hxt]
    · simp only [hxt, if_false]
      rcases (a3 x).mp hx with h1 | h1
      · rcases h.todo x h1 with h2 | h2
        · exact Or.inl h2
        · rcases List.mem_cons.mp h2 with h2 | h2
          · exact absurd h2 hxt
          · exact Or.inr (by simp [h2])
      · exact Or.inr (by simp [h1])
  case reach =>
    have hdep : ∀ x ∈ d.dependencies, InBuild inp x := by
      intro x hx
      obtain ⟨r, hr, h1⟩ := h.reach t (Or.inl hm)
      exact ⟨r, hr, h1.tail (by rw [he]; exact hx)⟩
    intro x hx
    rcases hx with hx | hx
    · rcases (a3 x).mp hx with h1 | h1
      · exact h.reach x (Or.inl h1)
      · exact hdep x h1
    · simp only [List.mem_append, List.mem_reverse] at hx
      rcases hx with h1 | h1
      · exact hdep x h1
      · exact h.reach x (Or.inr (by simp [h1]))
  case start =>
    intro x hx
    rw [a3]
    rcases h.start x hx with h1 | h1
    · exact Or.inl (Or.inl h1)
    · rcases List.mem_cons.mp h1 with rfl | h1
      · exact Or.inl (Or.inl hm)
      · exact Or.inr (by simp [h1])

theorem visited_false_of {s : GState} {inp : AInput} {stack : List Str} {t : Str}
    (h : GenInv inp stack s) (hc : ¬ (t ∈ s.names ∧ (s.tab t).visited = true)) :
    (s.tab t).visited = false := by
  cases hv : (s.tab t).visited with
  | false => rfl
  | true => exact absurd ⟨h.visitedNames t hv, hv⟩ hc

theorem genInv_result {inp : AInput} (fuel : Nat) (stack : List Str) (s r : GState)
    (h : GenInv inp stack s) (hr : genLoop inp fuel stack s = .ok r) : GenInv inp [] r := by
  induction fuel generalizing stack s with
  | zero =>
    cases stack with
    | nil => simp only [genLoop] at hr; cases hr; exact h
    | cons t st => simp only [genLoop] at hr; cases hr
  | succ fuel ih =>
    cases stack with
    | nil => simp only [genLoop] at hr; cases hr; exact h
    | cons t st =>
      simp only [genLoop] at hr
      by_cases hc : t ∈ s.names ∧ (s.tab t).visited = true
      · rw [if_pos hc] at hr
        exact ih st s (genInv_skip h hc.2) hr
      · rw [if_neg hc] at hr
        have hv := visited_false_of h hc
        cases hd : inp.dicts t with
        | none => simp only [hd] at hr; cases hr
        | some d =>
          simp only [hd] at hr
          cases ht : touched inp t d with
          | error e => simp only [ht] at hr; cases hr
          | ok hit =>
            simp only [ht] at hr
            obtain ⟨b1, b2, b3⟩ := genInv_create h
            exact ih _ _ (genInv_visit b1 b2 (by rw [b3]; exact hv) hd ht) hr

/-- The result of `_GenerateTargets`, in terms of the dependency graph. -/
structure Generated (inp : AInput) (s : GState) : Prop where
  nd : s.names.Nodup
  names : ∀ t, t ∈ s.names ↔ InBuild inp t
  record : ∀ t ∈ s.names, ∃ d hit, inp.dicts t = some d ∧ touched inp t d = .ok hit ∧
    s.tab t = visitRecord d hit { deps := (s.tab t).deps, backDeps := (s.tab t).backDeps }
  fresh : ∀ t, t ∉ s.names → s.tab t = {}
  deps : ∀ t ∈ s.names, ∀ x, x ∈ (s.tab t).deps ↔ x ∈ depEdges inp t
  back : ∀ x y, x ∈ (s.tab y).backDeps ↔ x ∈ s.names ∧ y ∈ depEdges inp x
  ndMatching : s.matching.Nodup
  matching : ∀ t, t ∈ s.matching ↔ t ∈ s.names ∧ ChangedTarget inp t
  root : ∀ t, t ∈ rootTargets s ↔ PartOfAll inp t
  ndRoot : (rootTargets s).Nodup

theorem generated_of {inp : AInput} {fuel : Nat} {s : GState}
    (hr : generateTargets inp fuel = .ok s) : Generated inp s := by
  have h := genInv_result fuel _ _ s (genInv_init inp) hr
  have hvis : ∀ t, (s.tab t).visited = true ↔ t ∈ s.names := by
    intro t
    constructor
    · exact h.visitedNames t
    · intro ht
      rcases h.todo t ht with h1 | h1
      · exact h1
      · cases h1
  have hnames : ∀ t, t ∈ s.names ↔ InBuild inp t := by
    intro t
    constructor
    · exact fun ht => h.reach t (Or.inl ht)
    · rintro ⟨r, hr1, hr2⟩
      have hr3 : r ∈ s.names := by
        rcases h.start r hr1 with h1 | h1
        · exact h1
        · cases h1
      induction hr2 with
      | refl => exact hr3
      | tail _ e ih => exact h.depNames _ _ ((hvis _).mpr ih) e
  have hback : ∀ x y, x ∈ (s.tab y).backDeps ↔ x ∈ s.names ∧ y ∈ depEdges inp x := by
    intro x y; rw [h.back, hvis]
  refine
    { nd := h.nd
      names := hnames
      record := fun t ht => h.visited t ((hvis t).mpr ht)
      fresh := h.fresh
      deps := fun t ht x => by rw [h.deps, hvis]; simp [ht]
      back := hback
      ndMatching := h.ndMatching
      matching := fun t => by rw [h.matching, hvis]
      root := ?_
      ndRoot := h.ndRoots.filter _ }
  intro t
  simp only [rootTargets, List.mem_filter, decide_eq_true_eq]
  have hbf : inBuildFiles inp t = true ↔
      ∃ f ∈ inp.buildFiles, (ParseQualifiedTarget t).1 = some f := by
    unfold inBuildFiles
    cases (ParseQualifiedTarget t).1 with
    | none => simp
    | some f => simp
  rw [h.roots, h.fileTargets, hvis, PartOfAll, ← hnames, ← hbf]
  constructor
  · rintro ⟨⟨h1, h2⟩, -, h3⟩
    refine ⟨h1, ?_, h3⟩
    intro u hu e
    have := (hback u t).mpr ⟨(hnames u).mpr hu, e⟩
    rw [h2] at this; cases this
  · rintro ⟨h1, h2, h3⟩
    refine ⟨⟨h1, ?_⟩, h1, h3⟩
    rw [List.eq_nil_iff_forall_not_mem]
    intro u hu
    obtain ⟨c1, c2⟩ := (hback u t).mp hu
    exact h2 u ((hnames u).mp c1) c2

theorem touched_total {inp : AInput} {t f : Str} {d : TInfo} {included : List Str}
    (hf : (ParseQualifiedTarget t).1 = some f) (hi : inp.data f = some included) :
    ∃ b, touched inp t d = .ok b := by
  unfold touched
  rw [hf]
  simp only
  have : ∃ b, wasBuildFileModified inp f = .ok b := by
    unfold wasBuildFileModified
    split
    · exact ⟨_, rfl⟩
    · rw [hi]; exact ⟨_, rfl⟩
  obtain ⟨b, hb⟩ := this
  rw [hb]
  cases b <;> exact ⟨_, rfl⟩

/-- The dependencies of the targets of `U` not yet visited. -/
def pendingEdges (inp : AInput) (U : List Str) (s : GState) : Nat :=
  (U.map fun t => if (s.tab t).visited = true then 0 else (depEdges inp t).length).sum

theorem sum_map_drop {α : Type} (U : List α) (f f' : α → Nat) (x : α) (hx : x ∈ U)
    (hle : ∀ y, f' y ≤ f y) (h0 : f' x = 0) :
    (U.map f').sum + f x ≤ (U.map f).sum := by
  induction U with
  | nil => cases hx
  | cons a U ih =>
    simp only [List.map_cons, List.sum_cons]
    have hmono : (U.map f').sum ≤ (U.map f).sum := by
      clear ih hx
      induction U with
      | nil => simp
      | cons b U ih => simp only [List.map_cons, List.sum_cons]; have := hle b; omega
    rcases List.mem_cons.mp hx with rfl | hx
    · omega
    · have := ih hx; have := hle a; omega

theorem visitTarget_visited (inp : AInput) (t : Str) (d : TInfo) (hit : Bool) (s : GState) (x : Str) :
    ((visitTarget inp t d hit s).tab x).visited = (if x = t then true else (s.tab x).visited) := by
  unfold visitTarget
  have : ∀ (ds : List Str) (s : GState),
      ((ds.foldl (linkDep t) s).tab x).visited = (s.tab x).visited := by
    intro ds
    induction ds with
    | nil => intro s; rfl
    | cons d ds ih =>
      intro s
      rw [List.foldl_cons, ih]
      simp only [linkDep, modTab_apply]
      split <;> split <;> rfl
  rw [this]
  simp only [modTab_apply]
  by_cases h : x = t <;> simp [h, visitRecord]

theorem genLoop_total {inp : AInput} (hw : WellLoaded inp) {U : List Str}
    (hU : ∀ t, InBuild inp t → t ∈ U) (fuel : Nat) (stack : List Str) (s : GState)
    (h : GenInv inp stack s) (hf : stack.length + pendingEdges inp U s ≤ fuel) :
    ∃ r, genLoop inp fuel stack s = .ok r := by
  induction fuel generalizing stack s with
  | zero =>
    cases stack with
    | nil => exact ⟨s, by simp only [genLoop]⟩
    | cons t st => simp at hf
  | succ fuel ih =>
    cases stack with
    | nil => exact ⟨s, by simp only [genLoop]⟩
    | cons t st =>
      simp only [genLoop]
      simp only [List.length_cons] at hf
      by_cases hc : t ∈ s.names ∧ (s.tab t).visited = true
      · rw [if_pos hc]
        exact ih st s (genInv_skip h hc.2) (by omega)
      · rw [if_neg hc]
        have hv := visited_false_of h hc
        have hin := h.reach t (Or.inr (by simp))
        obtain ⟨d, f, inc, h1, h2, h3⟩ := hw.known t hin
        obtain ⟨hit, ht⟩ := touched_total (d := d) h2 h3
        rw [h1]; simp only [ht]
        obtain ⟨b1, b2, b3⟩ := genInv_create h
        refine ih _ _ (genInv_visit b1 b2 (by rw [b3]; exact hv) h1 ht) ?_
        have hdrop := sum_map_drop U
          (fun t => if (s.tab t).visited = true then 0 else (depEdges inp t).length)
          (fun x => if ((visitTarget inp t d hit (createTarget t s)).tab x).visited = true then 0
            else (depEdges inp x).length) t (hU t hin)
          (by
            intro y
            simp only [visitTarget_visited, b3]
            by_cases hy : y = t
            · simp [hy]
            · simp [hy])
          (by simp [visitTarget_visited])
        simp only [hv, Bool.false_eq_true, if_false] at hdrop
        rw [depEdges_some h1] at hdrop
        simp only [List.length_append, List.length_reverse]
        unfold pendingEdges at hf ⊢
        omega

end Gyp
