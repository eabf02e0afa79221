import Verif.Proofs.Analyzer
/-
Proofs about the queries of the change analyzer: memoised search down the graph, the
collection of compile targets up the graph, and the bounds on steps and depth.
-/
namespace Gyp
open Spec

/-! ### A rank for finite acyclic relations -/

theorem countP_lt {α : Type} (p q : α → Bool) (l : List α)
    (h : ∀ z ∈ l, p z = true → q z = true) (w : α) (hw : w ∈ l) (hq : q w = true)
    (hp : p w = false) : l.countP p < l.countP q := by
  induction l with
  | nil => cases hw
  | cons a l ih =>
    have hle : l.countP p ≤ l.countP q :=
      List.countP_mono_left fun z hz => h z (List.mem_cons_of_mem a hz)
    rw [List.countP_cons, List.countP_cons]
    rcases List.mem_cons.mp hw with rfl | hw
    · rw [hq, hp]; simp; omega
    · have := ih (fun z hz => h z (List.mem_cons_of_mem a hz)) hw
      have h2 : p a = true → q a = true := h a (by simp)
      by_cases hpa : p a = true
      · rw [hpa, h2 hpa]; simp; omega
      · simp only [Bool.not_eq_true] at hpa
        rw [hpa]; simp; split <;> omega

open Classical in
/-- The number of elements of `U` strictly after `x`. -/
noncomputable def rankIn {α : Type} (R : α → α → Prop) (U : List α) (x : α) : Nat :=
  U.countP fun y => decide (Relation.TransGen R x y)

theorem rankIn_lt {α : Type} {R : α → α → Prop} {U : List α} {x y : α} (hy : y ∈ U)
    (e : R x y) (hc : ¬ Relation.TransGen R y y) : rankIn R U y < rankIn R U x := by
  classical
  unfold rankIn
  refine countP_lt _ _ U ?_ y hy ?_ ?_
  · intro z _ hz
    simp only [decide_eq_true_eq] at hz ⊢
    exact Relation.TransGen.head e hz
  · simp only [decide_eq_true_eq]; exact .single e
  · simp only [decide_eq_false_iff_not]; exact hc

theorem rankIn_le {α : Type} (R : α → α → Prop) (U : List α) (x : α) :
    rankIn R U x ≤ U.length := List.countP_le_length

/-! ### The memoised search -/

theorem affected_iff {inp : AInput} {t : Str} :
    Affected inp t ↔ ChangedTarget inp t ∨ ∃ x ∈ depEdges inp t, Affected inp x := by
  constructor
  · rintro ⟨c, hc, h⟩
    rcases Relation.ReflTransGen.cases_head h with rfl | ⟨x, hx, h'⟩
    · exact Or.inl hc
    · exact Or.inr ⟨x, hx, c, hc, h'⟩
  · rintro (h | ⟨x, hx, c, hc, h⟩)
    · exact ⟨t, h, .refl⟩
    · exact ⟨c, hc, Relation.ReflTransGen.head hx h⟩

/-- Two records that differ at most in the status. -/
def SameButStatus (a b : ATarget) : Prop := { a with status := .tbd } = { b with status := .tbd }

theorem SameButStatus.deps {a b : ATarget} (h : SameButStatus a b) : a.deps = b.deps := by
  have := congrArg ATarget.deps h; exact this

/-- The statuses remembered so far are right. -/
structure StatusOK (inp : AInput) (s : GState) (tab : Str → ATarget) : Prop where
  same : ∀ t, SameButStatus (tab t) (s.tab t)
  hit : ∀ t ∈ s.names, (tab t).status = .matches_ ∨ (tab t).status = .matchesByDependency →
    Affected inp t
  miss : ∀ t ∈ s.names, (tab t).status = .doesntMatch → ¬ Affected inp t
  open_ : ∀ t ∈ s.names, (tab t).status = .tbd → ¬ ChangedTarget inp t

theorem statusOK_init {inp : AInput} {s : GState} (h : Generated inp s) :
    StatusOK inp s s.tab where
  same := fun _ => rfl
  hit := fun t ht hs => by
    obtain ⟨d, hit, h1, h2, h3⟩ := h.record t ht
    rw [h3] at hs
    cases hit
    · simp [visitRecord] at hs
    · exact ⟨t, ⟨d, h1, h2⟩, .refl⟩
  miss := fun t ht hs => by
    obtain ⟨d, hit, h1, h2, h3⟩ := h.record t ht
    rw [h3] at hs
    cases hit <;> simp [visitRecord] at hs
  open_ := fun t ht hs => by
    obtain ⟨d, hit, h1, h2, h3⟩ := h.record t ht
    rw [h3] at hs
    rintro ⟨d', h1', h2'⟩
    rw [h1] at h1'; cases h1'
    rw [h2] at h2'; cases h2'
    simp [visitRecord] at hs

theorem StatusOK.set {inp : AInput} {s : GState} {tab : Str → ATarget} (h : StatusOK inp s tab)
    (t : Str) (hn : ¬ ChangedTarget inp t) (st : MStatus) (h1 : st = .matchesByDependency → Affected inp t)
    (h2 : st = .doesntMatch → ¬ Affected inp t) (h3 : st ≠ .matches_) :
    StatusOK inp s (modTab tab t fun r => { r with status := st }) := by
  constructor
  · intro x
    by_cases hx : x = t
    · subst hx; rw [modTab_same]; exact h.same x
    · rw [modTab_ne _ _ hx]; exact h.same x
  · intro x hm hs
    by_cases hx : x = t
    · subst hx; rw [modTab_same] at hs
      rcases hs with hs | hs
      · exact absurd hs h3
      · exact h1 hs
    · rw [modTab_ne _ _ hx] at hs; exact h.hit x hm hs
  · intro x hm hs
    by_cases hx : x = t
    · subst hx; rw [modTab_same] at hs; exact h2 hs
    · rw [modTab_ne _ _ hx] at hs; exact h.miss x hm hs
  · intro x hm hs
    by_cases hx : x = t
    · subst hx; exact hn
    · rw [modTab_ne _ _ hx] at hs; exact h.open_ x hm hs

/-- Correctness of the search, for every history of earlier searches. -/
theorem dependsOnMatching_ok {inp : AInput} {s : GState} (hg : Generated inp s)
    {ord : SetOrder} (ho : Permutes ord) (depth : Nat) (t : Str) (tab : Str → ATarget)
    (hs : StatusOK inp s tab) (ht : t ∈ s.names) (b : Bool) (tab' : Str → ATarget)
    (h : dependsOnMatching ord depth t tab = .ok (b, tab')) :
    StatusOK inp s tab' ∧ (b = true ↔ Affected inp t) := by
  induction depth generalizing t tab b tab' with
  | zero => simp only [dependsOnMatching] at h; cases h
  | succ depth ih =>
    simp only [dependsOnMatching] at h
    by_cases h1 : (tab t).status = .doesntMatch
    · rw [if_pos h1] at h
      cases h
      exact ⟨hs, by simp [hs.miss t ht h1]⟩
    rw [if_neg h1] at h
    by_cases h2 : (tab t).status = .matches_ ∨ (tab t).status = .matchesByDependency
    · rw [if_pos h2] at h
      cases h
      exact ⟨hs, by simp [hs.hit t ht h2]⟩
    rw [if_neg h2] at h
    have h3 : (tab t).status = .tbd := by
      cases e : (tab t).status <;> simp_all
    have hnc := hs.open_ t ht h3
    have key : ∀ (ds : List Str) (tab : Str → ATarget) (b : Bool) (tab' : Str → ATarget),
        StatusOK inp s tab → (∀ x ∈ ds, x ∈ s.names) →
        anyDepends (dependsOnMatching ord depth) ds tab = .ok (b, tab') →
        StatusOK inp s tab' ∧ (b = true ↔ ∃ x ∈ ds, Affected inp x) := by
      intro ds
      induction ds with
      | nil =>
        intro tab b tab' hs _ h
        simp only [anyDepends] at h
        cases h
        exact ⟨hs, by simp⟩
      | cons d ds ihd =>
        intro tab b tab' hs hn h
        simp only [anyDepends] at h
        cases hf : dependsOnMatching ord depth d tab with
        | error e => simp only [hf] at h; cases h
        | ok r =>
          obtain ⟨b1, tab1⟩ := r
          simp only [hf] at h
          obtain ⟨c1, c2⟩ := ih d tab hs (hn d (by simp)) b1 tab1 hf
          cases b1 with
          | true =>
            simp only at h; cases h
            exact ⟨c1, by simp [c2.mp rfl]⟩
          | false =>
            simp only at h
            obtain ⟨e1, e2⟩ := ihd tab1 b tab' c1 (fun x hx => hn x (by simp [hx])) h
            refine ⟨e1, e2.trans ?_⟩
            have : ¬ Affected inp d := fun e => by simpa using c2.mpr e
            simp [this]
    have hmem : ∀ x, x ∈ ord (.deps t) (tab t).deps ↔ x ∈ depEdges inp t := by
      intro x
      rw [(ho _ _).mem_iff, (hs.same t).deps, hg.deps t ht]
    have hdn : ∀ x ∈ ord (.deps t) (tab t).deps, x ∈ s.names := by
      intro x hx
      rw [hg.names]
      obtain ⟨r, hr, hrt⟩ := (hg.names t).mp ht
      exact ⟨r, hr, hrt.tail ((hmem x).mp hx)⟩
    have haff : Affected inp t ↔ ∃ x ∈ ord (.deps t) (tab t).deps, Affected inp x := by
      rw [affected_iff]
      constructor
      · rintro (e | ⟨x, hx, e⟩)
        · exact absurd e hnc
        · exact ⟨x, (hmem x).mpr hx, e⟩
      · rintro ⟨x, hx, e⟩
        exact Or.inr ⟨x, (hmem x).mp hx, e⟩
    cases hf : anyDepends (dependsOnMatching ord depth) (ord (.deps t) (tab t).deps) tab with
    | error e => simp only [hf] at h; cases h
    | ok r =>
      obtain ⟨b1, tab1⟩ := r
      simp only [hf] at h
      obtain ⟨c1, c2⟩ := key _ _ _ _ hs hdn hf
      cases b1 with
      | true =>
        simp only at h; cases h
        have ha := haff.mpr (c2.mp rfl)
        exact ⟨c1.set t hnc _ (fun _ => ha) (fun e => by cases e) (fun e => by cases e),
          by simp [ha]⟩
      | false =>
        simp only at h; cases h
        have ha : ¬ Affected inp t := fun e => by simpa using c2.mpr (haff.mp e)
        exact ⟨c1.set t hnc _ (fun e => by cases e) (fun _ => ha) (fun e => by cases e),
          by simp [ha]⟩

/-- A whole sequence of searches. -/
theorem targetsDepending_ok {inp : AInput} {s : GState} (hg : Generated inp s)
    {ord : SetOrder} (ho : Permutes ord) (depth : Nat) (ts : List Str) (tab : Str → ATarget)
    (hs : StatusOK inp s tab) (ht : ∀ t ∈ ts, t ∈ s.names) (found : List Str)
    (tab' : Str → ATarget) (h : targetsDepending ord depth ts tab = .ok (found, tab')) :
    StatusOK inp s tab' ∧ found.Sublist ts ∧ ∀ t, t ∈ found ↔ t ∈ ts ∧ Affected inp t := by
  induction ts generalizing tab found tab' with
  | nil =>
    simp only [targetsDepending] at h; cases h
    exact ⟨hs, List.Sublist.refl _, by simp⟩
  | cons t ts ih =>
    simp only [targetsDepending] at h
    cases hf : dependsOnMatching ord depth t tab with
    | error e => simp only [hf] at h; cases h
    | ok r =>
      obtain ⟨b, tab1⟩ := r
      simp only [hf] at h
      obtain ⟨c1, c2⟩ := dependsOnMatching_ok hg ho depth t tab hs (ht t (by simp)) b tab1 hf
      cases hf2 : targetsDepending ord depth ts tab1 with
      | error e => simp only [hf2] at h; cases h
      | ok r2 =>
        obtain ⟨f2, tab2⟩ := r2
        simp only [hf2] at h
        obtain ⟨e1, e2, e3⟩ := ih tab1 c1 (fun x hx => ht x (by simp [hx])) f2 tab2 hf2
        cases h
        refine ⟨e1, ?_, ?_⟩
        · cases b
          · exact e2.cons t
          · exact e2.cons₂ t
        · intro x
          cases b with
          | true =>
            have := c2.mp rfl
            simp only [if_true, List.mem_cons, e3]
            constructor
            · rintro (rfl | ⟨h1, h2⟩)
              · exact ⟨Or.inl rfl, this⟩
              · exact ⟨Or.inr h1, h2⟩
            · rintro ⟨h1 | h1, h2⟩
              · exact Or.inl h1
              · exact Or.inr ⟨h1, h2⟩
          | false =>
            have hna : ¬ Affected inp t := fun e => by simpa using c2.mpr e
            simp only [Bool.false_eq_true, if_false, List.mem_cons, e3]
            constructor
            · rintro ⟨h1, h2⟩; exact ⟨Or.inr h1, h2⟩
            · rintro ⟨h1 | h1, h2⟩
              · exact absurd (h1 ▸ h2) hna
              · exact ⟨h1, h2⟩

/-- Edges of the graph as a relation. -/
abbrev DepRel (inp : AInput) (x y : Str) : Prop := y ∈ depEdges inp x

/-- With enough depth the search ends. -/
theorem dependsOnMatching_total {inp : AInput} {s : GState} (hg : Generated inp s)
    (hw : WellLoaded inp) {ord : SetOrder} (ho : Permutes ord) (depth : Nat) (t : Str)
    (tab : Str → ATarget) (hs : ∀ t, SameButStatus (tab t) (s.tab t)) (ht : t ∈ s.names)
    (hd : rankIn (DepRel inp) s.names t < depth) :
    ∃ b tab', dependsOnMatching ord depth t tab = .ok (b, tab') ∧
      ∀ t, SameButStatus (tab' t) (s.tab t) := by
  induction depth generalizing t tab with
  | zero => omega
  | succ depth ih =>
    simp only [dependsOnMatching]
    by_cases h1 : (tab t).status = .doesntMatch
    · rw [if_pos h1]; exact ⟨_, _, rfl, hs⟩
    rw [if_neg h1]
    by_cases h2 : (tab t).status = .matches_ ∨ (tab t).status = .matchesByDependency
    · rw [if_pos h2]; exact ⟨_, _, rfl, hs⟩
    rw [if_neg h2]
    have key : ∀ (ds : List Str) (tab : Str → ATarget),
        (∀ t, SameButStatus (tab t) (s.tab t)) → (∀ x ∈ ds, x ∈ depEdges inp t) →
        ∃ b tab', anyDepends (dependsOnMatching ord depth) ds tab = .ok (b, tab') ∧
          ∀ t, SameButStatus (tab' t) (s.tab t) := by
      intro ds
      induction ds with
      | nil => intro tab hs _; exact ⟨_, _, rfl, hs⟩
      | cons d ds ihd =>
        intro tab hs hn
        have hdt := hn d (by simp)
        have hdn : d ∈ s.names := by
          rw [hg.names]
          obtain ⟨r, hr, hrt⟩ := (hg.names t).mp ht
          exact ⟨r, hr, hrt.tail hdt⟩
        have hlt : rankIn (DepRel inp) s.names d < rankIn (DepRel inp) s.names t :=
          rankIn_lt hdn hdt (hw.acyclic d ((hg.names d).mp hdn))
        obtain ⟨b1, tab1, c1, c2⟩ := ih d tab hs hdn (by omega)
        simp only [anyDepends, c1]
        cases b1 with
        | true => exact ⟨_, _, rfl, c2⟩
        | false => exact ihd tab1 c2 (fun x hx => hn x (by simp [hx]))
    obtain ⟨b1, tab1, c1, c2⟩ := key (ord (.deps t) (tab t).deps) tab hs (fun x hx => by
      rw [(ho _ _).mem_iff, (hs t).deps, hg.deps t ht] at hx; exact hx)
    rw [c1]
    have hset : ∀ st x, SameButStatus
        (modTab tab1 t (fun r => { r with status := st }) x) (s.tab x) := by
      intro st x
      by_cases hx : x = t
      · subst hx; rw [modTab_same]; exact c2 x
      · rw [modTab_ne _ _ hx]; exact c2 x
    cases b1 with
    | true => exact ⟨_, _, rfl, hset _⟩
    | false => exact ⟨_, _, rfl, hset _⟩

theorem targetsDepending_total {inp : AInput} {s : GState} (hg : Generated inp s)
    (hw : WellLoaded inp) {ord : SetOrder} (ho : Permutes ord) (depth : Nat)
    (hd : s.names.length < depth) (ts : List Str)
    (tab : Str → ATarget) (hs : ∀ t, SameButStatus (tab t) (s.tab t)) (ht : ∀ t ∈ ts, t ∈ s.names) :
    ∃ found tab', targetsDepending ord depth ts tab = .ok (found, tab') := by
  induction ts generalizing tab with
  | nil => exact ⟨_, _, rfl⟩
  | cons t ts ih =>
    have hr := rankIn_le (DepRel inp) s.names t
    obtain ⟨b, tab1, c1, c2⟩ := dependsOnMatching_total hg hw ho depth t tab hs
      (ht t (by simp)) (by omega)
    obtain ⟨f, tab2, e1⟩ := ih tab1 c2 (fun x hx => ht x (by simp [hx]))
    simp only [targetsDepending, c1, e1]
    exact ⟨_, _, rfl⟩

/-! ### Collecting the compile targets -/

section Compile
variable {inp : AInput} {g : GState} {ord : SetOrder} {roots : List Str} {tab0 : Str → ATarget}

/-- `b` is a target of the build from which `t` is reached. -/
abbrev Above (inp : AInput) (g : GState) (b t : Str) : Prop :=
  b ∈ g.names ∧ Reach (depEdges inp) b t

/-- The values a finished target has. -/
structure CLocal (roots : List Str) (tab0 : Str → ATarget) (A : List Str) (s : CState) (x : Str)
    (top : Prop) : Prop where
  above : ∀ b ∈ (tab0 x).backDeps, (s.tab b).visited = true ∧ b ∉ A
  rooted : (s.tab x).inRoots = true ↔
    x ∈ roots ∨ ∃ b ∈ (tab0 x).backDeps, (s.tab b).inRoots = true
  linked : (s.tab x).linkedAncestor = true ↔
    (tab0 x).linkedAncestor = true ∨ ∃ b ∈ (tab0 x).backDeps, (s.tab b).linkedAncestor = true
  added : (s.tab x).added = true ↔
    x ∈ s.result ∨ ∃ b ∈ (tab0 x).backDeps, (s.tab b).added = true
  chosen : x ∈ s.result ↔ (s.tab x).inRoots = true ∧
    ((tab0 x).isExecutable = true ∨
      ((¬ ∃ b ∈ (tab0 x).backDeps, (s.tab b).added = true) ∧
        (top ∨ (tab0 x).requiresBuild = true)) ∨
      ((tab0 x).isStaticLibrary = true ∧ top ∧ (s.tab x).linkedAncestor ≠ true))

theorem CLocal.stable {A A' : List Str} {s s' : CState} {x : Str} {top : Prop}
    (h : CLocal roots tab0 A s x top)
    (hx : s'.tab x = s.tab x) (hr : x ∈ s'.result ↔ x ∈ s.result)
    (hb : ∀ b ∈ (tab0 x).backDeps, s'.tab b = s.tab b) (hA : ∀ b ∈ (tab0 x).backDeps, b ∉ A') :
    CLocal roots tab0 A' s' x top := by
  have e : ∀ (f : ATarget → Bool),
      (∃ b ∈ (tab0 x).backDeps, f (s'.tab b) = true) ↔
        ∃ b ∈ (tab0 x).backDeps, f (s.tab b) = true := by
    intro f
    constructor
    · rintro ⟨b, h1, h2⟩; exact ⟨b, h1, by rw [← hb b h1]; exact h2⟩
    · rintro ⟨b, h1, h2⟩; exact ⟨b, h1, by rw [hb b h1]; exact h2⟩
  constructor
  · intro b h1; rw [hb b h1]; exact ⟨(h.above b h1).1, hA b h1⟩
  · rw [hx, e (fun r => r.inRoots)]; exact h.rooted
  · rw [hx, e (fun r => r.linkedAncestor)]; exact h.linked
  · rw [hx, hr, e (fun r => r.added)]; exact h.added
  · rw [hx, hr, e (fun r => r.added)]; exact h.chosen

/-- The invariant of the collection: `A` are the targets being processed. -/
structure CompInv (g : GState) (roots : List Str) (tab0 : Str → ATarget) (A : List Str)
    (top : Str → Prop) (s : CState) : Prop where
  names : ∀ x, (s.tab x).visited = true → x ∈ g.names
  unvisited : ∀ x, (s.tab x).visited = false → s.tab x = tab0 x
  unres : ∀ x, (s.tab x).visited = false → x ∉ s.result
  active : ∀ x ∈ A, (s.tab x).visited = true ∧ x ∉ s.result
  static : ∀ x, (s.tab x).backDeps = (tab0 x).backDeps ∧
    (s.tab x).isExecutable = (tab0 x).isExecutable ∧
    (s.tab x).isStaticLibrary = (tab0 x).isStaticLibrary ∧
    (s.tab x).requiresBuild = (tab0 x).requiresBuild
  done : ∀ x, (s.tab x).visited = true → x ∉ A → CLocal roots tab0 A s x (top x)
  nd : s.result.Nodup

/-- What is visited stays as it is. -/
def Frame (P : Str → Prop) (s s' : CState) : Prop :=
  ∀ x, P x → (s.tab x).visited = true → s'.tab x = s.tab x ∧ (x ∈ s'.result ↔ x ∈ s.result)

/-- The facts about the graph the collection starts from. -/
structure CGraph (inp : AInput) (g : GState) (tab0 : Str → ATarget) : Prop where
  back : ∀ x y, x ∈ (tab0 y).backDeps ↔ x ∈ g.names ∧ y ∈ depEdges inp x
  acyclic : ∀ t ∈ g.names, ¬ OnCycle (depEdges inp) t
  closed : ∀ t ∈ g.names, ∀ x ∈ depEdges inp t, x ∈ g.names
  zero : ∀ t, (tab0 t).visited = false ∧ (tab0 t).added = false

/-- Above a finished target everything is finished. -/
theorem CompInv.above_done (hg : CGraph inp g tab0) {A : List Str} {top : Str → Prop} {s : CState}
    (h : CompInv g roots tab0 A top s) {b t : Str} (hb : b ∈ g.names)
    (hr : Reach (depEdges inp) b t) (ht : (s.tab t).visited = true) (hA : t ∉ A) :
    (s.tab b).visited = true ∧ b ∉ A := by
  induction hr using Relation.ReflTransGen.head_induction_on with
  | refl => exact ⟨ht, hA⟩
  | @head x y e _ ih =>
    have hy := ih (hg.closed x hb y e)
    exact (h.done y hy.1 hy.2).above x ((hg.back x y).mpr ⟨hb, e⟩)

theorem bool_or_any {β : Type} (l : List β) (f : β → Bool) (b : Bool) :
    (b || l.any f) = true ↔ b = true ∨ ∃ x ∈ l, f x = true := by simp

set_option maxHeartbeats 1000000 in
/-- `_AddCompileTargets` and the loop over the targets above. -/
theorem addCompile_ok (hg : CGraph inp g tab0) (ho : Permutes ord) (depth : Nat) :
    ∀ (flag : Bool) (t : Str) (s s' : CState) (A : List Str) (top : Str → Prop),
      CompInv g roots tab0 A top s → t ∈ g.names → (∀ a ∈ A, Reach1 (depEdges inp) t a) →
      addCompileTargets ord roots depth flag t s = .ok s' →
      CompInv g roots tab0 A
        (fun x => if (s.tab x).visited = true then top x else x = t ∧ flag = true) s' ∧
      Frame (fun _ => True) s s' ∧
      ∀ x, (s'.tab x).visited = true ↔ (s.tab x).visited = true ∨ Above inp g x t := by
  induction depth with
  | zero =>
    intro flag t s s' A top _ _ _ h
    simp only [addCompileTargets] at h; cases h
  | succ depth ih =>
    intro flag t s s' A top hI ht hA h
    simp only [addCompileTargets] at h
    by_cases hv : (s.tab t).visited = true
    · rw [if_pos hv] at h
      cases h
      have htA : t ∉ A := fun e => hg.acyclic t ht (hA t e)
      refine ⟨?_, fun x _ _ => ⟨rfl, Iff.rfl⟩, ?_⟩
      · refine { hI with done := ?_ }
        intro x hx hxA
        simp only [hx, if_true]
        exact hI.done x hx hxA
      · intro x
        constructor
        · exact Or.inl
        · rintro (e | ⟨e1, e2⟩)
          · exact e
          · exact (hI.above_done hg e1 e2 hv htA).1
    · rw [if_neg hv] at h
      have hvf : (s.tab t).visited = false := by simpa using hv
      -- the loop over the targets above
      have loop : ∀ (bs : List Str) (s s' : CState) (top : Str → Prop),
          CompInv g roots tab0 (t :: A) top s → (∀ b ∈ bs, b ∈ (tab0 t).backDeps) →
          backLoop (addCompileTargets ord roots depth false) t bs s = .ok s' →
          CompInv g roots tab0 (t :: A)
            (fun x => if (s.tab x).visited = true then top x else False) s' ∧
          Frame (fun x => x ≠ t) s s' ∧
          (∀ x, (s'.tab x).visited = true ↔
            (s.tab x).visited = true ∨ ∃ b ∈ bs, Above inp g x b) ∧
          (∀ b ∈ bs, (s'.tab b).visited = true ∧ b ∉ t :: A) ∧
          ((s'.tab t).inRoots = ((s.tab t).inRoots || bs.any fun b => (s'.tab b).inRoots)) ∧
          ((s'.tab t).linkedAncestor =
            ((s.tab t).linkedAncestor || bs.any fun b => (s'.tab b).linkedAncestor)) ∧
          ((s'.tab t).added = ((s.tab t).added || bs.any fun b => (s'.tab b).added)) := by
        intro bs
        induction bs with
        | nil =>
          intro s s' top hI _ h
          simp only [backLoop] at h; cases h
          refine ⟨?_, fun x _ _ => ⟨rfl, Iff.rfl⟩, by simp, by simp, by simp, by simp, by simp⟩
          refine { hI with done := ?_ }
          intro x hx hxA
          simp only [hx, if_true]
          exact hI.done x hx hxA
        | cons b bs ihb =>
          intro s s' top hI hbs h
          simp only [backLoop] at h
          cases hf : addCompileTargets ord roots depth false b s with
          | error e => simp only [hf] at h; cases h
          | ok s1 =>
            simp only [hf] at h
            have hbt := (hg.back b t).mp (hbs b (by simp))
            have hbA : ∀ a ∈ t :: A, Reach1 (depEdges inp) b a := by
              intro a ha
              rcases List.mem_cons.mp ha with rfl | ha
              · exact .single hbt.2
              · exact Relation.TransGen.head hbt.2 (hA a ha)
            have hbnot : b ∉ t :: A := fun e => hg.acyclic b hbt.1 (hbA b e)
            obtain ⟨c1, c2, c3⟩ := ih false b s s1 (t :: A) top hI hbt.1 hbA hf
            have hbv : (s1.tab b).visited = true := (c3 b).mpr (Or.inr ⟨hbt.1, .refl⟩)
            have htv : (s.tab t).visited = true := (hI.active t (by simp)).1
            have hbne : b ≠ t := fun e => hbnot (by simp [e])
            -- absorbing the values of `b` keeps the invariant
            have hne : ∀ x, x ≠ t → (absorb t b s1).tab x = s1.tab x := fun x hx => by
              simp only [absorb]; exact modTab_ne _ _ hx
            have hsame : (absorb t b s1).tab t =
                { s1.tab t with
                  added := (s1.tab t).added || (s1.tab b).added
                  inRoots := (s1.tab t).inRoots || (s1.tab b).inRoots
                  linkedAncestor := (s1.tab t).linkedAncestor || (s1.tab b).linkedAncestor } := by
              simp only [absorb]; exact modTab_same _ _ _
            have hvis : ∀ x, ((absorb t b s1).tab x).visited = (s1.tab x).visited := by
              intro x
              by_cases hx : x = t
              · subst hx; rw [hsame]
              · rw [hne x hx]
            have hres : (absorb t b s1).result = s1.result := rfl
            have htv1 : (s1.tab t).visited = true := (c3 t).mpr (Or.inl htv)
            have hI2 : CompInv g roots tab0 (t :: A)
                (fun x => if (s.tab x).visited = true then top x else False)
                (absorb t b s1) := by
              refine
                { names := fun x hx => c1.names x (by rw [← hvis x]; exact hx)
                  unvisited := fun x hx => ?_
                  unres := fun x hx => c1.unres x (by rw [← hvis x]; exact hx)
                  active := fun x hx => ⟨by rw [hvis x]; exact (c1.active x hx).1,
                    (c1.active x hx).2⟩
                  static := fun x => ?_
                  done := fun x hx hxA => ?_
                  nd := c1.nd }
              · have hxt : x ≠ t := by
                  rintro rfl
                  rw [hvis, htv1] at hx; cases hx
                rw [hne x hxt]
                exact c1.unvisited x (by rw [← hvis x]; exact hx)
              · by_cases hxt : x = t
                · subst hxt; rw [hsame]; exact c1.static x
                · rw [hne x hxt]; exact c1.static x
              · have hxt : x ≠ t := fun e => hxA (by simp [e])
                have hd := c1.done x (by rw [← hvis x]; exact hx) hxA
                have htop : (if (s.tab x).visited = true then top x else x = b ∧ false = true) ↔
                    (if (s.tab x).visited = true then top x else False) := by
                  split <;> simp
                have hd' : CLocal roots tab0 (t :: A) s1 x
                    (if (s.tab x).visited = true then top x else False) := by
                  rw [← propext htop]; exact hd
                refine hd'.stable (hne x hxt) Iff.rfl ?_ ?_
                · intro y hy
                  exact hne y (fun e => (hd.above y hy).2 (by simp [e]))
                · intro y hy
                  exact (hd.above y hy).2
            obtain ⟨d1, d2, d3, d4, d5, d6, d7⟩ :=
              ihb (absorb t b s1) s' _ hI2 (fun x hx => hbs x (by simp [hx])) h
            have hbs' : s'.tab b = s1.tab b := by
              rw [(d2 b hbne (by rw [hvis]; exact hbv)).1, hne b hbne]
            have hts1 : s1.tab t = s.tab t := (c2 t trivial htv).1
            refine ⟨?_, ?_, ?_, ?_, ?_, ?_, ?_⟩
            · refine { d1 with done := ?_ }
              intro x hx hxA
              have hd := d1.done x hx hxA
              have htop : (if ((absorb t b s1).tab x).visited = true then
                  (if (s.tab x).visited = true then top x else False) else False) ↔
                  (if (s.tab x).visited = true then top x else False) := by
                rw [hvis]
                by_cases h1 : (s.tab x).visited = true
                · simp [h1, (c3 x).mpr (Or.inl h1)]
                · simp [h1]
              show CLocal roots tab0 (t :: A) s' x
                (if (s.tab x).visited = true then top x else False)
              rw [← propext htop]; exact hd
            · intro x hxt hx
              have h1 := c2 x trivial hx
              have h2 := d2 x hxt (by rw [hvis]; exact (c3 x).mpr (Or.inl hx))
              exact ⟨by rw [h2.1, hne x hxt, h1.1], h2.2.trans h1.2⟩
            · intro x
              rw [d3, hvis, c3]
              simp only [List.mem_cons, exists_eq_or_imp]
              tauto
            · intro x hx
              rcases List.mem_cons.mp hx with rfl | hx
              · exact ⟨by rw [hbs']; exact hbv, hbnot⟩
              · exact d4 x hx
            · rw [d5, hsame, hts1]
              simp only [List.any_cons, hbs']
              cases (s.tab t).inRoots <;> cases (s1.tab b).inRoots <;> simp
            · rw [d6, hsame, hts1]
              simp only [List.any_cons, hbs']
              cases (s.tab t).linkedAncestor <;> cases (s1.tab b).linkedAncestor <;> simp
            · rw [d7, hsame, hts1]
              simp only [List.any_cons, hbs']
              cases (s.tab t).added <;> cases (s1.tab b).added <;> simp
      -- entering
      have htA : t ∉ A := fun e => by rw [(hI.active t e).1] at hvf; cases hvf
      have h0 := hI.unvisited t hvf
      have ene : ∀ x, x ≠ t → (enterCompile roots t s).tab x = s.tab x := fun x hx => by
        simp only [enterCompile]; exact modTab_ne _ _ hx
      have esame : (enterCompile roots t s).tab t =
          { s.tab t with visited := true, inRoots := t ∈ roots } := by
        simp only [enterCompile]; exact modTab_same _ _ _
      have evis : ∀ x, ((enterCompile roots t s).tab x).visited = true ↔
          (s.tab x).visited = true ∨ x = t := by
        intro x
        by_cases hx : x = t
        · subst hx; rw [esame]; simp
        · rw [ene x hx]; simp [hx]
      have hI1 : CompInv g roots tab0 (t :: A) top (enterCompile roots t s) := by
        refine
          { names := fun x hx => ?_
            unvisited := fun x hx => ?_
            unres := fun x hx => ?_
            active := fun x hx => ?_
            static := fun x => ?_
            done := fun x hx hxA => ?_
            nd := hI.nd }
        · rcases (evis x).mp hx with h1 | rfl
          · exact hI.names x h1
          · exact ht
        · have hxt : x ≠ t := by
            rintro rfl
            rw [esame] at hx; cases hx
          rw [ene x hxt] at hx ⊢
          exact hI.unvisited x hx
        · have hxt : x ≠ t := by
            rintro rfl
            rw [esame] at hx; cases hx
          rw [ene x hxt] at hx
          exact hI.unres x hx
        · rcases List.mem_cons.mp hx with rfl | hx
          · exact ⟨by rw [esame], hI.unres x hvf⟩
          · exact ⟨(evis x).mpr (Or.inl (hI.active x hx).1), (hI.active x hx).2⟩
        · by_cases hxt : x = t
          · subst hxt; rw [esame]; exact hI.static x
          · rw [ene x hxt]; exact hI.static x
        · have hxt : x ≠ t := fun e => hxA (by simp [e])
          rw [ene x hxt] at hx
          have hd := hI.done x hx (fun e => hxA (by simp [e]))
          have hbt : ∀ b ∈ (tab0 x).backDeps, b ≠ t := by
            rintro b hb rfl
            rw [(hd.above b hb).1] at hvf; cases hvf
          refine hd.stable (ene x hxt) Iff.rfl (fun b hb => ene b (hbt b hb)) ?_
          intro b hb e
          rcases List.mem_cons.mp e with e | e
          · exact hbt b hb e
          · exact (hd.above b hb).2 e
      cases hl : backLoop (addCompileTargets ord roots depth false) t
          (ord (.backDeps t) (s.tab t).backDeps) (enterCompile roots t s) with
      | error e => simp only [hl] at h; cases h
      | ok s1 =>
        simp only [hl] at h
        cases h
        have hmem : ∀ b, b ∈ ord (.backDeps t) (s.tab t).backDeps ↔ b ∈ (tab0 t).backDeps := by
          intro b; rw [(ho _ _).mem_iff, h0]
        obtain ⟨d1, d2, d3, d4, d5, d6, d7⟩ :=
          loop _ _ _ top hI1 (fun b hb => (hmem b).mp hb) hl
        have hany : ∀ f : ATarget → Bool,
            ((ord (.backDeps t) (s.tab t).backDeps).any fun b => f (s1.tab b)) = true ↔
              ∃ b ∈ (tab0 t).backDeps, f (s1.tab b) = true := by
          intro f
          rw [List.any_eq_true]
          constructor
          · rintro ⟨b, h1, h2⟩; exact ⟨b, (hmem b).mp h1, h2⟩
          · rintro ⟨b, h1, h2⟩; exact ⟨b, (hmem b).mpr h1, h2⟩
        have htres : t ∉ s1.result := (d1.active t (by simp)).2
        have htv1 : (s1.tab t).visited = true := (d1.active t (by simp)).1
        have hst := d1.static t
        have hb1 : ∀ b ∈ (tab0 t).backDeps, (s1.tab b).visited = true ∧ b ≠ t ∧ b ∉ A := by
          intro b hb
          have := d4 b ((hmem b).mpr hb)
          exact ⟨this.1, fun e => this.2 (by simp [e]), fun e => this.2 (by simp [e])⟩
        have r1 : (s1.tab t).inRoots = true ↔
            t ∈ roots ∨ ∃ b ∈ (tab0 t).backDeps, (s1.tab b).inRoots = true := by
          rw [d5, esame, Bool.or_eq_true, hany (fun r => r.inRoots)]
          simp
        have r2 : (s1.tab t).linkedAncestor = true ↔ (tab0 t).linkedAncestor = true ∨
            ∃ b ∈ (tab0 t).backDeps, (s1.tab b).linkedAncestor = true := by
          rw [d6, esame, Bool.or_eq_true, hany (fun r => r.linkedAncestor), h0]
        have r3 : (s1.tab t).added = true ↔
            ∃ b ∈ (tab0 t).backDeps, (s1.tab b).added = true := by
          rw [d7, esame, Bool.or_eq_true, hany (fun r => r.added), h0, (hg.zero t).2]
          simp
        have hmust : mustCompile (s1.tab t) flag = true ↔ (s1.tab t).inRoots = true ∧
            ((tab0 t).isExecutable = true ∨
              ((¬ ∃ b ∈ (tab0 t).backDeps, (s1.tab b).added = true) ∧
                (flag = true ∨ (tab0 t).requiresBuild = true)) ∨
              ((tab0 t).isStaticLibrary = true ∧ flag = true ∧
                (s1.tab t).linkedAncestor ≠ true)) := by
          rw [← r3, ← hst.2.1, ← hst.2.2.1, ← hst.2.2.2]
          simp only [mustCompile, Bool.and_eq_true, Bool.or_eq_true, Bool.not_eq_true',
            ne_eq, Bool.not_eq_true]
          tauto
        have lne : ∀ x, x ≠ t → (leaveCompile t flag s1).tab x = s1.tab x := fun x hx => by
          unfold leaveCompile
          split
          · simp only; rw [modTab_ne _ _ hx]
          · rfl
        have lres : ∀ x, x ≠ t → (x ∈ (leaveCompile t flag s1).result ↔ x ∈ s1.result) := by
          intro x hx
          unfold leaveCompile
          split
          · simp [mem_listAdd, hx]
          · rfl
        have lvis : ∀ x, ((leaveCompile t flag s1).tab x).visited = (s1.tab x).visited := by
          intro x
          unfold leaveCompile
          split
          · simp only
            by_cases hx : x = t
            · subst hx; rw [modTab_same]
            · rw [modTab_ne _ _ hx]
          · rfl
        have ltab : (leaveCompile t flag s1).tab t =
            { s1.tab t with added := (s1.tab t).added || mustCompile (s1.tab t) flag } := by
          unfold leaveCompile
          split
          · rename_i hm; simp only [modTab_same, hm, Bool.or_true]
          · rename_i hm
            have : mustCompile (s1.tab t) flag = false := by simpa using hm
            rw [this, Bool.or_false]
        have lrest : t ∈ (leaveCompile t flag s1).result ↔ mustCompile (s1.tab t) flag = true := by
          unfold leaveCompile
          split
          · rename_i hm; simp [mem_listAdd, hm]
          · rename_i hm
            have : mustCompile (s1.tab t) flag = false := by simpa using hm
            simp [this, htres]
        refine ⟨?_, ?_, ?_⟩
        · refine
            { names := fun x hx => d1.names x (by rw [← lvis x]; exact hx)
              unvisited := fun x hx => ?_
              unres := fun x hx => ?_
              active := fun x hx => ?_
              static := fun x => ?_
              done := fun x hx hxA => ?_
              nd := ?_ }
          · have hxt : x ≠ t := by
              rintro rfl
              rw [lvis, htv1] at hx; cases hx
            rw [lvis] at hx
            rw [lne x hxt]; exact d1.unvisited x hx
          · have hxt : x ≠ t := by
              rintro rfl
              rw [lvis, htv1] at hx; cases hx
            rw [lvis] at hx
            rw [lres x hxt]; exact d1.unres x hx
          · have hxt : x ≠ t := fun e => htA (e ▸ hx)
            have := d1.active x (by simp [hx])
            rw [lvis, lres x hxt]; exact this
          · by_cases hxt : x = t
            · subst hxt; rw [ltab]; exact hst
            · rw [lne x hxt]; exact d1.static x
          · by_cases hxt : x = t
            · subst hxt
              have htop : (if (s.tab x).visited = true then top x else x = x ∧ flag = true) ↔
                  flag = true := by simp [hvf]
              show CLocal roots tab0 A (leaveCompile x flag s1) x
                (if (s.tab x).visited = true then top x else x = x ∧ flag = true)
              rw [propext htop]
              have e : ∀ (f : ATarget → Bool),
                  (∃ b ∈ (tab0 x).backDeps, f ((leaveCompile x flag s1).tab b) = true) ↔
                    ∃ b ∈ (tab0 x).backDeps, f (s1.tab b) = true := by
                intro f
                constructor
                · rintro ⟨b, h1, h2⟩; exact ⟨b, h1, by rw [← lne b (hb1 b h1).2.1]; exact h2⟩
                · rintro ⟨b, h1, h2⟩; exact ⟨b, h1, by rw [lne b (hb1 b h1).2.1]; exact h2⟩
              constructor
              · intro b hb
                rw [lvis]
                exact ⟨(hb1 b hb).1, (hb1 b hb).2.2⟩
              · rw [e (fun r => r.inRoots), ltab]; exact r1
              · rw [e (fun r => r.linkedAncestor), ltab]; exact r2
              · rw [e (fun r => r.added), ltab, lrest]
                simp only [Bool.or_eq_true]
                rw [r3]; exact or_comm
              · rw [e (fun r => r.added), ltab, lrest]; exact hmust
            · rw [lvis] at hx
              have hxA' : x ∉ t :: A := fun e => by
                rcases List.mem_cons.mp e with e | e
                · exact hxt e
                · exact hxA e
              have hd := d1.done x hx hxA'
              have htop : (if (s.tab x).visited = true then top x else x = t ∧ flag = true) ↔
                  (if ((enterCompile roots t s).tab x).visited = true then top x else False) := by
                rw [ene x hxt]
                by_cases h1 : (s.tab x).visited = true
                · simp [h1]
                · simp [h1, hxt]
              show CLocal roots tab0 A (leaveCompile t flag s1) x
                (if (s.tab x).visited = true then top x else x = t ∧ flag = true)
              rw [propext htop]
              refine hd.stable (lne x hxt) (lres x hxt) ?_ ?_
              · intro b hb
                exact lne b (fun e => (hd.above b hb).2 (by simp [e]))
              · intro b hb e
                exact (hd.above b hb).2 (by simp [e])
          · unfold leaveCompile
            split
            · exact listAdd_nodup _ d1.nd
            · exact d1.nd
        · intro x _ hx
          have hxt : x ≠ t := by
            rintro rfl
            rw [hx] at hvf; cases hvf
          have h2 := d2 x hxt ((evis x).mpr (Or.inl hx))
          exact ⟨by rw [lne x hxt, h2.1, ene x hxt], (lres x hxt).trans h2.2⟩
        · intro x
          rw [lvis, d3, evis]
          constructor
          · rintro ((h1 | rfl) | ⟨b, hb, h1, h2⟩)
            · exact Or.inl h1
            · exact Or.inr ⟨ht, .refl⟩
            · have := (hg.back b t).mp ((hmem b).mp hb)
              exact Or.inr ⟨h1, h2.tail this.2⟩
          · rintro (h1 | ⟨h1, h2⟩)
            · exact Or.inl (Or.inl h1)
            · rcases Relation.ReflTransGen.cases_tail h2 with h3 | ⟨b, h3, h4⟩
              · exact Or.inl (Or.inr h3.symm)
              · have hbn : b ∈ g.names := by
                  clear h2 h4
                  induction h3 with
                  | refl => exact h1
                  | tail _ e ih' => exact hg.closed _ ih' _ e
                exact Or.inr ⟨b, (hmem b).mpr ((hg.back b t).mpr ⟨hbn, h4⟩), h1, h3⟩

theorem getCompile_ok (hg : CGraph inp g tab0) (ho : Permutes ord) (depth : Nat) (ms : List Str)
    (hms : ∀ m ∈ ms, m ∈ g.names) :
    ∀ (s s' : CState) (top : Str → Prop), CompInv g roots tab0 [] top s →
      getCompileTargets ord depth roots ms s = .ok s' →
      CompInv g roots tab0 []
        (fun x => if (s.tab x).visited = true then top x else FirstBelow inp ms x) s' ∧
      ∀ x, (s'.tab x).visited = true ↔ (s.tab x).visited = true ∨ ∃ m ∈ ms, Above inp g x m := by
  induction ms with
  | nil =>
    intro s s' top hI h
    simp only [getCompileTargets] at h; cases h
    refine ⟨?_, by simp⟩
    refine { hI with done := ?_ }
    intro x hx hxA
    simp only [hx, if_true]
    exact hI.done x hx hxA
  | cons m ms ih =>
    intro s s' top hI h
    simp only [getCompileTargets] at h
    cases hf : addCompileTargets ord roots depth true m s with
    | error e => simp only [hf] at h; cases h
    | ok s1 =>
      simp only [hf] at h
      have hm := hms m (by simp)
      obtain ⟨c1, -, c3⟩ := addCompile_ok hg ho depth true m s s1 [] top hI hm (by simp) hf
      obtain ⟨e1, e2⟩ := ih (fun x hx => hms x (by simp [hx])) s1 s' _ c1 h
      refine ⟨?_, ?_⟩
      · refine { e1 with done := ?_ }
        intro x hx hxA
        have hd := e1.done x hx hxA
        have htop : (if (s1.tab x).visited = true then
              (if (s.tab x).visited = true then top x else x = m ∧ true = true)
              else FirstBelow inp ms x) ↔
            (if (s.tab x).visited = true then top x else FirstBelow inp (m :: ms) x) := by
          by_cases h1 : (s.tab x).visited = true
          · simp [h1, (c3 x).mpr (Or.inl h1)]
          · simp only [h1, if_false, Bool.false_eq_true]
            by_cases h2 : (s1.tab x).visited = true
            · simp only [h2, if_true, and_true]
              have h3 : Above inp g x m := by
                rcases (c3 x).mp h2 with h3 | h3
                · exact absurd h3 h1
                · exact h3
              constructor
              · rintro rfl; exact ⟨[], ms, rfl, by simp⟩
              · rintro ⟨p, q, h4, h5⟩
                cases p with
                | nil => exact (List.cons.inj h4).1.symm
                | cons a p =>
                  obtain ⟨rfl, -⟩ := List.cons.inj h4
                  exact absurd h3.2 (h5 _ (by simp))
            · simp only [h2, if_false, Bool.false_eq_true]
              have hxn : x ∈ g.names := e1.names x hx
              have h3 : ¬ Reach (depEdges inp) x m := fun e => h2 ((c3 x).mpr (Or.inr ⟨hxn, e⟩))
              constructor
              · rintro ⟨p, q, rfl, h5⟩
                refine ⟨m :: p, q, rfl, ?_⟩
                intro y hy
                rcases List.mem_cons.mp hy with rfl | hy
                · exact h3
                · exact h5 y hy
              · rintro ⟨p, q, h4, h5⟩
                cases p with
                | nil =>
                  have := (List.cons.inj h4).1
                  subst this
                  exact absurd .refl h3
                | cons a p =>
                  obtain ⟨-, h6⟩ := List.cons.inj h4
                  exact ⟨p, q, h6, fun y hy => h5 y (by simp [hy])⟩
        show CLocal roots tab0 [] s' x
          (if (s.tab x).visited = true then top x else FirstBelow inp (m :: ms) x)
        rw [← propext htop]; exact hd
      · intro x
        rw [e2, c3]
        simp only [List.mem_cons, exists_eq_or_imp]
        tauto

/-- A property that holds of a finished target iff it holds at the base of something
above it. -/
theorem propagates (hg : CGraph inp g tab0) {V : Str → Prop} {P Base : Str → Prop}
    (hV : ∀ x, V x → x ∈ g.names ∧ ∀ b ∈ (tab0 x).backDeps, V b)
    (hP : ∀ x, V x → (P x ↔ Base x ∨ ∃ b ∈ (tab0 x).backDeps, P b)) (x : Str) (hx : V x) :
    P x ↔ ∃ r, Above inp g r x ∧ Base r := by
  constructor
  · -- by induction on the number of targets above
    have : ∀ n x, rankIn (fun a b => DepRel inp b a) g.names x < n → V x → P x →
        ∃ r, Above inp g r x ∧ Base r := by
      intro n
      induction n with
      | zero => intro x h; omega
      | succ n ih =>
        intro x hn hx hp
        rcases (hP x hx).mp hp with h | ⟨b, hb, hpb⟩
        · exact ⟨x, ⟨(hV x hx).1, .refl⟩, h⟩
        · have hbx := (hg.back b x).mp hb
          have hlt : rankIn (fun a b => DepRel inp b a) g.names b <
              rankIn (fun a b => DepRel inp b a) g.names x := by
            refine rankIn_lt hbx.1 hbx.2 ?_
            intro hc
            refine hg.acyclic b hbx.1 ?_
            rw [OnCycle, Reach1]
            rw [← Relation.transGen_swap]
            exact hc
          obtain ⟨r, hr, hbr⟩ := ih b (by omega) ((hV x hx).2 b hb) hpb
          exact ⟨r, ⟨hr.1, hr.2.tail hbx.2⟩, hbr⟩
    exact this _ x (Nat.lt_succ_self _) hx
  · rintro ⟨r, ⟨hr, hreach⟩, hb⟩
    have hn : ∀ y, Reach (depEdges inp) r y → y ∈ g.names := by
      intro y hy
      induction hy with
      | refl => exact hr
      | tail _ e ih => exact hg.closed _ ih _ e
    induction hreach with
    | refl => exact (hP r hx).mpr (Or.inl hb)
    | @tail y z h1 e ih =>
      have hback := (hg.back y z).mpr ⟨hn y h1, e⟩
      exact (hP z hx).mpr (Or.inr ⟨y, hback, ih ((hV z hx).2 y hback)⟩)

/-- With enough depth the collection ends. -/
theorem addCompile_total (hg : CGraph inp g tab0) (ho : Permutes ord) (depth : Nat) :
    ∀ (flag : Bool) (t : Str) (s : CState),
      (∀ x, (s.tab x).backDeps = (tab0 x).backDeps) →
      rankIn (fun a b => DepRel inp b a) g.names t < depth →
      ∃ s', addCompileTargets ord roots depth flag t s = .ok s' ∧
        ∀ x, (s'.tab x).backDeps = (tab0 x).backDeps := by
  induction depth with
  | zero => intro flag t s _ h; omega
  | succ depth ih =>
    intro flag t s hs hd
    simp only [addCompileTargets]
    by_cases hv : (s.tab t).visited = true
    · rw [if_pos hv]; exact ⟨s, rfl, hs⟩
    · rw [if_neg hv]
      have loop : ∀ (bs : List Str) (s : CState),
          (∀ x, (s.tab x).backDeps = (tab0 x).backDeps) → (∀ b ∈ bs, b ∈ (tab0 t).backDeps) →
          ∃ s', backLoop (addCompileTargets ord roots depth false) t bs s = .ok s' ∧
            ∀ x, (s'.tab x).backDeps = (tab0 x).backDeps := by
        intro bs
        induction bs with
        | nil => intro s hs _; exact ⟨s, rfl, hs⟩
        | cons b bs ihb =>
          intro s hs hbs
          have hbt := (hg.back b t).mp (hbs b (by simp))
          have hlt : rankIn (fun a b => DepRel inp b a) g.names b <
              rankIn (fun a b => DepRel inp b a) g.names t := by
            refine rankIn_lt hbt.1 hbt.2 ?_
            intro hc
            refine hg.acyclic b hbt.1 ?_
            rw [OnCycle, Reach1]
            rw [← Relation.transGen_swap]
            exact hc
          obtain ⟨s1, c1, c2⟩ := ih false b s hs (by omega)
          simp only [backLoop, c1]
          refine ihb (absorb t b s1) ?_ (fun x hx => hbs x (by simp [hx]))
          intro x
          simp only [absorb]
          by_cases hx : x = t
          · subst hx; rw [modTab_same]; exact c2 x
          · rw [modTab_ne _ _ hx]; exact c2 x
      obtain ⟨s1, c1, c2⟩ := loop (ord (.backDeps t) (s.tab t).backDeps) (enterCompile roots t s)
        (by
          intro x
          simp only [enterCompile]
          by_cases hx : x = t
          · subst hx; rw [modTab_same]; exact hs x
          · rw [modTab_ne _ _ hx]; exact hs x)
        (fun b hb => by rw [(ho _ _).mem_iff, hs] at hb; exact hb)
      rw [c1]
      refine ⟨_, rfl, ?_⟩
      intro x
      unfold leaveCompile
      split
      · simp only
        by_cases hx : x = t
        · subst hx; rw [modTab_same]; exact c2 x
        · rw [modTab_ne _ _ hx]; exact c2 x
      · exact c2 x

theorem getCompile_total (hg : CGraph inp g tab0) (ho : Permutes ord) (depth : Nat)
    (hd : g.names.length < depth) (ms : List Str) :
    ∀ (s : CState), (∀ x, (s.tab x).backDeps = (tab0 x).backDeps) →
      ∃ s', getCompileTargets ord depth roots ms s = .ok s' := by
  induction ms with
  | nil => intro s _; exact ⟨s, rfl⟩
  | cons m ms ih =>
    intro s hs
    have hr := rankIn_le (fun a b => DepRel inp b a) g.names m
    obtain ⟨s1, c1, c2⟩ := addCompile_total (roots := roots) hg ho depth true m s hs (by omega)
    simp only [getCompileTargets, c1]
    exact ih s1 c2

end Compile

end Gyp
