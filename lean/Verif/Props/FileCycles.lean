import Verif.Props.Load
/-
C61: circular dependencies between build files.
-/
namespace Gyp
open Spec

/-- The build file of a qualified target name. -/
def fileOf (t : Str) : Str := (BuildFile t).getD []

/-- Some target of the build file `a` depends on a target of the other build file `b`. -/
def Targets.FileDependsOn (ts : Targets) (a b : Str) : Prop :=
  a ≠ b ∧ ∃ t d, ts.DependsOn t d ∧ fileOf t = a ∧ fileOf d = b

theorem mem_buildFiles (ts : Targets) (f : Str) :
    f ∈ buildFiles ts ↔ ∃ t ∈ ts.names, fileOf t = f := by
  unfold buildFiles Targets.names
  have : ∀ (l : Targets) (acc : List Str), f ∈ l.foldl (fun files e =>
      listAdd files ((BuildFile e.1).getD [])) acc ↔
      f ∈ acc ∨ ∃ t ∈ l.map Prod.fst, fileOf t = f := by
    intro l
    induction l with
    | nil => intro acc; simp
    | cons e l ih =>
      intro acc
      rw [List.foldl_cons, ih, mem_listAdd]
      simp only [List.map_cons, List.mem_cons, exists_eq_or_imp]
      unfold fileOf
      constructor
      · rintro ((h | h) | h)
        · exact Or.inr (Or.inl h.symm)
        · exact Or.inl h
        · exact Or.inr (Or.inr h)
      · rintro (h | h | h)
        · exact Or.inl (Or.inr h)
        · exact Or.inl (Or.inl h.symm)
        · exact Or.inr h
  rw [this]; simp

theorem buildFiles_nodup (ts : Targets) : (buildFiles ts).Nodup := by
  unfold buildFiles
  have : ∀ (l : Targets) (acc : List Str), acc.Nodup → (l.foldl (fun files e =>
      listAdd files ((BuildFile e.1).getD [])) acc).Nodup := by
    intro l
    induction l with
    | nil => intro acc h; exact h
    | cons e l ih => intro acc h; exact ih _ (listAdd_nodup _ h)
  exact this ts [] (by simp)

/-- The links made so far are the pairs of `rel`. -/
structure FLInv (g : DepGraph) (rel : Str → Str → Prop) : Prop where
  deps : ∀ a b, some b ∈ g.dependencies (some a) ↔ rel a b
  noRootDep : ∀ a, none ∉ g.dependencies (some a)
  dependents : ∀ a b, some a ∈ g.dependents (some b) ↔ rel a b
  noRoot : ∀ n, none ∉ g.dependents n
  root : g.dependents none = []

theorem fileLinkStep_ok {files : List Str} {bf : Str} {g : DepGraph} {rel : Str → Str → Prop}
    (h : FLInv g rel) (d : Str) (hd : fileOf d = bf ∨ fileOf d ∈ files) :
    ∃ g', fileLinkStep files bf g d = .ok g' ∧
      FLInv g' (fun a b => rel a b ∨ (a = bf ∧ b = fileOf d ∧ a ≠ b)) := by
  unfold fileLinkStep
  show ∃ g', (if fileOf d = bf then Except.ok g else
    if fileOf d ∉ files then .error (FileGraphErr.notFound (BuildFile d))
    else if some (fileOf d) ∈ g.dependencies (some bf) then .ok g
    else .ok (g.addEdge (some bf) (some (fileOf d)))) = .ok g' ∧ _
  by_cases h1 : fileOf d = bf
  · rw [if_pos h1]
    refine ⟨g, rfl, ?_⟩
    have : (fun a b => rel a b ∨ (a = bf ∧ b = fileOf d ∧ a ≠ b)) = rel := by
      funext a b
      apply propext
      constructor
      · rintro (h | ⟨ha, hb, hab⟩)
        · exact h
        · exact absurd (ha.trans (h1.symm.trans hb.symm)) hab
      · exact Or.inl
    rw [this]; exact h
  · rw [if_neg h1, if_neg (by simpa using hd.resolve_left h1)]
    by_cases h2 : some (fileOf d) ∈ g.dependencies (some bf)
    · rw [if_pos h2]
      refine ⟨g, rfl, ?_⟩
      have hr := (h.deps bf (fileOf d)).mp h2
      have : (fun a b => rel a b ∨ (a = bf ∧ b = fileOf d ∧ a ≠ b)) = rel := by
        funext a b
        apply propext
        constructor
        · rintro (h | ⟨ha, hb, hab⟩)
          · exact h
          · rw [ha, hb]; exact hr
        · exact Or.inl
      rw [this]; exact h
    · rw [if_neg h2]
      refine ⟨_, rfl, ?_⟩
      constructor
      · intro a b
        show some b ∈ Function.update g.dependencies (some bf) _ (some a) ↔ _
        by_cases ha : a = bf
        · subst ha
          rw [Function.update_self, List.mem_append, List.mem_singleton, h.deps]
          simp only [Option.some.injEq, true_and]
          constructor
          · rintro (h | h)
            · exact Or.inl h
            · exact Or.inr ⟨h, fun e => h1 (by rw [← h, e])⟩
          · rintro (h | ⟨h, -⟩)
            · exact Or.inl h
            · exact Or.inr h
        · rw [Function.update_of_ne (by simpa using ha), h.deps]
          simp [ha]
      · intro a
        show none ∉ Function.update g.dependencies (some bf) _ (some a)
        by_cases ha : a = bf
        · subst ha
          rw [Function.update_self, List.mem_append, not_or]
          exact ⟨h.noRootDep a, by simp⟩
        · rw [Function.update_of_ne (by simpa using ha)]
          exact h.noRootDep a
      · intro a b
        show some a ∈ Function.update g.dependents (some (fileOf d)) _ (some b) ↔ _
        by_cases hb : b = fileOf d
        · subst hb
          rw [Function.update_self, List.mem_append, List.mem_singleton, h.dependents]
          simp only [Option.some.injEq, true_and]
          constructor
          · rintro (h | h)
            · exact Or.inl h
            · exact Or.inr ⟨h, fun e => h1 (by rw [← e, h])⟩
          · rintro (h | ⟨h, -⟩)
            · exact Or.inl h
            · exact Or.inr h
        · rw [Function.update_of_ne (by simpa using hb), h.dependents]
          simp [hb]
      · intro n
        show none ∉ Function.update g.dependents (some (fileOf d)) _ n
        by_cases hb : n = some (fileOf d)
        · subst hb
          rw [Function.update_self, List.mem_append, not_or]
          exact ⟨h.noRoot _, by simp⟩
        · rw [Function.update_of_ne hb]
          exact h.noRoot n
      · simpa [DepGraph.addEdge, Function.update] using h.root

/-- The dependency `d` of a target of file `bf` is in a known file. -/
def FileKnown (files : List Str) (bf d : Str) : Prop := fileOf d = bf ∨ fileOf d ∈ files

theorem fileLink_loop {files : List Str} {bf : Str} (l : List Str) (g : DepGraph)
    (rel : Str → Str → Prop) (h : FLInv g rel) :
    (∀ d ∈ l, FileKnown files bf d) ∧
      (∃ g', l.foldlM (fileLinkStep files bf) g = .ok g' ∧
        FLInv g' (fun a b => rel a b ∨ (a = bf ∧ a ≠ b ∧ ∃ d ∈ l, b = fileOf d))) ∨
    (∃ d ∈ l, ¬ FileKnown files bf d ∧
      l.foldlM (fileLinkStep files bf) g = .error (.notFound (BuildFile d))) := by
  induction l generalizing g rel with
  | nil => exact Or.inl ⟨by simp, g, rfl, by simpa using h⟩
  | cons d l ih =>
    rw [List.foldlM_cons]
    by_cases hd : FileKnown files bf d
    · obtain ⟨g1, e1, i1⟩ := fileLinkStep_ok h d hd
      rw [e1]
      rcases ih g1 _ i1 with ⟨hk, g2, e2, i2⟩ | ⟨x, hx, hnk, e2⟩
      · left
        refine ⟨?_, g2, e2, ?_⟩
        · intro y hy
          rcases List.mem_cons.mp hy with rfl | hy
          · exact hd
          · exact hk y hy
        · have : (fun a b => (rel a b ∨ (a = bf ∧ b = fileOf d ∧ a ≠ b)) ∨
              (a = bf ∧ a ≠ b ∧ ∃ d ∈ l, b = fileOf d)) =
              (fun a b => rel a b ∨ (a = bf ∧ a ≠ b ∧ ∃ x ∈ d :: l, b = fileOf x)) := by
            funext a b
            apply propext
            simp only [List.mem_cons, exists_eq_or_imp]
            tauto
          rw [← this]; exact i2
      · exact Or.inr ⟨x, by simp [hx], hnk, e2⟩
    · right
      refine ⟨d, by simp, hd, ?_⟩
      unfold FileKnown at hd
      rw [not_or] at hd
      have : fileLinkStep files bf g d = .error (.notFound (BuildFile d)) := by
        unfold fileLinkStep
        show (if fileOf d = bf then Except.ok g else
          if fileOf d ∉ files then .error (FileGraphErr.notFound (BuildFile d)) else _) = _
        rw [if_neg hd.1, if_pos hd.2]
      rw [this]; rfl

/-- Every dependency is in a known build file. -/
def Targets.FilesKnown (ts : Targets) : Prop :=
  ∀ t d, ts.DependsOn t d → fileOf d ∈ buildFiles ts

theorem fileLinks_spec (ts : Targets) :
    (ts.FilesKnown ∧ ∃ g, fileLinks ts (buildFiles ts) = .ok g ∧ FLInv g ts.FileDependsOn) ∨
    (¬ ts.FilesKnown ∧ ∃ t d, ts.DependsOn t d ∧ fileOf d ∉ buildFiles ts ∧
      fileLinks ts (buildFiles ts) = .error (.notFound (BuildFile d))) := by
  have loop : ∀ (l : Targets) (g : DepGraph) (rel : Str → Str → Prop), FLInv g rel →
      (∀ e ∈ l, e ∈ ts) →
      (∀ e ∈ l, ∀ d ∈ e.2.deps, FileKnown (buildFiles ts) (fileOf e.1) d) ∧
        (∃ g', l.foldlM (fun g e =>
            e.2.deps.foldlM (fileLinkStep (buildFiles ts) ((BuildFile e.1).getD [])) g) g = .ok g' ∧
          FLInv g' (fun a b => rel a b ∨ (a ≠ b ∧ ∃ e ∈ l, fileOf e.1 = a ∧
            ∃ d ∈ e.2.deps, fileOf d = b))) ∨
      (∃ e ∈ l, ∃ d ∈ e.2.deps, ¬ FileKnown (buildFiles ts) (fileOf e.1) d ∧
        l.foldlM (fun g e =>
            e.2.deps.foldlM (fileLinkStep (buildFiles ts) ((BuildFile e.1).getD [])) g) g =
          .error (.notFound (BuildFile d))) := by
    intro l
    induction l with
    | nil => intro g rel h _; exact Or.inl ⟨by simp, g, rfl, by simpa using h⟩
    | cons e l ih =>
      intro g rel h hl
      rw [List.foldlM_cons]
      rcases fileLink_loop (files := buildFiles ts) (bf := fileOf e.1) e.2.deps g rel h with
        ⟨hk, g1, e1, i1⟩ | ⟨d, hd, hnk, e1⟩
      · have e1' : e.2.deps.foldlM (fileLinkStep (buildFiles ts) ((BuildFile e.1).getD [])) g =
            .ok g1 := e1
        rw [e1']
        rcases ih g1 _ i1 (fun x hx => hl x (by simp [hx])) with ⟨hk2, g2, e2, i2⟩ | ⟨x, hx, d, hd, hnk, e2⟩
        · left
          refine ⟨?_, g2, e2, ?_⟩
          · intro y hy
            rcases List.mem_cons.mp hy with rfl | hy
            · exact hk
            · exact hk2 y hy
          · refine cast (congrArg (FLInv g2) ?_) i2
            funext a b
            apply propext
            simp only [List.mem_cons, exists_eq_or_imp]
            constructor
            · rintro ((h | ⟨h1, h2, d, hd, h3⟩) | ⟨h1, x, hx, h2, d, hd, h3⟩)
              · exact Or.inl h
              · exact Or.inr ⟨h2, Or.inl ⟨h1.symm, d, hd, h3.symm⟩⟩
              · exact Or.inr ⟨h1, Or.inr ⟨x, hx, h2, d, hd, h3⟩⟩
            · rintro (h | ⟨h1, ⟨h2, d, hd, h3⟩ | ⟨x, hx, h2, d, hd, h3⟩⟩)
              · exact Or.inl (Or.inl h)
              · exact Or.inl (Or.inr ⟨h2.symm, h1, d, hd, h3.symm⟩)
              · exact Or.inr ⟨h1, x, hx, h2, d, hd, h3⟩
        · exact Or.inr ⟨x, by simp [hx], d, hd, hnk, e2⟩
      · right
        refine ⟨e, by simp, d, hd, hnk, ?_⟩
        have e1' : e.2.deps.foldlM (fileLinkStep (buildFiles ts) ((BuildFile e.1).getD [])) g =
            .error (.notFound (BuildFile d)) := e1
        rw [e1']; rfl
  have hself : ∀ e ∈ ts, fileOf e.1 ∈ buildFiles ts := fun e he =>
    (mem_buildFiles ts _).mpr ⟨e.1, List.mem_map_of_mem (f := Prod.fst) he, rfl⟩
  rcases loop ts ⟨fun _ => [], fun _ => []⟩ (fun _ _ => False)
    ⟨by simp, by simp, by simp, by simp, rfl⟩ (fun _ h => h) with ⟨hk, g, e, i⟩ | ⟨e, he, d, hd, hnk, h⟩
  · left
    refine ⟨?_, g, e, ?_⟩
    · rintro t d ⟨s, hs, hd⟩
      rcases hk (t, s) hs d hd with h | h
      · rw [h]; exact hself _ hs
      · exact h
    · refine cast (congrArg (FLInv g) ?_) i
      funext a b
      apply propext
      unfold Targets.FileDependsOn Targets.DependsOn
      constructor
      · rintro (h | ⟨h1, x, hx, h2, d, hd, h3⟩)
        · exact absurd h id
        · exact ⟨h1, x.1, d, ⟨x.2, hx, hd⟩, h2, h3⟩
      · rintro ⟨h1, t, d, ⟨s, hs, hd⟩, h2, h3⟩
        exact Or.inr ⟨h1, (t, s), hs, h2, d, hd, h3⟩
  · right
    have hnf : fileOf d ∉ buildFiles ts := fun h => hnk (Or.inr h)
    exact ⟨fun hk => hnf (hk e.1 d ⟨e.2, he, hd⟩), e.1, d, ⟨e.2, he, hd⟩, hnf, h⟩

/-- The build files a build file depends on, as linked. -/
def fileEdges (g : DepGraph) (f : Str) : List Str := (g.dependencies (some f)).filterMap id

theorem fileRoots_ok {files : List Str} (hn : files.Nodup) {g : DepGraph}
    {rel : Str → Str → Prop} (h : FLInv g rel)
    (hrel : ∀ a b, rel a b → a ∈ files ∧ b ∈ files) :
    GraphOK (fileRoots files g) files (fileEdges g) := by
  have hsome : ∀ f, g.dependencies (some f) = (fileEdges g f).map some := by
    intro f
    unfold fileEdges
    have := h.noRootDep f
    generalize g.dependencies (some f) = l at this
    induction l with
    | nil => rfl
    | cons x xs ih =>
      cases x with
      | none => simp at this
      | some t => exact congrArg (some t :: ·) (ih fun h => this (List.mem_cons_of_mem _ h))
  have hempty : ∀ f, g.dependencies (some f) = [] ↔ fileEdges g f = [] := by
    intro f; rw [hsome f]; simp
  -- the loop over the files
  have loop : ∀ (todo : List Str) (g' : DepGraph), todo.Nodup →
      (∀ f ∈ todo, g'.dependencies (some f) = g.dependencies (some f)) →
      let r := todo.foldl
        (fun g f => if g.dependencies (some f) = [] then g.addEdge (some f) none else g) g'
      (∀ f ∈ todo, r.dependencies (some f) =
        if fileEdges g f = [] then [none] else (fileEdges g f).map some) ∧
      (∀ n, (∀ f ∈ todo, n ≠ some f) → r.dependencies n = g'.dependencies n) ∧
      (∀ d, r.dependents (some d) = g'.dependents (some d)) ∧
      (∀ n, n ∈ r.dependents none ↔ n ∈ g'.dependents none ∨
        ∃ f ∈ todo, n = some f ∧ fileEdges g f = []) := by
    intro todo
    induction todo with
    | nil => intro g' _ _; simp
    | cons f todo ih =>
      intro g' hnd hsame
      obtain ⟨hf, hnd'⟩ := List.nodup_cons.mp hnd
      rw [List.foldl_cons]
      have hne : ∀ x ∈ todo, x ≠ f := fun x hx e => hf (e ▸ hx)
      rw [hsame f (by simp)]
      by_cases he : g.dependencies (some f) = []
      · rw [if_pos he]
        have he' := (hempty f).mp he
        have hg1 : ∀ x, x ≠ f → (g'.addEdge (some f) none).dependencies (some x) =
            g'.dependencies (some x) := by
          intro x hx
          show Function.update g'.dependencies (some f) _ (some x) = _
          rw [Function.update_of_ne (by simpa using hx)]
        obtain ⟨r1, r2, r3, r4⟩ := ih (g'.addEdge (some f) none) hnd' (by
          intro x hx
          rw [hg1 x (hne x hx)]
          exact hsame x (by simp [hx]))
        refine ⟨?_, ?_, ?_, ?_⟩
        · intro x hx
          rcases List.mem_cons.mp hx with rfl | hx
          · rw [r2 (some x) (fun y hy e => hne y hy (Option.some.inj e).symm), if_pos he']
            show Function.update g'.dependencies (some x) _ (some x) = _
            rw [Function.update_self, hsame x (by simp), he]; rfl
          · exact r1 x hx
        · intro n hn
          rw [r2 n fun y hy => hn y (by simp [hy])]
          show Function.update g'.dependencies (some f) _ n = _
          rw [Function.update_of_ne (hn f (by simp))]
        · intro d
          rw [r3 d]
          simp [DepGraph.addEdge, Function.update]
        · intro n
          rw [r4 n]
          rw [show (g'.addEdge (some f) none).dependents none = g'.dependents none ++ [some f] by
            simp [DepGraph.addEdge, Function.update], List.mem_append, List.mem_singleton]
          constructor
          · rintro ((h | rfl) | ⟨x, hx, h1, h2⟩)
            · exact Or.inl h
            · exact Or.inr ⟨f, by simp, rfl, he'⟩
            · exact Or.inr ⟨x, by simp [hx], h1, h2⟩
          · rintro (h | ⟨x, hx, h1, h2⟩)
            · exact Or.inl (Or.inl h)
            · rcases List.mem_cons.mp hx with rfl | hx
              · exact Or.inl (Or.inr h1)
              · exact Or.inr ⟨x, hx, h1, h2⟩
      · rw [if_neg he]
        have he' : ¬ fileEdges g f = [] := fun h => he ((hempty f).mpr h)
        obtain ⟨r1, r2, r3, r4⟩ := ih g' hnd' (fun x hx => hsame x (by simp [hx]))
        refine ⟨?_, ?_, r3, ?_⟩
        · intro x hx
          rcases List.mem_cons.mp hx with rfl | hx
          · rw [r2 (some x) (fun y hy e => hne y hy (Option.some.inj e).symm), if_neg he',
              hsame x (by simp), hsome x]
          · exact r1 x hx
        · intro n hn
          exact r2 n fun y hy => hn y (by simp [hy])
        · intro n
          rw [r4 n]
          constructor
          · rintro (h | ⟨x, hx, h1, h2⟩)
            · exact Or.inl h
            · exact Or.inr ⟨x, by simp [hx], h1, h2⟩
          · rintro (h | ⟨x, hx, h1, h2⟩)
            · exact Or.inl h
            · rcases List.mem_cons.mp hx with rfl | hx
              · exact absurd h2 he'
              · exact Or.inr ⟨x, hx, h1, h2⟩
  obtain ⟨r1, r2, r3, r4⟩ := loop files g hn (fun _ _ => rfl)
  have hmem : ∀ a b, b ∈ fileEdges g a ↔ rel a b := by
    intro a b
    rw [← h.deps a b, hsome a, List.mem_map]
    constructor
    · intro hb; exact ⟨b, hb, rfl⟩
    · rintro ⟨x, hx, e⟩; rw [← Option.some.inj e]; exact hx
  constructor
  · exact r1
  · intro t d
    show some t ∈ (fileRoots files g).dependents (some d) ↔ _
    rw [show (fileRoots files g).dependents (some d) = g.dependents (some d) from r3 d,
      h.dependents, hmem]
    exact ⟨fun h => ⟨(hrel t d h).1, h⟩, fun h => h.2⟩
  · intro t
    rw [show some t ∈ (fileRoots files g).dependents none ↔ _ from r4 (some t), h.root]
    constructor
    · rintro (h | ⟨f, hf, h1, h2⟩)
      · simp at h
      · obtain rfl := Option.some.inj h1
        exact ⟨hf, h2⟩
    · rintro ⟨h1, h2⟩
      exact Or.inr ⟨t, h1, rfl, h2⟩
  · intro n hn'
    cases n with
    | some d =>
      rw [show (fileRoots files g).dependents (some d) = g.dependents (some d) from r3 d] at hn'
      exact h.noRoot _ hn'
    | none =>
      rcases (r4 none).mp hn' with h1 | ⟨f, -, h1, -⟩
      · exact h.noRoot _ h1
      · cases h1
  · intro x _ y hy
    exact (hrel x y ((hmem x y).mp hy)).2

/-- C61: the build files pass exactly when every dependency lies in a known build file
and no build file depends on itself through other build files. -/
theorem C61_outcome (targets : Targets) :
    ∃ N, ∀ fuel, N ≤ fuel →
      (targets.FilesKnown ∧ (∀ f, ¬ Relation.TransGen targets.FileDependsOn f f) ∧
        VerifyNoGYPFileCircularDependencies targets fuel = .ok ()) ∨
      (targets.FilesKnown ∧ (∃ f, Relation.TransGen targets.FileDependsOn f f) ∧
        ∃ cycles, VerifyNoGYPFileCircularDependencies targets fuel = .error (.circular cycles) ∧
          ∀ c ∈ cycles, ∃ names, c = names.map some ∧ CycleOf targets.FileDependsOn names) ∨
      (¬ targets.FilesKnown ∧ ∃ t d, targets.DependsOn t d ∧ fileOf d ∉ buildFiles targets ∧
        VerifyNoGYPFileCircularDependencies targets fuel = .error (.notFound (BuildFile d))) := by
  rcases fileLinks_spec targets with ⟨hk, g, e, hinv⟩ | ⟨hk, t, d, h1, h2, e⟩
  swap
  · refine ⟨0, fun fuel _ => Or.inr (Or.inr ⟨hk, t, d, h1, h2, ?_⟩)⟩
    unfold VerifyNoGYPFileCircularDependencies
    simp only [e]; rfl
  have hrel : ∀ a b, targets.FileDependsOn a b → a ∈ buildFiles targets ∧ b ∈ buildFiles targets := by
    rintro a b ⟨-, t, d, h, rfl, rfl⟩
    refine ⟨(mem_buildFiles _ _).mpr ⟨t, ?_, rfl⟩, hk t d h⟩
    obtain ⟨s, hs, -⟩ := h
    exact List.mem_map_of_mem (f := Prod.fst) hs
  have hok := fileRoots_ok (buildFiles_nodup targets) hinv hrel
  have hedges : (fun x y => y ∈ fileEdges g x) = targets.FileDependsOn := by
    funext a b
    apply propext
    rw [← hinv.deps a b]
    unfold fileEdges
    rw [List.mem_filterMap]
    simp
  obtain ⟨N, hN⟩ := flatten_terminates hok
  refine ⟨max N ((buildFiles targets).length + 1), fun fuel hf => ?_⟩
  obtain ⟨r, hr⟩ := hN fuel (by omega)
  have hiff := flatten_all_iff hok (buildFiles_nodup targets) fuel r hr
  have hcyc : ∀ f, OnCycle (fileEdges g) f ↔ Relation.TransGen targets.FileDependsOn f f := by
    intro f; unfold OnCycle Reach1; rw [hedges]
  by_cases hlen : r.length = (buildFiles targets).length
  · left
    refine ⟨hk, ?_, ?_⟩
    · intro f hc
      have hfm : f ∈ buildFiles targets := by
        cases hc with
        | single e => exact (hrel _ _ e).1
        | tail _ e => exact (hrel _ _ e).2
      exact hiff.mp hlen f hfm ((hcyc f).mpr hc)
    · unfold VerifyNoGYPFileCircularDependencies
      simp only [e, bind, Except.bind, hr]
      rw [if_pos hlen]
  · right; left
    refine ⟨hk, ?_, ?_⟩
    · by_contra hno
      push Not at hno
      exact hlen (hiff.mpr fun f _ hc => hno f ((hcyc f).mp hc))
    · obtain ⟨cycles, c1, c2, -⟩ := searched_cycles hok fuel (by omega)
      refine ⟨cycles, ?_, ?_⟩
      · unfold VerifyNoGYPFileCircularDependencies
        simp only [e, bind, Except.bind, hr]
        rw [if_neg hlen]
        unfold searched at c1
        erw [c1]
      · intro c hc
        refine cycle_names hok _ ?_ c (c2 c hc)
        intro a b hab
        rw [searched_dependents] at hab
        rw [hok.dependents] at hab
        rw [← hedges]
        exact hab.2

/-- C61: accepted exactly when all files are known and there is no circular dependency
between build files; in particular a target may depend on other targets of its own
file. -/
theorem C61_accepted_iff (targets : Targets) :
    ∃ N, ∀ fuel, N ≤ fuel →
      (VerifyNoGYPFileCircularDependencies targets fuel = .ok () ↔
        targets.FilesKnown ∧ ∀ f, ¬ Relation.TransGen targets.FileDependsOn f f) := by
  obtain ⟨N, hN⟩ := C61_outcome targets
  refine ⟨N, fun fuel hf => ?_⟩
  rcases hN fuel hf with ⟨h1, h2, h3⟩ | ⟨-, ⟨f, h2⟩, c, h3, -⟩ | ⟨h1, t, d, -, -, h3⟩
  · exact ⟨fun _ => ⟨h1, h2⟩, fun _ => h3⟩
  · exact ⟨fun e => (by rw [h3] at e; cases e), fun h => absurd h2 (h.2 f)⟩
  · exact ⟨fun e => (by rw [h3] at e; cases e), fun h => absurd h.1 h1⟩

/-- Two files that need each other although no target does. -/
def fileCycle : Targets :=
  [(c!"a.gyp:x#target", { type := c!"none", dependencies := some [c!"b.gyp:y#target"] }),
   (c!"a.gyp:z#target", { type := c!"none" }),
   (c!"b.gyp:y#target", { type := c!"none" }),
   (c!"b.gyp:w#target", { type := c!"none", dependencies := some [c!"a.gyp:z#target"] })]

example : VerifyNoGYPFileCircularDependencies fileCycle 10 =
    .error (.circular [[some c!"a.gyp", some c!"b.gyp", some c!"a.gyp"]]) := by decide

example : VerifyNoGYPFileCircularDependencies pruneSample 10 = .ok () := by decide

end Gyp
