import Verif.Proofs.SlnText
import Verif.Proofs.MergeLists
import Verif.Proofs.MsvsSources
import Verif.Props.Targets
import Verif.Props.ListFilters
import Verif.Props.DeepTargets
/-
For C86: the project objects, the texts of folders, and places.
-/
namespace Gyp
open Spec

/-! ### Project objects -/

/-- The GUID of a project: the one given, or one made from the path of the project file. -/
def projectGuid (env : SlnEnv) (q : Str) (t : SlnTarget) : Str :=
  if t.guid ≠ [] then c!"{" ++ t.guid ++ c!"}" else env.makeGuid c!"msvs_new" (pathOfProject env q t)

/-- The project object of a target. -/
def projectOf (env : SlnEnv) (q : Str) (t : SlnTarget) : SlnProject :=
  { path := pathOfProject env q t, name := shownName t, guid := projectGuid env q t,
    overrides := platformOverrides env t,
    dependencies := if t.external then [] else t.spec.deps }

theorem guidOfProject_ok {env : SlnEnv} {q : Str} {t : SlnTarget} {g : Str}
    (h : guidOfProject env (pathOfProject env q t) t = .ok g) :
    g = projectGuid env q t ∧ (t.guid ≠ [] → validGuid t.guid = true) := by
  unfold guidOfProject at h
  unfold projectGuid
  by_cases hg : t.guid ≠ []
  · rw [if_pos hg] at h ⊢
    by_cases hv : validGuid t.guid = true
    · rw [if_pos hv] at h
      simp only [Except.ok.injEq] at h
      exact ⟨h.symm, fun _ => hv⟩
    · rw [if_neg hv] at h
      cases h
  · rw [if_neg hg] at h ⊢
    simp only [Except.ok.injEq] at h
    exact ⟨h.symm, fun e => absurd e hg⟩

theorem knownProjects_ok {known l r : List Str} (h : knownProjects known l = .ok r) :
    r = l ∧ ∀ d ∈ l, d ∈ known := by
  have := mapM_ok h
  clear h
  induction this with
  | nil => simp
  | @cons a b l r hab _ ih =>
    by_cases ha : a ∈ known
    · rw [if_pos ha] at hab
      simp only [Except.ok.injEq] at hab
      subst hab
      exact ⟨by rw [ih.1], by simpa [ha] using ih.2⟩
    · rw [if_neg ha] at hab
      cases hab

theorem projectFirst_ok {env : SlnEnv} {t : Str × SlnTarget} {p : Str × SlnTarget × Str × Str}
    (h : projectFirst env t = .ok p) :
    p = (t.1, t.2, pathOfProject env t.1 t.2, projectGuid env t.1 t.2) ∧
      (t.2.guid ≠ [] → validGuid t.2.guid = true) := by
  unfold projectFirst at h
  cases hg : guidOfProject env (pathOfProject env t.1 t.2) t.2 with
  | error e => rw [hg] at h; cases h
  | ok g =>
    rw [hg] at h
    simp only [Except.ok.injEq] at h
    obtain ⟨e1, e2⟩ := guidOfProject_ok hg
    exact ⟨by rw [← h, e1], e2⟩

theorem projectSecond_ok {env : SlnEnv} {known : List Str} {t : Str × SlnTarget} {b : Str × SlnProject}
    (h : projectSecond env known (t.1, t.2, pathOfProject env t.1 t.2, projectGuid env t.1 t.2) = .ok b) :
    b = (t.1, projectOf env t.1 t.2) ∧ (t.2.external = false → ∀ d ∈ t.2.spec.deps, d ∈ known) := by
  unfold projectSecond at h
  cases hx : t.2.external with
  | true =>
    simp only [hx, if_true, Except.ok.injEq] at h
    exact ⟨by rw [← h]; simp [projectOf, hx], by simp⟩
  | false =>
    simp only [hx, Bool.false_eq_true, if_false] at h
    cases hd : knownProjects known t.2.spec.deps with
    | error e => rw [hd] at h; cases h
    | ok ds =>
      rw [hd] at h
      simp only [Except.ok.injEq] at h
      obtain ⟨g1, g2⟩ := knownProjects_ok hd
      exact ⟨by rw [← h]; simp [projectOf, hx, g1], fun _ => g2⟩

/-- What the project objects are. -/
theorem createProjects_ok {env : SlnEnv} {targets : List (Str × SlnTarget)}
    {heap : List (Str × SlnProject)} (h : createProjects env targets = .ok heap) :
    heap = targets.map (fun t => (t.1, projectOf env t.1 t.2)) ∧
    (∀ t ∈ targets, t.2.guid ≠ [] → validGuid t.2.guid = true) ∧
    (∀ t ∈ targets, t.2.external = false → ∀ d ∈ t.2.spec.deps, d ∈ targets.map (·.1)) := by
  unfold createProjects at h
  cases h1 : targets.mapM (projectFirst env) with
  | error e => rw [h1] at h; cases h
  | ok ps =>
    rw [h1] at h
    simp only at h
    have f1 := mapM_ok h1
    have hps : ps = targets.map (fun t => (t.1, t.2, pathOfProject env t.1 t.2, projectGuid env t.1 t.2)) ∧
        ∀ t ∈ targets, t.2.guid ≠ [] → validGuid t.2.guid = true := by
      clear h h1
      induction f1 with
      | nil => simp
      | @cons t p l r htp _ ih =>
        obtain ⟨e1, e2⟩ := projectFirst_ok htp
        refine ⟨by rw [List.map_cons, ← ih.1, ← e1], ?_⟩
        simp only [List.mem_cons, forall_eq_or_imp]
        exact ⟨e2, ih.2⟩
    obtain ⟨rfl, hv⟩ := hps
    have f2 := mapM_ok h
    clear h h1 f1
    generalize targets.map (·.1) = known at f2 ⊢
    have : ∀ ts : List (Str × SlnTarget), ∀ hp : List (Str × SlnProject),
        List.Forall₂ (fun p q => projectSecond env known p = .ok q)
        (ts.map (fun t => (t.1, t.2, pathOfProject env t.1 t.2, projectGuid env t.1 t.2))) hp →
        hp = ts.map (fun t => (t.1, projectOf env t.1 t.2)) ∧
        (∀ t ∈ ts, t.2.external = false → ∀ d ∈ t.2.spec.deps, d ∈ known) := by
      intro ts
      induction ts with
      | nil => intro hp f; cases f; simp
      | cons t ts ih =>
        intro hp f
        cases f with
        | cons htp f =>
          obtain ⟨e1, e2⟩ := ih _ f
          obtain ⟨g1, g2⟩ := projectSecond_ok htp
          refine ⟨by rw [List.map_cons, ← e1, ← g1], ?_⟩
          simp only [List.mem_cons, forall_eq_or_imp]
          exact ⟨g2, e2⟩
    obtain ⟨e1, e2⟩ := this targets heap f2
    exact ⟨e1, hv, e2⟩

/-- Projects are made when the GUIDs are fine and all dependencies are targets. -/
theorem createProjects_made (env : SlnEnv) (targets : List (Str × SlnTarget))
    (hg : ∀ t ∈ targets, t.2.guid ≠ [] → validGuid t.2.guid = true)
    (hd : ∀ t ∈ targets, t.2.external = false → ∀ d ∈ t.2.spec.deps, d ∈ targets.map (·.1)) :
    createProjects env targets = .ok (targets.map fun t => (t.1, projectOf env t.1 t.2)) := by
  have h1 : targets.mapM (projectFirst env) =
      .ok (targets.map fun t => (t.1, t.2, pathOfProject env t.1 t.2, projectGuid env t.1 t.2)) := by
    apply mapM_of_forall₂
    rw [List.forall₂_map_right_iff, List.forall₂_same]
    intro t ht
    unfold projectFirst guidOfProject projectGuid
    by_cases hn : t.2.guid ≠ []
    · rw [if_pos hn, if_pos (hg t ht hn), if_pos hn]
    · rw [if_neg hn, if_neg hn]
  unfold createProjects
  rw [h1]
  apply mapM_of_forall₂
  rw [List.forall₂_map_left_iff, List.forall₂_map_right_iff, List.forall₂_same]
  intro t ht
  unfold projectSecond
  cases hx : t.2.external with
  | true => simp [projectOf, hx]
  | false =>
    have hk : knownProjects (targets.map (·.1)) t.2.spec.deps = .ok t.2.spec.deps := by
      apply mapM_of_forall₂
      rw [List.forall₂_same]
      intro d hd'
      rw [if_pos (hd t ht hx d hd')]
    simp [hk, projectOf, hx]

theorem aget_map {α β : Type} (f : Str → α → β) (l : List (Str × α)) (k : Str) :
    aget (l.map fun t => (t.1, f t.1 t.2)) k = (aget l k).map (f k) := by
  induction l with
  | nil => rfl
  | cons e l ih =>
    simp only [List.map_cons, aget]
    by_cases h : e.1 = k
    · rw [if_pos h, if_pos h, ← h]; rfl
    · rw [if_neg h, if_neg h, ih]

/-! ### Folders -/

/-- The names of the folders of a tree. -/
def dirKeys : List (Str × SNode) → List Str
  | [] => []
  | (_, .proj _) :: l => dirKeys l
  | (n, .dir sub) :: l => n :: (dirKeys sub ++ dirKeys l)

theorem dirKeys_append (a b : List (Str × SNode)) : dirKeys (a ++ b) = dirKeys a ++ dirKeys b := by
  induction a with
  | nil => simp [dirKeys]
  | cons e a ih =>
    obtain ⟨n, c⟩ := e
    cases c <;> simp [dirKeys, ih]

theorem putProject_keys (fs : List Str) (name q : Str) (d d' : List (Str × SNode))
    (h : putProject fs name q d = .ok d') : ∀ n ∈ dirKeys d', n ∈ fs ∨ n ∈ dirKeys d := by
  induction fs generalizing d d' with
  | nil =>
    unfold putProject at h
    simp only [Except.ok.injEq] at h
    subst h
    intro n hn
    cases hg : aget d name with
    | none =>
      rw [aset_new (aget_none_notMem hg), dirKeys_append] at hn
      simpa [dirKeys] using hn
    | some x =>
      obtain ⟨pre, post, h1, _, h3⟩ := aset_split hg
      rw [h3, dirKeys_append] at hn
      rw [h1, dirKeys_append]
      simp only [dirKeys, List.mem_append] at hn
      right
      rw [List.mem_append]
      refine hn.imp_right fun h => ?_
      cases x with
      | proj q' => simpa [dirKeys] using h
      | dir s => simp [dirKeys, h]
  | cons f fs ih =>
    unfold putProject at h
    cases hg : aget d f with
    | none =>
      simp only [hg] at h
      cases hs : putProject fs name q [] with
      | error e => simp only [hs, bind, Except.bind] at h; cases h
      | ok sub =>
        simp only [hs, bind, Except.bind, Except.ok.injEq] at h
        subst h
        intro n hn
        rw [aset_new (aget_none_notMem hg), dirKeys_append] at hn
        simp only [dirKeys, List.mem_append, List.mem_cons, List.append_nil] at hn
        rcases hn with hn | hn | hn
        · exact Or.inr hn
        · exact Or.inl (by simp [hn])
        · rcases ih [] sub hs n hn with h | h
          · exact Or.inl (List.mem_cons_of_mem _ h)
          · simp [dirKeys] at h
    | some x =>
      cases x with
      | proj q' => simp only [hg] at h; cases h
      | dir sub0 =>
        simp only [hg] at h
        cases hs : putProject fs name q sub0 with
        | error e => simp only [hs, bind, Except.bind] at h; cases h
        | ok sub =>
          simp only [hs, bind, Except.bind, Except.ok.injEq] at h
          subst h
          obtain ⟨pre, post, h1, _, h3⟩ := aset_split hg
          intro n hn
          rw [h3, dirKeys_append] at hn
          rw [h1, dirKeys_append]
          simp only [dirKeys, List.mem_append, List.mem_cons] at hn ⊢
          rcases hn with hn | hn | hn | hn
          · exact Or.inr (Or.inl hn)
          · exact Or.inl (Or.inl hn)
          · rcases ih sub0 sub hs n hn with h | h
            · exact Or.inl (Or.inr h)
            · exact Or.inr (Or.inr (Or.inr (Or.inl h)))
          · exact Or.inr (Or.inr (Or.inr (Or.inr hn)))

theorem projectTree_keys (projects : List Str) (d : List (Str × SNode))
    (h : projectTree projects = .ok d) :
    ∀ n ∈ dirKeys d, ∃ q ∈ projects, n ∈ (projectPlace q).1 := by
  have go : ∀ (ps : List Str) (d0 d : List (Str × SNode)),
      ps.foldlM (fun d q => putProject (projectPlace q).1 (projectPlace q).2 q d) d0 = .ok d →
      ∀ n ∈ dirKeys d, n ∈ dirKeys d0 ∨ ∃ q ∈ ps, n ∈ (projectPlace q).1 := by
    intro ps
    induction ps with
    | nil =>
      intro d0 d h n hn
      simp only [List.foldlM_nil, pure, Except.pure, Except.ok.injEq] at h
      subst h
      exact Or.inl hn
    | cons q ps ih =>
      intro d0 d h n hn
      rw [List.foldlM_cons] at h
      cases hs : putProject (projectPlace q).1 (projectPlace q).2 q d0 with
      | error e => simp only [hs, bind, Except.bind] at h; cases h
      | ok d1 =>
        simp only [hs, bind, Except.bind] at h
        rcases ih d1 d h n hn with h1 | ⟨q', hq', h1⟩
        · rcases putProject_keys _ _ _ _ _ hs n h1 with h2 | h2
          · exact Or.inr ⟨q, by simp, h2⟩
          · exact Or.inl h2
        · exact Or.inr ⟨q', List.mem_cons_of_mem _ hq', h1⟩
  intro n hn
  rcases go projects [] d h n hn with h1 | h1
  · simp [dirKeys] at h1
  · exact h1

theorem stripTop_keys (d : List (Str × SNode)) : ∀ n ∈ dirKeys (stripTop d), n ∈ dirKeys d := by
  induction d using stripTop.induct with
  | case1 n sub ih =>
    intro m hm
    rw [stripTop] at hm
    simp [dirKeys, ih m hm]
  | case2 n q => intro m hm; rw [stripTop] at hm; exact hm
  | case3 => intro m hm; rw [stripTop] at hm; exact hm
  | case4 a b l => intro m hm; rw [stripTop] at hm; exact hm

theorem dirKeys_single (n : Str) (c : SNode) : ∀ m ∈ dirKeys [(n, c)], m = n ∨ ∃ s, c = .dir s ∧ m ∈ dirKeys s := by
  intro m hm
  cases c with
  | proj q => simp [dirKeys] at hm
  | dir s =>
    simp only [dirKeys, List.append_nil, List.mem_cons] at hm
    exact hm.imp_right fun h => ⟨s, rfl, h⟩

theorem dirKeys_cons (e : Str × SNode) (l : List (Str × SNode)) :
    dirKeys (e :: l) = dirKeys [e] ++ dirKeys l := dirKeys_append [e] l

theorem collapseAll_keys (d : List (Str × SNode)) : ∀ n ∈ dirKeys (collapseAll d), n ∈ dirKeys d := by
  match d with
  | [] => intro n hn; simpa [collapseAll] using hn
  | (n, .proj q) :: l =>
    intro m hm
    simp only [collapseAll, collapse, dirKeys] at hm ⊢
    exact collapseAll_keys l m hm
  | (n, .dir sub) :: l =>
    intro m hm
    rw [collapseAll, dirKeys_cons, List.mem_append] at hm
    simp only [dirKeys, List.mem_cons, List.mem_append]
    rcases hm with hm | hm
    · rcases dirKeys_single _ _ m hm with h | ⟨s, hs, h⟩
      · exact Or.inl h
      · rcases collapse_dir n sub with ⟨c, hc, e⟩ | ⟨-, e⟩
        · rw [e] at hs
          subst hs
          rw [hc]
          simp [dirKeys, h]
        · rw [e] at hs
          simp only [SNode.dir.injEq] at hs
          subst hs
          exact Or.inr (Or.inl (collapseAll_keys sub m h))
    · exact Or.inr (Or.inr (collapseAll_keys l m hm))
termination_by sizeOf d

/-- What folders look like. -/
theorem toFolders_folders (heap : List (Str × SlnProject)) (flat : Bool) (base : Str)
    (d : List (Str × SNode)) (P : Char → Prop) (hs : P '/') (hpo : P '(') (hpc : P ')')
    (hb : ∀ c ∈ base, P c) (hd : ∀ n ∈ dirKeys d, ∀ c ∈ n, P c) :
    ∀ p n es, SEntry.folder p n es ∈ allEntries (toFolders heap flat base d) →
      (∀ c ∈ p, P c) ∧ (∀ c ∈ n, P c) := by
  match d with
  | [] => intro p n es h; simp [toFolders, allEntries] at h
  | (n, .proj q) :: l =>
    intro p m es h
    simp only [toFolders, allEntries, List.mem_cons, reduceCtorEq, false_or] at h
    exact toFolders_folders heap flat base l P hs hpo hpc hb (by simpa [dirKeys] using hd) p m es h
  | (f, .dir sub) :: l =>
    have hj : ∀ c ∈ pathJoin base f, P c := by
      intro c hc
      rcases mem_pathJoin hc with h | h | rfl
      · exact hb c h
      · exact hd f (by simp [dirKeys]) c h
      · exact hs
    have ih1 := toFolders_folders heap flat (pathJoin base f) sub P hs hpo hpc hj
      (fun n hn => hd n (by simp [dirKeys, hn]))
    have ih2 := toFolders_folders heap flat base l P hs hpo hpc hb
      (fun n hn => hd n (by simp [dirKeys, hn]))
    intro p m es h
    simp only [toFolders, allEntries_append, List.mem_append] at h
    rcases h with h | h
    · cases flat with
      | true =>
        simp only [if_true] at h
        exact ih1 p m es h
      | false =>
        simp only [Bool.false_eq_true, if_false, allEntries, List.append_nil, List.mem_cons,
          SEntry.folder.injEq] at h
        rcases h with ⟨rfl, rfl, -⟩ | h
        · refine ⟨hj, fun c hc => ?_⟩
          simp only [List.mem_append, List.mem_singleton] at hc
          rcases hc with (rfl | hc) | rfl
          · exact hpo
          · exact hd f (by simp [dirKeys]) c hc
          · exact hpc
        · have hp : (allEntries (sortEntries heap (toFolders heap false (pathJoin base f) sub))).Perm
              (allEntries (toFolders heap false (pathJoin base f) sub)) := by
            rw [allEntries_flatMap, allEntries_flatMap (toFolders heap false (pathJoin base f) sub)]
            exact (sortEntries_perm heap _).flatMap_right _
          exact ih1 p m es (hp.mem_iff.mp h)
    · exact ih2 p m es h
termination_by sizeOf d

theorem gatherFolders_folders {env : SlnEnv} {heap : List (Str × SlnProject)} {projects : List Str}
    {roots : List SEntry} (h : gatherFolders env heap projects = .ok roots) (P : Char → Prop)
    (hs : P '/') (hpo : P '(') (hpc : P ')')
    (hd : ∀ q ∈ projects, ∀ n ∈ (projectPlace q).1, ∀ c ∈ n, P c) :
    ∀ p n es, SEntry.folder p n es ∈ allEntries roots → (∀ c ∈ p, P c) ∧ (∀ c ∈ n, P c) := by
  unfold gatherFolders at h
  cases ht : projectTree projects with
  | error e => rw [ht] at h; cases h
  | ok d =>
    simp only [ht, bind, Except.bind] at h
    rcases collapse_dir [] (stripTop d) with ⟨c, hc, e⟩ | ⟨-, e⟩
    · rw [e] at h
      cases c with
      | proj q => cases h
      | dir s =>
        simp only [Except.ok.injEq] at h
        subst h
        refine toFolders_folders heap env.flat [] s P hs hpo hpc (by simp) fun n hn => ?_
        have : n ∈ dirKeys (stripTop d) := by rw [hc]; simp [dirKeys, hn]
        obtain ⟨q, hq, hn'⟩ := projectTree_keys projects d ht n (stripTop_keys d n this)
        exact hd q hq n hn'
    · rw [e] at h
      simp only [Except.ok.injEq] at h
      subst h
      refine toFolders_folders heap env.flat [] _ P hs hpo hpc (by simp) fun n hn => ?_
      obtain ⟨q, hq, hn'⟩ := projectTree_keys projects d ht n
        (stripTop_keys d n (collapseAll_keys _ n hn))
      exact hd q hq n hn'

/-! ### Places -/

theorem walk_dirname_tail (l : Loc) (p : Str) (h : validName (basename p)) :
    walk l (dirname p) = (walk l p).tail := by
  cases hs : rsplit1 '/' p with
  | none =>
    have hb : basename p = p := by unfold basename; rw [hs]
    rw [hb] at h
    have hd : dirname p = [] := by unfold dirname; rw [hs]
    rw [hd, walk_component h.2.1, walkStep_valid h]
    rfl
  | some x =>
    obtain ⟨a, n⟩ := x
    have hb : basename p = n := by unfold basename; rw [hs]
    rw [hb] at h
    have hp := rsplit1_some hs
    rw [hp.1, C03_dirname_parent l a n h]
    rfl

theorem rsplit1_append_noSep {p e a b : Str} (h : rsplit1 '/' p = some (a, b)) (he : '/' ∉ e) :
    rsplit1 '/' (p ++ e) = some (a, b ++ e) := by
  obtain ⟨h1, h2⟩ := rsplit1_some h
  rw [h1, List.append_assoc, List.cons_append]
  exact rsplit1_append (by simp [h2, he])

theorem dirname_append (p e : Str) (he : '/' ∉ e) : dirname (p ++ e) = dirname p := by
  unfold dirname
  cases hs : rsplit1 '/' p with
  | none =>
    rw [rsplit1_none_iff] at hs
    rw [rsplit1_none_iff.mpr (by simp [hs, he])]
  | some x =>
    obtain ⟨a, b⟩ := x
    rw [rsplit1_append_noSep hs he]

theorem basename_append (p e : Str) (he : '/' ∉ e) : basename (p ++ e) = basename p ++ e := by
  unfold basename
  cases hs : rsplit1 '/' p with
  | none =>
    rw [rsplit1_none_iff] at hs
    rw [rsplit1_none_iff.mpr (by simp [hs, he])]
  | some x =>
    obtain ⟨a, b⟩ := x
    rw [rsplit1_append_noSep hs he]

theorem splitext_root (p : Str) : ∃ e, p = (splitext p).1 ++ e ∧ '/' ∉ e := by
  unfold splitext
  cases hs : rsplit1 '.' p with
  | none => exact ⟨[], by simp, by simp⟩
  | some x =>
    obtain ⟨r, e⟩ := x
    simp only
    by_cases h1 : '/' ∈ e
    · rw [if_pos h1]; exact ⟨[], by simp, by simp⟩
    · rw [if_neg h1]
      by_cases h2 : (basename r).any (· ≠ '.') = true
      · rw [if_pos h2]
        exact ⟨'.' :: e, (rsplit1_some hs).1, by simp [h1]⟩
      · rw [if_neg h2]; exact ⟨[], by simp, by simp⟩

theorem basename_noSep (p : Str) : '/' ∉ basename p := by
  unfold basename
  cases hs : rsplit1 '/' p with
  | none => exact rsplit1_none_iff.mp hs
  | some x => exact (rsplit1_some hs).2

/-- The directory of the solution. -/
theorem walk_solution_dir (env : SlnEnv) (file : Str) (hsuf : '/' ∉ env.suffix)
    (hf : validName (basename file)) (l : Loc) :
    walk l (dirname (solutionPath env file)) = (walk (walk l env.output) file).tail := by
  obtain ⟨e, he, hne⟩ := splitext_root file
  have hsln : '/' ∉ env.suffix ++ c!".sln" := by simp [hsuf]
  have hd : dirname ((splitext file).1 ++ env.suffix ++ c!".sln") = dirname file := by
    rw [List.append_assoc, dirname_append _ _ hsln]
    conv_rhs => rw [he]
    rw [dirname_append _ _ hne]
  have hv : validName (basename ((splitext file).1 ++ env.suffix ++ c!".sln")) := by
    rw [List.append_assoc, basename_append _ _ hsln]
    refine ⟨by simp, ?_, ?_, ?_⟩
    · simp only [List.mem_append, not_or]
      exact ⟨basename_noSep _, by simpa using hsln⟩
    · intro h
      have := congrArg List.length h
      simp at this
      omega
    · intro h
      have := congrArg List.length h
      simp at this
      omega
  unfold solutionPath
  by_cases ho : env.output ≠ []
  · simp only [if_pos ho]
    have hb : basename (pathJoin env.output ((splitext file).1 ++ env.suffix ++ c!".sln")) =
        basename ((splitext file).1 ++ env.suffix ++ c!".sln") := by
      generalize (splitext file).1 ++ env.suffix ++ c!".sln" = s at *
      unfold pathJoin
      by_cases h1 : isAbs s = true
      · rw [if_pos h1]
      · rw [if_neg h1]
        cases hs : rsplit1 '/' s with
        | none =>
          have hns := rsplit1_none_iff.mp hs
          have hbs : basename s = s := by unfold basename; rw [hs]
          by_cases h2 : env.output = [] ∨ endsWith env.output ['/'] = true
          · rw [if_pos h2]
            obtain ⟨o, ho'⟩ := endsWith_slash (h2.resolve_left ho)
            rw [ho', List.append_assoc]
            unfold basename
            rw [List.singleton_append, rsplit1_append hns, hs]
          · rw [if_neg h2]
            unfold basename
            rw [rsplit1_append hns, hs]
        | some x =>
          obtain ⟨a, b⟩ := x
          obtain ⟨e1, e2⟩ := rsplit1_some hs
          have : ∀ o : Str, basename (o ++ s) = basename s := by
            intro o
            unfold basename
            rw [hs]
            conv_lhs => rw [e1, ← List.append_assoc, rsplit1_append e2]
          by_cases h2 : env.output = [] ∨ endsWith env.output ['/'] = true
          · rw [if_pos h2, this]
          · rw [if_neg h2]
            have := this (env.output ++ ['/'])
            rwa [List.append_assoc] at this
    rw [walk_dirname_tail l _ (by rw [hb]; exact hv), walk_join, ← walk_dirname_tail _ _ hv, hd,
      walk_dirname_tail _ _ hf]
  · have ho' : env.output = [] := by simpa using ho
    rw [if_neg ho, hd, walk_dirname_tail l file hf, ho', walk_nil]

/-- The place of a project file. -/
theorem walk_projectPath (env : SlnEnv) (q file : Str) (t : SlnTarget) (hq : BuildFile q = some file)
    (hf : validName (basename file)) (l : Loc) :
    walk l (pathOfProject env q t) = walk ((walk (walk l env.output) file).tail)
      (if t.existing ≠ [] then t.existing else shownName t ++ env.suffix ++ env.ext) := by
  unfold pathOfProject
  rw [hq]
  simp only [Option.getD_some]
  by_cases ho : env.output ≠ []
  · rw [if_pos ho, walk_join, walk_join, walk_dirname_tail _ _ hf]
  · have ho' : env.output = [] := by simpa using ho
    rw [if_neg ho, walk_join, walk_dirname_tail _ _ hf, ho', walk_nil]

/-- The place a shown path means. -/
theorem slnWalk_shownPath (env : SlnEnv) (sln path : Str) (hc : ∀ c ∈ env.cwd, validName c ∧ '\\' ∉ c)
    (hp : '\\' ∉ path) :
    slnWalk (walk env.cwd.reverse (dirname sln)) (shownPath env sln path) = walk env.cwd.reverse path := by
  have hw := walk_RelativePath (fun c h => (hc c h).1) path (dirname sln)
  have hn : '\\' ∉ RelativePath env.cwd path (dirname sln) := by
    intro h
    rcases mem_RelativePath h with h | h | h | ⟨c, h1, h2⟩
    · exact hp h
    · cases h
    · cases h
    · exact (hc c h1).2 h2
  have hmap : ∀ s : Str, '\\' ∉ s →
      (replaceChar '/' ['\\'] s).map (fun c => if c = '\\' then '/' else c) = s := by
    intro s hs
    induction s with
    | nil => rfl
    | cons c s ih =>
      simp only [List.mem_cons, not_or] at hs
      have e : replaceChar '/' ['\\'] (c :: s) =
          (if c = '/' then ['\\'] else [c]) ++ replaceChar '/' ['\\'] s := by
        simp [replaceChar]
      rw [e, List.map_append, ih hs.2]
      by_cases h : c = '/'
      · subst h; rfl
      · rw [if_neg h]
        have h' : c ≠ '\\' := fun e => hs.1 e.symm
        simp [h']
  unfold slnWalk shownPath
  simp only
  by_cases hz : replaceChar '/' ['\\'] (RelativePath env.cwd path (dirname sln)) = []
  · rw [if_pos hz]
    have := hmap _ hn
    rw [hz] at this
    rw [← this] at hw
    rw [← hw]
    rfl
  · rw [if_neg hz, hmap _ hn, hw]

end Gyp
