import Verif.Proofs.SlnTree
/-
The entries of a solution: folders and projects.
-/
namespace Gyp

/-- The projects of entries, with the names of the folders they are in. -/
def entryLeaves : List SEntry → List (List Str × Str)
  | [] => []
  | .project q :: l => ([], q) :: entryLeaves l
  | .folder _ n es :: l => ((entryLeaves es).map fun x => (n :: x.1, x.2)) ++ entryLeaves l

/-- All entries. -/
def allEntries : List SEntry → List SEntry
  | [] => []
  | .project q :: l => .project q :: allEntries l
  | .folder p n es :: l => .folder p n es :: (allEntries es ++ allEntries l)

/-- The projects among entries. -/
def projectKeys : List SEntry → List Str
  | [] => []
  | .project q :: l => q :: projectKeys l
  | .folder _ _ _ :: l => projectKeys l

theorem entryLeaves_append (a b : List SEntry) :
    entryLeaves (a ++ b) = entryLeaves a ++ entryLeaves b := by
  induction a with
  | nil => simp [entryLeaves]
  | cons e a ih => cases e <;> simp [entryLeaves, ih]

theorem allEntries_append (a b : List SEntry) :
    allEntries (a ++ b) = allEntries a ++ allEntries b := by
  induction a with
  | nil => simp [allEntries]
  | cons e a ih => cases e <;> simp [allEntries, ih]

theorem projectKeys_append (a b : List SEntry) :
    projectKeys (a ++ b) = projectKeys a ++ projectKeys b := by
  induction a with
  | nil => simp [projectKeys]
  | cons e a ih => cases e <;> simp [projectKeys, ih]

theorem entryLeaves_flatMap (l : List SEntry) : entryLeaves l = l.flatMap fun e => entryLeaves [e] := by
  induction l with
  | nil => simp [entryLeaves]
  | cons e l ih =>
    rw [List.flatMap_cons, ← ih]
    exact entryLeaves_append [e] l

theorem entryLeaves_perm {a b : List SEntry} (h : a.Perm b) :
    (entryLeaves a).Perm (entryLeaves b) := by
  rw [entryLeaves_flatMap a, entryLeaves_flatMap b]
  exact h.flatMap_right _

theorem allEntries_flatMap (l : List SEntry) : allEntries l = l.flatMap fun e => allEntries [e] := by
  induction l with
  | nil => simp [allEntries]
  | cons e l ih =>
    rw [List.flatMap_cons, ← ih]
    exact allEntries_append [e] l

theorem projectKeys_eq (l : List SEntry) : projectKeys l = l.filterMap fun e => match e with
    | .project q => some q
    | .folder .. => none := by
  induction l with
  | nil => rfl
  | cons e l ih => cases e <;> simp [projectKeys, ih]

theorem projectKeys_perm {a b : List SEntry} (h : a.Perm b) :
    (projectKeys a).Perm (projectKeys b) := by
  rw [projectKeys_eq, projectKeys_eq]
  exact h.filterMap _

theorem projectKeys_all (l : List SEntry) : projectKeys (allEntries l) = (entryLeaves l).map (·.2) := by
  match l with
  | [] => simp [allEntries, projectKeys, entryLeaves]
  | .project q :: l => simp [allEntries, projectKeys, entryLeaves, projectKeys_all l]
  | .folder p n es :: l =>
    simp only [allEntries, projectKeys, entryLeaves, projectKeys_append, projectKeys_all es,
      projectKeys_all l, List.map_append, List.map_map]
    rfl
termination_by entriesSize l
decreasing_by
  all_goals simp only [entriesSize, entrySize]; omega

/-- Every entry is at the top or in just one folder. -/
theorem allEntries_perm (l : List SEntry) :
    (allEntries l).Perm (l ++ (allEntries l).flatMap folderEntries) := by
  match l with
  | [] => simp [allEntries]
  | .project q :: l =>
    simp only [allEntries, List.flatMap_cons, folderEntries, List.nil_append, List.cons_append]
    exact List.Perm.cons _ (allEntries_perm l)
  | .folder p n es :: l =>
    simp only [allEntries, List.flatMap_cons, folderEntries, List.cons_append, List.flatMap_append]
    refine List.Perm.cons _ ?_
    have h1 := allEntries_perm es
    have h2 := allEntries_perm l
    refine (h1.append h2).trans ?_
    refine List.perm_append_comm.trans ?_
    rw [List.append_assoc]
    refine List.Perm.append_left l ?_
    refine List.perm_append_comm.trans ?_
    rw [List.append_assoc]
termination_by entriesSize l
decreasing_by
  all_goals simp only [entriesSize, entrySize]; omega

theorem any_isProject (q : Str) (l : List SEntry) : l.any (isProject q) = true ↔ q ∈ projectKeys l := by
  induction l with
  | nil => simp [projectKeys]
  | cons e l ih =>
    cases e with
    | project q' =>
      simp only [List.any_cons, isProject, Bool.or_eq_true, decide_eq_true_eq, ih, projectKeys,
        List.mem_cons]
      exact or_congr_left eq_comm
    | folder p n es => simp [isProject, projectKeys, ih]

/-- The search finds every entry once. -/
theorem collectEntries_perm (l acc : List SEntry)
    (h : (projectKeys acc ++ projectKeys (allEntries l)).Nodup) :
    (collectEntries l acc).Perm (acc ++ allEntries l) := by
  induction l, acc using collectEntries.induct with
  | case1 acc => rw [collectEntries]; simp [allEntries]
  | case2 q l acc hq ih =>
    exfalso
    rw [any_isProject] at hq
    simp only [allEntries, projectKeys] at h
    exact (List.nodup_append.mp h).2.2 q hq q (by simp) rfl
  | case3 q l acc hq ih =>
    rw [collectEntries, if_neg hq]
    refine (ih ?_).trans ?_
    · simp only [allEntries, projectKeys] at h
      simpa [projectKeys_append, projectKeys] using h
    · simp [allEntries]
  | case4 p n es l acc ih =>
    rw [collectEntries]
    have hp : (allEntries (l ++ es)).Perm (allEntries es ++ allEntries l) := by
      rw [allEntries_append]; exact List.perm_append_comm
    refine (ih ?_).trans ?_
    · simp only [allEntries, projectKeys] at h
      simp only [projectKeys_append, projectKeys, List.append_nil]
      refine (List.Perm.append_left _ (projectKeys_perm hp)).nodup_iff.mpr h
    · simp only [allEntries, List.append_assoc, List.cons_append, List.nil_append]
      exact List.Perm.append_left _ (List.Perm.cons _ hp)

theorem sortEntries_perm (heap : List (Str × SlnProject)) (l : List SEntry) :
    (sortEntries heap l).Perm l := pySorted_perm _ l

/-- Folders are shown in parentheses. -/
def parens (n : Str) : Str := c!"(" ++ n ++ c!")"

theorem toFolders_leaves (heap : List (Str × SlnProject)) (base : Str) (d : List (Str × SNode)) :
    (entryLeaves (toFolders heap false base d)).Perm
      ((leaves d).map fun x => (x.1.dropLast.map parens, x.2)) := by
  match d with
  | [] => simp [toFolders, leaves, entryLeaves]
  | (n, .proj q) :: l =>
    simp only [toFolders, entryLeaves, leaves, List.map_cons]
    exact List.Perm.cons _ (toFolders_leaves heap base l)
  | (f, .dir sub) :: l =>
    have ih1 := toFolders_leaves heap (pathJoin base f) sub
    have ih2 := toFolders_leaves heap base l
    simp only [toFolders, Bool.false_eq_true, if_false, List.cons_append, List.nil_append, entryLeaves,
      leaves, List.map_append, List.map_map]
    refine List.Perm.append ?_ ih2
    refine ((entryLeaves_perm (sortEntries_perm heap _)).map _).trans ?_
    refine (ih1.map fun x => ((c!"(" ++ f ++ c!")") :: x.1, x.2)).trans ?_
    rw [List.map_map]
    refine List.Perm.of_eq (List.map_congr_left fun x hx => ?_)
    have := leaves_ne_nil x hx
    simp only [Function.comp, Prod.mk.injEq, and_true]
    rw [List.dropLast_cons_of_ne_nil this]
    rfl
termination_by sizeOf d

theorem toFolders_flat (heap : List (Str × SlnProject)) (base : Str) (d : List (Str × SNode)) :
    toFolders heap true base d = (leaves d).map fun x => .project x.2 := by
  match d with
  | [] => simp [toFolders, leaves]
  | (n, .proj q) :: l => simp [toFolders, leaves, toFolders_flat heap base l]
  | (f, .dir sub) :: l =>
    simp only [toFolders, if_true, leaves, List.map_append, List.map_map, toFolders_flat heap base l,
      toFolders_flat heap (pathJoin base f) sub]
    rfl
termination_by sizeOf d

theorem entryLeaves_projects (L : List (List Str × Str)) :
    entryLeaves (L.map fun x => SEntry.project x.2) = L.map fun x => ([], x.2) := by
  induction L with
  | nil => simp [entryLeaves]
  | cons x L ih => simp [entryLeaves, ih]

/-- The folders of the projects of a solution: the directories of their build files, without those
all have in common, and without a directory that has only the project of its name. -/
theorem gatherFolders_leaves (env : SlnEnv) (heap : List (Str × SlnProject)) (projects : List Str)
    (hf : ∀ q ∈ projects, ∀ f ∈ (projectPlace q).1, ¬ endsWith f c!".vcproj")
    (hn : ∀ q ∈ projects, (projectPlace q).2 ≠ c!".vcproj")
    (hp : projects.Pairwise fun a b =>
      SlnApart ((projectPlace a).1 ++ [(projectPlace a).2]) ((projectPlace b).1 ++ [(projectPlace b).2])) :
    ∃ (roots : List SEntry) (tops : List Str) (L : List (List Str × Str)),
      gatherFolders env heap projects = .ok roots ∧
      (L.map fun x => (tops ++ x.1, x.2)).Perm
        (projects.map fun q => ((projectPlace q).1 ++ [(projectPlace q).2], q)) ∧
      (∀ x ∈ L, x.1 ≠ []) ∧
      (L ≠ [] → ¬ ∃ n, ∀ x ∈ L, [n] <+: x.1 ∧ x.1 ≠ [n]) ∧
      (entryLeaves roots).Perm (L.map fun x =>
        (if env.flat then [] else (shorten L x.1).dropLast.map parens, x.2)) := by
  obtain ⟨d, h1, h2, h3⟩ := projectTree_leaves projects hf hp
  obtain ⟨g1, tops, g2⟩ := stripTop_leaves d h2
  have hperm : ((leaves (stripTop d)).map fun x => (tops ++ x.1, x.2)).Perm
      (projects.map fun q => ((projectPlace q).1 ++ [(projectPlace q).2], q)) := by
    rw [← g2]; exact h3
  have hcol : collapse [] (.dir (stripTop d)) = .dir (collapseAll (stripTop d)) := by
    rcases collapse_dir [] (stripTop d) with ⟨c, hc, -⟩ | ⟨-, e⟩
    · exfalso
      cases c with
      | dir s => exact absurd (endsWith_append [] _) (g1.sub (n := c!".vcproj") (sub := s) (by rw [hc]; simp)).2.1
      | proj q =>
        have : (tops ++ [c!".vcproj"], q) ∈
            ((leaves (stripTop d)).map fun x => (tops ++ x.1, x.2)) := by rw [hc]; simp [leaves]
        rw [hperm.mem_iff, List.mem_map] at this
        obtain ⟨q', hq', e⟩ := this
        simp only [Prod.mk.injEq] at e
        have := (List.append_inj' e.1 rfl).2
        simp only [List.cons.injEq, and_true] at this
        exact hn q' hq' this
    · exact e
  refine ⟨toFolders heap env.flat [] (collapseAll (stripTop d)), tops, leaves (stripTop d), ?_, hperm,
    leaves_ne_nil, ?_, ?_⟩
  · unfold gatherFolders
    rw [h1]
    simp only [bind, Except.bind, hcol]
  · rintro hL ⟨n, hall⟩
    -- every entry is a folder named `n`
    have hent : ∀ e ∈ stripTop d, ∃ s, e = (n, SNode.dir s) := by
      rintro ⟨m, c⟩ he
      cases c with
      | proj q =>
        have : ([m], q) ∈ leaves (stripTop d) := by
          obtain ⟨a, b, hab⟩ := List.append_of_mem he
          rw [hab, leaves_append]; simp [leaves]
        obtain ⟨p1, p2⟩ := hall _ this
        simp only [List.cons_prefix_cons, List.prefix_nil] at p1
        simp only [ne_eq, List.cons.injEq, and_true] at p2
        exact absurd p1.1.symm p2
      | dir s =>
        obtain ⟨y, hy⟩ := List.exists_mem_of_ne_nil _ (g1.sub he).1
        obtain ⟨p1, -⟩ := hall _ (mem_leaves_dir he hy)
        simp only [List.cons_prefix_cons] at p1
        exact ⟨s, by rw [p1.1]⟩
    have hne : stripTop d ≠ [] := by
      intro e
      rw [e] at hL
      simp [leaves] at hL
    have hnd := g1.nodup
    revert hent hne hnd
    cases hst : stripTop d with
    | nil => intro _ h _; exact h rfl
    | cons x l =>
      intro hent _ hnd
      cases l with
      | nil =>
        obtain ⟨s, hs⟩ := hent x (by simp)
        rw [hs] at hst
        exact stripTop_done d n s hst
      | cons y l =>
        obtain ⟨s, rfl⟩ := hent x (by simp)
        obtain ⟨s', rfl⟩ := hent y (by simp)
        simp [akeys] at hnd
  · cases hfl : env.flat with
    | true =>
      rw [toFolders_flat, entryLeaves_projects, collapseAll_leaves _ g1, List.map_map]
      exact List.Perm.of_eq (List.map_congr_left fun x _ => by simp)
    | false =>
      refine (toFolders_leaves _ _ _).trans ?_
      rw [collapseAll_leaves _ g1, List.map_map]
      exact List.Perm.of_eq (List.map_congr_left fun x _ => by simp)

end Gyp
