import Verif.Model.MsvsSolution
/-
The tree of folders of a solution keeps every project, and where.
-/
namespace Gyp

/-- The projects of a tree with the names leading to them. -/
def leaves : List (Str × SNode) → List (List Str × Str)
  | [] => []
  | (n, .proj q) :: l => ([n], q) :: leaves l
  | (n, .dir sub) :: l => ((leaves sub).map fun x => (n :: x.1, x.2)) ++ leaves l

theorem leaves_append (a b : List (Str × SNode)) : leaves (a ++ b) = leaves a ++ leaves b := by
  induction a with
  | nil => simp [leaves]
  | cons e a ih =>
    obtain ⟨n, c⟩ := e
    cases c with
    | proj q => simp [leaves, ih]
    | dir sub => simp [leaves, ih, List.append_assoc]

theorem leaves_single_dir (n : Str) (sub : List (Str × SNode)) :
    leaves [(n, .dir sub)] = (leaves sub).map fun x => (n :: x.1, x.2) := by
  simp [leaves]

theorem aset_split {α : Type} {d : List (Str × α)} {k : Str} {x : α} (h : aget d k = some x) :
    ∃ pre post, d = pre ++ (k, x) :: post ∧ k ∉ akeys pre ∧
      ∀ v, aset d k v = pre ++ (k, v) :: post := by
  induction d with
  | nil => cases h
  | cons e d ih =>
    obtain ⟨k', v'⟩ := e
    unfold aget at h
    by_cases hk : k' = k
    · subst hk
      rw [if_pos rfl] at h
      simp only [Option.some.injEq] at h
      subst h
      exact ⟨[], d, rfl, by simp [akeys], fun v => by simp [aset]⟩
    · rw [if_neg hk] at h
      obtain ⟨pre, post, h1, h2, h3⟩ := ih h
      refine ⟨(k', v') :: pre, post, by rw [h1]; rfl, ?_, fun v => ?_⟩
      · simp only [akeys, List.map_cons, List.mem_cons, not_or]
        exact ⟨fun e => hk e.symm, h2⟩
      · unfold aset
        rw [if_neg hk, h3]
        rfl

theorem aget_none_notMem {α : Type} {d : List (Str × α)} {k : Str} (h : aget d k = none) :
    k ∉ akeys d := by
  intro hk
  have := (aget_isSome d k).mpr hk
  rw [h] at this
  cases this

/-- Two places are apart when neither leads through the other. -/
def SlnApart (a b : List Str) : Prop := ¬ a <+: b ∧ ¬ b <+: a

/-- Every folder of the tree has a project in it, folders are not named like projects, and the names
in a folder are distinct. -/
inductive Sound : List (Str × SNode) → Prop where
  | mk (d : List (Str × SNode)) (hn : (akeys d).Nodup)
      (hl : ∀ n sub, (n, SNode.dir sub) ∈ d → leaves sub ≠ [] ∧ ¬ endsWith n c!".vcproj")
      (hs : ∀ n sub, (n, SNode.dir sub) ∈ d → Sound sub) : Sound d

theorem Sound.intro {d : List (Str × SNode)} (hn : (akeys d).Nodup)
    (hs : ∀ n sub, (n, SNode.dir sub) ∈ d → leaves sub ≠ [] ∧ ¬ endsWith n c!".vcproj" ∧ Sound sub) :
    Sound d :=
  Sound.mk d hn (fun n sub h => ⟨(hs n sub h).1, (hs n sub h).2.1⟩) (fun n sub h => (hs n sub h).2.2)

theorem Sound.nodup {d : List (Str × SNode)} (h : Sound d) : (akeys d).Nodup := by
  cases h; assumption

theorem Sound.sub {d : List (Str × SNode)} (h : Sound d) {n : Str} {sub : List (Str × SNode)}
    (hm : (n, SNode.dir sub) ∈ d) : leaves sub ≠ [] ∧ ¬ endsWith n c!".vcproj" ∧ Sound sub := by
  cases h with
  | mk _ _ hl hs => exact ⟨(hl n sub hm).1, (hl n sub hm).2, hs n sub hm⟩

theorem sln_mem_aset {α : Type} {d : List (Str × α)} {k : Str} {v : α} {e : Str × α}
    (h : e ∈ aset d k v) : e = (k, v) ∨ e ∈ d := by
  induction d with
  | nil => simpa [aset] using h
  | cons a d ih =>
    obtain ⟨k', v'⟩ := a
    unfold aset at h
    by_cases hk : k' = k
    · rw [if_pos hk] at h
      rcases List.mem_cons.mp h with h | h
      · exact Or.inl h
      · exact Or.inr (List.mem_cons_of_mem _ h)
    · rw [if_neg hk] at h
      rcases List.mem_cons.mp h with h | h
      · exact Or.inr (List.mem_cons.mpr (Or.inl h))
      · exact (ih h).imp_right (List.mem_cons_of_mem _)

theorem mem_leaves_dir {d : List (Str × SNode)} {n : Str} {sub : List (Str × SNode)}
    (h : (n, SNode.dir sub) ∈ d) {x : List Str × Str} (hx : x ∈ leaves sub) :
    (n :: x.1, x.2) ∈ leaves d := by
  obtain ⟨a, b, rfl⟩ := List.append_of_mem h
  rw [leaves_append]
  refine List.mem_append_right _ ?_
  simp only [leaves, List.mem_append, List.mem_map]
  exact Or.inl ⟨x, hx, rfl⟩

/-- Putting a project at a place apart from all others adds it and keeps them. -/
theorem putProject_leaves (fs : List Str) (name q : Str) (d : List (Str × SNode))
    (hf : ∀ f ∈ fs, ¬ endsWith f c!".vcproj") (hd : Sound d)
    (ha : ∀ x ∈ leaves d, SlnApart x.1 (fs ++ [name])) :
    ∃ d', putProject fs name q d = .ok d' ∧ (leaves d').Perm ((fs ++ [name], q) :: leaves d) ∧
      Sound d' := by
  induction fs generalizing d with
  | nil =>
    refine ⟨aset d name (.proj q), rfl, ?_, ?_⟩
    · cases hg : aget d name with
      | none =>
        rw [aset_new (aget_none_notMem hg), leaves_append]
        simp only [leaves, List.nil_append]
        exact List.perm_append_comm
      | some x =>
        obtain ⟨pre, post, h1, _, h3⟩ := aset_split hg
        rw [h3, h1, leaves_append, leaves_append]
        have hx : leaves ((name, x) :: post) = leaves post := by
          cases x with
          | proj q' =>
            exact absurd (List.prefix_refl _) (ha ([name], q') (by rw [h1, leaves_append]; simp [leaves])).1
          | dir sub =>
            have hm : (name, SNode.dir sub) ∈ d := by rw [h1]; simp
            obtain ⟨hne, -, -⟩ := hd.sub hm
            obtain ⟨y, hy⟩ := List.exists_mem_of_ne_nil _ hne
            exact absurd ⟨y.1, rfl⟩ (ha _ (mem_leaves_dir hm hy)).2
        rw [hx]
        simp only [leaves, List.nil_append]
        exact List.perm_middle
    · refine Sound.intro (akeys_aset_nodup hd.nodup _ _) fun n sub hm => ?_
      rcases sln_mem_aset hm with h | h
      · cases h
      · exact hd.sub h
  | cons f fs ih =>
    have hf' : ∀ g ∈ fs, ¬ endsWith g c!".vcproj" := fun g hg => hf g (List.mem_cons_of_mem _ hg)
    have finish : ∀ sub', leaves sub' ≠ [] → Sound sub' → Sound (aset d f (.dir sub')) := by
      intro sub' hne hsub
      refine Sound.intro (akeys_aset_nodup hd.nodup _ _) fun n sub hm => ?_
      rcases sln_mem_aset hm with h | h
      · simp only [Prod.mk.injEq, SNode.dir.injEq] at h
        rw [h.1, h.2]
        exact ⟨hne, hf f (by simp), hsub⟩
      · exact hd.sub h
    have ne_of_perm : ∀ {l : List (List Str × Str)} {a} {m}, l.Perm (a :: m) → l ≠ [] := by
      intro l a m hp e
      rw [e] at hp
      exact List.cons_ne_nil _ _ hp.symm.eq_nil
    unfold putProject
    cases hg : aget d f with
    | none =>
      obtain ⟨sub', h1, h2, h3⟩ := ih [] hf' (Sound.intro (by simp [akeys]) (by simp)) (by simp [leaves])
      refine ⟨aset d f (.dir sub'), by simp only [h1]; rfl, ?_, finish _ (ne_of_perm h2) h3⟩
      rw [aset_new (aget_none_notMem hg), leaves_append, leaves_single_dir]
      refine List.perm_append_comm.trans ?_
      refine List.Perm.append_right (l₂ := [(f :: (fs ++ [name]), q)]) _ ?_
      simpa [leaves] using h2.map fun x => (f :: x.1, x.2)
    | some x =>
      obtain ⟨pre, post, e1, _, e3⟩ := aset_split hg
      cases x with
      | proj q' =>
        exact absurd ⟨fs ++ [name], rfl⟩
          (ha ([f], q') (by rw [e1, leaves_append]; simp [leaves])).1
      | dir sub =>
        have hm : (f, SNode.dir sub) ∈ d := by rw [e1]; simp
        obtain ⟨sub', h1, h2, h3⟩ := ih sub hf' (hd.sub hm).2.2 (by
          intro x hx
          have := ha _ (mem_leaves_dir hm hx)
          refine ⟨fun h => this.1 ?_, fun h => this.2 ?_⟩
          · simpa using h
          · simpa using h)
        refine ⟨aset d f (.dir sub'), by simp only [h1]; rfl, ?_, finish _ (ne_of_perm h2) h3⟩
        rw [e3, e1, leaves_append, leaves_append]
        simp only [leaves]
        have h4 := (h2.map fun x => (f :: x.1, x.2))
        rw [List.map_cons] at h4
        refine ((List.Perm.append_left _ (List.Perm.append_right _ h4)).trans ?_)
        exact List.perm_middle

/-- The whole tree. -/
theorem projectTree_leaves (projects : List Str)
    (hf : ∀ q ∈ projects, ∀ f ∈ (projectPlace q).1, ¬ endsWith f c!".vcproj")
    (hp : projects.Pairwise fun a b =>
      SlnApart ((projectPlace a).1 ++ [(projectPlace a).2]) ((projectPlace b).1 ++ [(projectPlace b).2])) :
    ∃ d, projectTree projects = .ok d ∧ Sound d ∧
      (leaves d).Perm (projects.map fun q => ((projectPlace q).1 ++ [(projectPlace q).2], q)) := by
  have go : ∀ (ps done : List Str) (d : List (Str × SNode)),
      (∀ q ∈ ps, ∀ f ∈ (projectPlace q).1, ¬ endsWith f c!".vcproj") →
      (done ++ ps).Pairwise (fun a b => SlnApart ((projectPlace a).1 ++ [(projectPlace a).2])
        ((projectPlace b).1 ++ [(projectPlace b).2])) →
      Sound d →
      (leaves d).Perm (done.map fun q => ((projectPlace q).1 ++ [(projectPlace q).2], q)) →
      ∃ d', ps.foldlM (fun d q => putProject (projectPlace q).1 (projectPlace q).2 q d) d = Except.ok (ε := SlnErr) d' ∧
        Sound d' ∧ (leaves d').Perm
          ((done ++ ps).map fun q => ((projectPlace q).1 ++ [(projectPlace q).2], q)) := by
    intro ps
    induction ps with
    | nil => intro done d _ _ hd hl; exact ⟨d, rfl, hd, by simpa using hl⟩
    | cons q ps ih =>
      intro done d hf hp hd hl
      obtain ⟨d', h1, h2, h3⟩ := putProject_leaves (projectPlace q).1 (projectPlace q).2 q d
        (hf q (by simp)) hd (by
          intro x hx
          have := hl.mem_iff.mp hx
          obtain ⟨a, ha, rfl⟩ := List.mem_map.mp this
          exact (List.pairwise_append.mp hp).2.2 a ha q (by simp))
      have hp' : (done ++ [q] ++ ps).Pairwise (fun a b => SlnApart ((projectPlace a).1 ++ [(projectPlace a).2])
        ((projectPlace b).1 ++ [(projectPlace b).2])) := by simpa using hp
      obtain ⟨d'', e1, e2, e3⟩ := ih (done ++ [q]) d' (fun p hp => hf p (List.mem_cons_of_mem _ hp)) hp' h3
        (by
          rw [List.map_append]
          exact (h2.trans (List.Perm.cons _ hl)).trans (List.perm_append_comm (l₁ := [_])))
      refine ⟨d'', ?_, e2, by simpa using e3⟩
      rw [List.foldlM_cons, h1]
      exact e1
  obtain ⟨d, h1, h2, h3⟩ := go projects [] [] hf (by simpa using hp) (Sound.intro (by simp [akeys]) (by simp))
    (by simp [leaves])
  exact ⟨d, h1, h2, by simpa using h3⟩

/-! ### The top folders -/

theorem stripTop_leaves (d : List (Str × SNode)) (h : Sound d) :
    Sound (stripTop d) ∧ ∃ tops, leaves d = (leaves (stripTop d)).map fun x => (tops ++ x.1, x.2) := by
  induction d using stripTop.induct with
  | case1 n sub ih =>
    obtain ⟨h1, tops, h2⟩ := ih (h.sub (n := n) (sub := sub) (by simp)).2.2
    rw [stripTop]
    refine ⟨h1, n :: tops, ?_⟩
    rw [leaves_single_dir, h2]
    simp
  | case2 n q => rw [stripTop]; exact ⟨h, [], by simp⟩
  | case3 => rw [stripTop]; exact ⟨h, [], by simp⟩
  | case4 a b l => rw [stripTop]; exact ⟨h, [], by simp⟩

/-- After leaving out the top folders, there is not just one folder left. -/
theorem stripTop_done (d : List (Str × SNode)) (n : Str) (sub : List (Str × SNode)) :
    stripTop d ≠ [(n, .dir sub)] := by
  induction d using stripTop.induct with
  | case1 n sub ih => rw [stripTop]; exact ih
  | case2 n q => rw [stripTop]; simp
  | case3 => rw [stripTop]; simp
  | case4 a b l => rw [stripTop]; simp

/-! ### Single projects -/

theorem leaves_ne_nil {d : List (Str × SNode)} : ∀ x ∈ leaves d, x.1 ≠ [] := by
  intro x hx
  induction d with
  | nil => simp [leaves] at hx
  | cons e d ih =>
    obtain ⟨n, c⟩ := e
    cases c with
    | proj q =>
      simp only [leaves, List.mem_cons] at hx
      rcases hx with rfl | hx
      · simp
      · exact ih hx
    | dir sub =>
      simp only [leaves, List.mem_append, List.mem_map] at hx
      rcases hx with ⟨y, _, rfl⟩ | hx
      · simp
      · exact ih hx

theorem leaves_head {d : List (Str × SNode)} {x : List Str × Str} (hx : x ∈ leaves d) :
    ∃ n y, x.1 = n :: y ∧ n ∈ akeys d := by
  induction d with
  | nil => simp [leaves] at hx
  | cons e d ih =>
    obtain ⟨n, c⟩ := e
    have tail : x ∈ leaves d → ∃ n' y, x.1 = n' :: y ∧ n' ∈ akeys ((n, c) :: d) := by
      intro h
      obtain ⟨n', y, h1, h2⟩ := ih h
      exact ⟨n', y, h1, List.mem_cons_of_mem _ h2⟩
    cases c with
    | proj q =>
      simp only [leaves, List.mem_cons] at hx
      rcases hx with rfl | hx
      · exact ⟨n, [], rfl, by simp [akeys]⟩
      · exact tail hx
    | dir sub =>
      simp only [leaves, List.mem_append, List.mem_map] at hx
      rcases hx with ⟨y, _, rfl⟩ | hx
      · exact ⟨n, y.1, rfl, by simp [akeys]⟩
      · exact tail hx

theorem leaves_inside {d : List (Str × SNode)} (hn : (akeys d).Nodup) {n : Str} {c : SNode}
    (hm : (n, c) ∈ d) {x : List Str × Str} (hx : x ∈ leaves d) {y : List Str} (hy : x.1 = n :: y) :
    x ∈ leaves [(n, c)] := by
  obtain ⟨a, b, rfl⟩ := List.append_of_mem hm
  simp only [akeys, List.map_append, List.map_cons] at hn
  rw [List.nodup_append] at hn
  obtain ⟨-, h2, h3⟩ := hn
  rw [List.nodup_cons] at h2
  rw [leaves_append] at hx
  have hb : leaves ((n, c) :: b) = leaves [(n, c)] ++ leaves b := leaves_append [(n, c)] b
  rw [hb] at hx
  rcases List.mem_append.mp hx with h | h
  · obtain ⟨m, z, e1, e2⟩ := leaves_head h
    rw [hy] at e1
    simp only [List.cons.injEq] at e1
    exact absurd e1.1.symm (h3 m e2 n (by simp))
  · rcases List.mem_append.mp h with h | h
    · exact h
    · obtain ⟨m, z, e1, e2⟩ := leaves_head h
      rw [hy] at e1
      simp only [List.cons.injEq] at e1
      exact absurd (e1.1 ▸ e2) h2.1

theorem leaves_inside_dir {d : List (Str × SNode)} (hn : (akeys d).Nodup) {n : Str}
    {sub : List (Str × SNode)} (hm : (n, SNode.dir sub) ∈ d) {x : List Str × Str} (hx : x ∈ leaves d)
    {y : List Str} (hy : x.1 = n :: y) : (y, x.2) ∈ leaves sub := by
  have := leaves_inside hn hm hx hy
  rw [leaves_single_dir] at this
  obtain ⟨z, hz, rfl⟩ := List.mem_map.mp this
  simp only [List.cons.injEq, true_and] at hy
  rw [← hy]
  exact hz

/-- The only project of a folder, named like the folder. -/
def Alone (L : List (List Str × Str)) (p : List Str) : Prop :=
  ∃ pre t, p = pre ++ [t, t ++ c!".vcproj"] ∧ ∀ x ∈ L, (pre ++ [t]) <+: x.1 → x.1 = p

open Classical in
/-- Such a project is shown in place of its folder. -/
noncomputable def shorten (L : List (List Str × Str)) (p : List Str) : List Str :=
  if Alone L p then p.dropLast else p

theorem endsWith_append (a b : Str) : endsWith (a ++ b) b = true := by
  unfold endsWith
  rw [List.isSuffixOf_iff_suffix]
  exact List.suffix_append a b

theorem collapse_dir (n : Str) (sub : List (Str × SNode)) :
    (∃ c, sub = [(n ++ c!".vcproj", c)] ∧ collapse n (.dir sub) = c) ∨
    ((∀ c, sub ≠ [(n ++ c!".vcproj", c)]) ∧ collapse n (.dir sub) = .dir (collapseAll sub)) := by
  match sub with
  | [] => exact Or.inr ⟨by simp, by simp [collapse, collapseAll]⟩
  | [(m, c)] =>
    by_cases h : m = n ++ c!".vcproj"
    · exact Or.inl ⟨c, by rw [h], by rw [collapse, if_pos h]⟩
    · refine Or.inr ⟨fun c' e => h ?_, by rw [collapse, if_neg h]; simp [collapseAll]⟩
      simp only [List.cons.injEq, Prod.mk.injEq, and_true] at e
      exact e.1
  | (m, c) :: e :: l => exact Or.inr ⟨by simp, by simp [collapse, collapseAll]⟩

theorem leaves_cons (e : Str × SNode) (l : List (Str × SNode)) :
    leaves (e :: l) = leaves [e] ++ leaves l := leaves_append [e] l

theorem alone_sub {d : List (Str × SNode)} (hd : Sound d) {n : Str} {sub : List (Str × SNode)}
    (hm : (n, SNode.dir sub) ∈ d) (hne : ∀ c, sub ≠ [(n ++ c!".vcproj", c)]) (p : List Str) :
    Alone (leaves d) (n :: p) ↔ Alone (leaves sub) p := by
  obtain ⟨h1, h2, h3⟩ := hd.sub hm
  constructor
  · rintro ⟨pre, t, e, hall⟩
    cases pre with
    | nil =>
      exfalso
      simp only [List.nil_append, List.cons.injEq] at e
      obtain ⟨rfl, rfl⟩ := e
      have hsub : ∀ x ∈ leaves sub, x.1 = [n ++ c!".vcproj"] := by
        intro x hx
        have := hall _ (mem_leaves_dir hm hx) ⟨x.1, rfl⟩
        simpa using this
      have hent : ∀ e ∈ sub, e.1 = n ++ c!".vcproj" := by
        rintro ⟨m, c⟩ he
        cases c with
        | proj q =>
          have : ([m], q) ∈ leaves sub := by
            obtain ⟨a, b, rfl⟩ := List.append_of_mem he
            rw [leaves_append]; simp [leaves]
          simpa using hsub _ this
        | dir s =>
          obtain ⟨g1, -, -⟩ := h3.sub he
          obtain ⟨y, hy⟩ := List.exists_mem_of_ne_nil _ g1
          have := hsub _ (mem_leaves_dir he hy)
          simp only [List.cons.injEq] at this
          exact absurd this.2 (leaves_ne_nil y hy)
      match sub, h1, h3, hent, hne with
      | [], h1, _, _, _ => exact h1 (by simp [leaves])
      | [(m, c)], _, _, hent, hne =>
        have := hent (m, c) (by simp)
        exact hne c (by simpa using this)
      | a :: b :: l, _, h3, hent, _ =>
        have hnd := h3.nodup
        simp only [akeys, List.map_cons, List.nodup_cons, List.mem_cons, not_or] at hnd
        exact hnd.1.1 ((hent a (by simp)).trans (hent b (by simp)).symm)
    | cons n' pre =>
      simp only [List.cons_append, List.cons.injEq] at e
      obtain ⟨rfl, rfl⟩ := e
      refine ⟨pre, t, rfl, fun x hx hp => ?_⟩
      have := hall _ (mem_leaves_dir hm hx) (by simpa using hp)
      simpa using this
  · rintro ⟨pre, t, rfl, hall⟩
    refine ⟨n :: pre, t, rfl, fun x hx hp => ?_⟩
    obtain ⟨r, hr⟩ := hp
    have hx1 : x.1 = n :: (pre ++ [t] ++ r) := by rw [← hr]; simp
    have := hall _ (leaves_inside_dir hd.nodup hm hx hx1) ⟨r, rfl⟩
    simp only at this
    rw [hx1, this]

theorem collapseAll_append (a b : List (Str × SNode)) :
    collapseAll (a ++ b) = collapseAll a ++ collapseAll b := by
  induction a with
  | nil => simp [collapseAll]
  | cons e a ih => obtain ⟨n, c⟩ := e; simp [collapseAll, ih]

/-- Collapsing keeps the projects; those alone in a folder of their name move up. -/
theorem collapseAll_leaves (d : List (Str × SNode)) (hd : Sound d) :
    leaves (collapseAll d) = (leaves d).map fun x => (shorten (leaves d) x.1, x.2) := by
  have key : ∀ n c, (n, c) ∈ d →
      leaves [(n, collapse n c)] = (leaves [(n, c)]).map fun x => (shorten (leaves d) x.1, x.2) := by
    intro n c hm
    cases c with
    | proj q =>
      have hna : ¬ Alone (leaves d) [n] := by
        rintro ⟨pre, t, e, -⟩
        have := congrArg List.length e
        simp at this
      simp [collapse, leaves, shorten, hna]
    | dir sub =>
      obtain ⟨h1, h2, h3⟩ := hd.sub hm
      rcases collapse_dir n sub with ⟨c, hc, e⟩ | ⟨hne, e⟩
      · rw [e]
        cases c with
        | dir s =>
          exact absurd (endsWith_append n _) (h3.sub (n := n ++ c!".vcproj") (sub := s) (by rw [hc]; simp)).2.1
        | proj q =>
          have ha : Alone (leaves d) [n, n ++ c!".vcproj"] := by
            refine ⟨[], n, rfl, fun x hx hp => ?_⟩
            obtain ⟨r, hr⟩ := hp
            have := leaves_inside_dir hd.nodup hm hx (y := r) (by rw [← hr]; simp)
            rw [hc] at this
            simp only [leaves, List.mem_singleton, Prod.mk.injEq] at this
            rw [← hr, this.1]
            rfl
          have hs : shorten (leaves d) [n, n ++ c!".vcproj"] = [n] := by
            unfold shorten; rw [if_pos ha]; rfl
          rw [hc]
          simp only [leaves, List.map_cons, List.map_nil, List.append_nil, hs]
      · rw [e, leaves_single_dir, leaves_single_dir, collapseAll_leaves sub h3, List.map_map, List.map_map]
        apply List.map_congr_left
        intro x hx
        have hp := leaves_ne_nil x hx
        have := alone_sub hd hm hne x.1
        simp only [Function.comp, shorten, Prod.mk.injEq, and_true]
        by_cases ha : Alone (leaves sub) x.1
        · rw [if_pos ha, if_pos (this.mpr ha), List.dropLast_cons_of_ne_nil hp]
        · rw [if_neg ha, if_neg fun h => ha (this.mp h)]
  have go : ∀ l : List (Str × SNode), (∀ e ∈ l, e ∈ d) →
      leaves (collapseAll l) = (leaves l).map fun x => (shorten (leaves d) x.1, x.2) := by
    intro l hl
    induction l with
    | nil => simp [collapseAll, leaves]
    | cons e l ih =>
      obtain ⟨n, c⟩ := e
      rw [collapseAll, leaves_cons, leaves_cons (n, c) l, List.map_append, key n c (hl _ (by simp)),
        ih fun e he => hl e (List.mem_cons_of_mem _ he)]
  exact go d fun _ h => h
termination_by sizeOf d
decreasing_by
  have := List.sizeOf_lt_of_mem hm
  simp at this
  omega

end Gyp
