import Verif.Proofs.MakeText
import Verif.Proofs.MergeLists
import Verif.Proofs.XcodeEnv
import Verif.Props.Ninja
import Verif.Props.Build
import Verif.Props.Validate
/-
Paths in makefiles: which characters they are made of and how objects get their names.
-/
namespace Gyp
open Spec

theorem _root_.Gyp.Spec.MkClean.pathJoin {a b : Str} (ha : MkClean a) (hb : MkClean b) : MkClean (pathJoin a b) := by
  intro c hc
  rcases mem_pathJoin hc with h | h | h
  · exact ha c h
  · exact hb c h
  · subst h; decide

theorem _root_.Gyp.Spec.MkClean.normpath {p : Str} (h : MkClean p) : MkClean (normpath p) := by
  intro c hc
  rcases mem_normpath hc with h' | h' | h'
  · exact h c h'
  · subst h'; decide
  · subst h'; decide

theorem _root_.Gyp.Spec.RefText.pathJoin {R : List Str} {a b : Str} (ha : RefText R a) (hb : RefText R b) :
    RefText R (pathJoin a b) := by
  unfold Gyp.pathJoin
  split
  · exact hb
  · split
    · exact ha.append hb
    · exact ha.append (.char (by decide) hb)

theorem _root_.Gyp.Spec.RefText.noSub {R : List Str} {s : Str} (h : RefText R s) (hs : hasSub c!"$(" s = false) :
    '$' ∉ s := by
  induction h with
  | nil => simp
  | char hc _ ih =>
    unfold hasSub at hs
    simp only [Bool.or_eq_false_iff] at hs
    simp only [List.mem_cons, not_or]
    exact ⟨Ne.symm hc, ih hs.2⟩
  | @ref n s hn hp _ ih =>
    rw [List.append_assoc, List.append_assoc] at hs
    simp [hasSub, startsWith] at hs

theorem hasSub_absent {t s : Str} {c : Char} (ht : c ∈ t) (hs : c ∉ s) : hasSub t s = false := by
  rw [← Bool.not_eq_true]
  intro h
  obtain ⟨a, b, rfl⟩ := (hasSub_iff t s).mp h
  exact hs (by simp [ht])

/-- The text before a trailing slash. -/
theorem _root_.Gyp.Spec.RefText.dropSlash {R : List Str} {s : Str} (h : RefText R s) :
    ∀ a, s = a ++ ['/'] → RefText R a := by
  induction h with
  | nil => intro a h; simp at h
  | @char c s hc hs ih =>
    intro a ha
    cases a with
    | nil => exact .nil
    | cons x a =>
      rw [List.cons_append] at ha
      injection ha with h1 h2
      subst h1
      exact .char hc (ih a h2)
  | @ref n s hn hp hs ih =>
    intro a ha
    by_cases hsn : s = []
    · subst hsn
      rw [List.append_nil] at ha
      obtain ⟨-, h2⟩ := List.append_inj' ha rfl
      simp at h2
    · obtain ⟨b, x, rfl⟩ : ∃ b x, s = b ++ [x] := by
        exact ⟨s.dropLast, s.getLast hsn, (List.dropLast_append_getLast hsn).symm⟩
      rw [← List.append_assoc] at ha
      obtain ⟨h1, h2⟩ := List.append_inj' ha rfl
      subst h1
      injection h2 with h2
      subst h2
      exact .ref hn hp (ih b rfl)

theorem rstripSlash_spec (s : Str) : ∃ k, s = rstripSlash s ++ List.replicate k '/' := by
  unfold rstripSlash
  have := List.takeWhile_append_dropWhile (p := fun c => decide (c = '/')) (l := s.reverse)
  refine ⟨(s.reverse.takeWhile (· = '/')).length, ?_⟩
  have h2 : s.reverse.takeWhile (fun c => decide (c = '/')) =
      List.replicate (s.reverse.takeWhile (fun c => decide (c = '/'))).length '/' := by
    apply List.eq_replicate_of_mem
    intro b hb
    have := List.mem_takeWhile_imp hb
    simpa using this
  have h3 := congrArg List.reverse this
  rw [List.reverse_append, List.reverse_reverse] at h3
  rw [← List.reverse_replicate, ← h2]
  exact h3.symm

theorem _root_.Gyp.Spec.RefText.rstrip {R : List Str} {s : Str} (h : RefText R s) : RefText R (rstripSlash s) := by
  obtain ⟨k, hk⟩ := rstripSlash_spec s
  generalize rstripSlash s = r at hk
  induction k generalizing s with
  | zero => simpa [hk] using h
  | succ k ih =>
    rw [List.replicate_succ', ← List.append_assoc] at hk
    exact ih (h.dropSlash _ hk) rfl

theorem mem_rstrip {s : Str} {c : Char} (h : c ∈ rstripSlash s) : c ∈ s := by
  unfold rstripSlash at h
  exact List.mem_reverse.mp ((List.dropWhile_sublist _).subset (List.mem_reverse.mp h))

theorem _root_.Gyp.Spec.RefText.absolutify {R : List Str} {m : MkSelf} {p : Str} (hm : '$' ∉ m.path)
    (h : RefText R p) : RefText R (Absolutify m p) := by
  unfold Absolutify
  split
  · exact h.rstrip
  · rename_i hs
    have hd := h.noSub (by simpa using hs)
    apply RefText.plain
    intro hc
    rcases mem_normpath hc with h' | h' | h'
    · rcases mem_pathJoin h' with h'' | h'' | h''
      · exact hm h''
      · exact hd h''
      · cases h''
    · cases h'
    · cases h'

theorem _root_.Gyp.Spec.MkClean.absolutify {m : MkSelf} {p : Str} (hm : MkClean m.path) (h : MkClean p) :
    MkClean (Absolutify m p) := by
  unfold Absolutify
  split
  · exact fun c hc => h c (mem_rstrip hc)
  · exact (hm.pathJoin h).normpath

theorem _root_.Gyp.Spec.RefText.sourceify {R : List Str} {m : MkSelf} {p : Str} (hm : RefText R m.srcdirPrefix)
    (h : RefText R p) : RefText R (Sourceify m p) := by
  unfold Sourceify
  split
  · exact h
  · split
    · exact h
    · exact hm.append h

theorem _root_.Gyp.Spec.MkClean.sourceify {m : MkSelf} {p : Str} (hm : MkClean m.srcdirPrefix)
    (h : MkClean p) : MkClean (Sourceify m p) := by
  unfold Sourceify
  split
  · exact h
  · split
    · exact h
    · exact hm.append h

/-- A relative path whose last component is a name keeps this component. -/
theorem normpath_last {d : Str} (hd : d = [] ∨ ∃ e, d = e ++ c!"/") (habs : isAbs d = false) :
    ∃ N : Str, ∀ n, validName n → normpath (d ++ n) = N ++ n := by
  have fold : ∀ (cs : List Str) (n : Str), validName n →
      cs.foldl (normStep false) [] = cs.foldl (normStep false) [] ∧
      (cs ++ [n]).foldl (normStep false) [] = n :: cs.foldl (normStep false) [] := by
    intro cs n hn
    refine ⟨rfl, ?_⟩
    rw [List.foldl_append, List.foldl_cons, List.foldl_nil]
    generalize cs.foldl (normStep false) [] = acc
    unfold normStep
    rw [if_neg (by rintro (h | h); exacts [hn.1 h, hn.2.2.1 h]), if_pos (Or.inl (show n ≠ dotdot from hn.2.2.2))]
  have key : ∀ (cs : List Str), (∀ n, validName n → splitOn '/' (d ++ n) = cs ++ [n]) →
      ∃ N : Str, ∀ n, validName n → normpath (d ++ n) = N ++ n := by
    intro cs hcs
    let comps := (cs.foldl (normStep false) []).reverse
    refine ⟨if comps = [] then [] else joinWith ['/'] comps ++ ['/'], fun n hn => ?_⟩
    have hab : isAbs (d ++ n) = false := by
      rw [isAbs_false_iff] at habs ⊢
      cases d with
      | nil =>
        intro h
        cases n with
        | nil => exact hn.1 rfl
        | cons x n =>
          simp only [List.nil_append, List.head?_cons, Option.some.injEq] at h
          exact hn.2.1 (by simp [h])
      | cons x d => simpa using habs
    have hne : d ++ n ≠ [] := by simp [hn.1]
    unfold normpath
    rw [if_neg hne, hab, hcs n hn, (fold cs n hn).2]
    have h0 : initialSlashes (d ++ n) = 0 := by
      have := initialSlashes_pos (p := d ++ n)
      rw [hab] at this
      simp at this
      omega
    dsimp only
    rw [h0, List.replicate_zero, List.nil_append, List.reverse_cons]
    show (if joinWith ['/'] (comps ++ [n]) = [] then dot else joinWith ['/'] (comps ++ [n])) = _
    by_cases hc : comps = []
    · rw [hc, if_pos rfl]
      show (if n = [] then dot else n) = _
      rw [if_neg hn.1, List.nil_append]
    · rw [if_neg hc, joinWith_append_ne _ _ _ hc (by simp), if_neg (by simp)]
      simp [joinWith]
  rcases hd with rfl | ⟨e, rfl⟩
  · exact key [] fun n hn => by simpa using splitOn_noSep hn.2.1
  · refine key (splitOn '/' e) fun n hn => ?_
    rw [List.append_assoc, show c!"/" ++ n = '/' :: n from rfl, splitOn_append_sep,
      splitOn_noSep hn.2.1]

/-- ... also after joining it to a directory. -/
theorem normpath_join_last {dir d : Str} (hdir : isAbs dir = false)
    (hd : d = [] ∨ ∃ e, d = e ++ c!"/") (habs : isAbs d = false) :
    ∃ N : Str, ∀ n, validName n → normpath (pathJoin dir (d ++ n)) = N ++ n := by
  have hrel : ∀ n, validName n → isAbs (d ++ n) = false := by
    intro n hn
    rw [isAbs_false_iff] at habs ⊢
    cases d with
    | nil =>
      cases n with
      | nil => simp
      | cons x n =>
        intro h
        simp only [List.nil_append, List.head?_cons, Option.some.injEq] at h
        exact hn.2.1 (by simp [h])
    | cons x d => simpa using habs
  let D : Str := if dir = [] ∨ endsWith dir ['/'] then dir ++ d else dir ++ '/' :: d
  have hD : ∀ n, validName n → pathJoin dir (d ++ n) = D ++ n := by
    intro n hn
    unfold pathJoin
    rw [hrel n hn, if_neg (by simp)]
    by_cases hc : dir = [] ∨ endsWith dir ['/'] = true
    · rw [if_pos hc]; simp [D, hc]
    · rw [if_neg hc]; simp [D, hc]
  have hDend : D = [] ∨ ∃ e, D = e ++ c!"/" := by
    by_cases hc : dir = [] ∨ endsWith dir ['/'] = true
    · simp only [D, if_pos hc]
      rcases hd with rfl | ⟨e, rfl⟩
      · rw [List.append_nil]
        rcases hc with rfl | hc
        · exact Or.inl rfl
        · exact Or.inr (endsWith_slash hc)
      · exact Or.inr ⟨dir ++ e, by simp⟩
    · simp only [D, if_neg hc]
      rcases hd with rfl | ⟨e, rfl⟩
      · exact Or.inr ⟨dir, by simp⟩
      · exact Or.inr ⟨dir ++ '/' :: e, by simp⟩
  have hDabs : isAbs D = false := by
    by_cases hdn : dir = []
    · simp [D, hdn, habs]
    · rw [isAbs_false_iff] at hdir ⊢
      cases dir with
      | nil => exact absurd rfl hdn
      | cons x dir =>
        by_cases hc : (x :: dir = [] ∨ endsWith (x :: dir) ['/'] = true)
        · simp only [D, if_pos hc]; simpa using hdir
        · simp only [D, if_neg hc]; simpa using hdir
  obtain ⟨N, hN⟩ := normpath_last hDend hDabs
  exact ⟨N, fun n hn => by rw [hD n hn, hN n hn]⟩

end Gyp
