import Verif.Model.Path
import Verif.Spec.Path
namespace Gyp
open Gyp.Spec

theorem splitOn_append_sep {c : Char} (a b : Str) :
    splitOn c (a ++ c :: b) = splitOn c a ++ splitOn c b := by
  induction a with
  | nil => simp [splitOn]
  | cons x xs ih =>
    simp only [List.cons_append, splitOn]
    split
    · simp [ih]
    · rw [ih]
      cases hs : splitOn c xs with
      | nil => exact absurd hs splitOn_ne_nil
      | cons w ws => simp

theorem splitOn_noSep {c : Char} {w : Str} (hw : c ∉ w) : splitOn c w = [w] := by
  induction w with
  | nil => simp [splitOn]
  | cons x xs ih =>
    simp at hw
    have hx : x ≠ c := fun e => hw.1 e.symm
    simp [splitOn, hx, ih hw.2]

theorem isAbs_iff {p : Str} : isAbs p = true ↔ p.head? = some '/' := by
  cases p with
  | nil => simp [isAbs, startsWith]
  | cons x xs => simp [isAbs, startsWith]; exact eq_comm

theorem isAbs_false_iff {p : Str} : isAbs p = false ↔ p.head? ≠ some '/' := by
  rw [← Bool.not_eq_true, isAbs_iff]

@[simp] theorem walkStep_nil (l : Loc) : walkStep l [] = l := rfl
@[simp] theorem walkStep_dot (l : Loc) : walkStep l dot = l := rfl
@[simp] theorem walkStep_dotdot (l : Loc) : walkStep l dotdot = l.tail := rfl

@[simp] theorem walk_nil (l : Loc) : walk l [] = l := rfl

theorem walk_abs {p : Str} (h : isAbs p = true) (l l' : Loc) : walk l p = walk l' p := by
  have := isAbs_iff.mp h
  simp [walk, this]

theorem walk_rel {p : Str} (h : isAbs p = false) (l : Loc) :
    walk l p = (splitOn '/' p).foldl walkStep l := by
  have := isAbs_false_iff.mp h
  simp [walk, this]

theorem walk_of_isAbs {p : Str} (h : isAbs p = true) (l : Loc) :
    walk l p = (splitOn '/' p).foldl walkStep [] := by
  have := isAbs_iff.mp h
  simp [walk, this]

theorem endsWith_slash {a : Str} (h : endsWith a ['/'] = true) :
    ∃ a', a = a' ++ ['/'] := by
  unfold endsWith at h
  rw [List.isSuffixOf_iff_suffix] at h
  obtain ⟨t, ht⟩ := h
  exact ⟨t, ht.symm⟩

theorem head?_append_ne {a b : Str} (h : a ≠ []) : (a ++ b).head? = a.head? := by
  cases a with
  | nil => exact absurd rfl h
  | cons x xs => simp

/-- Joining two paths means walking the first and then the second. -/
theorem walk_join (l : Loc) (a b : Str) : walk l (pathJoin a b) = walk (walk l a) b := by
  unfold pathJoin
  by_cases hb : isAbs b = true
  · simp only [hb, if_true]
    exact walk_abs hb _ _
  · have hb' : isAbs b = false := by simpa using hb
    simp only [hb', if_false, Bool.false_eq_true]
    split
    · rename_i h
      by_cases ha : a = []
      · subst ha; simp
      · have h2 : endsWith a ['/'] = true := by
          rcases h with h | h
          · exact absurd h ha
          · exact h
        obtain ⟨a', rfl⟩ := endsWith_slash h2
        rw [walk_rel hb']
        simp only [walk, List.append_assoc, List.singleton_append]
        rw [splitOn_append_sep, splitOn_append_sep]
        have : (a' ++ '/' :: b).head? = (a' ++ ['/']).head? := by
          cases a' <;> simp
        rw [this]
        simp [List.foldl_append, splitOn]
    · rename_i h
      have ha : a ≠ [] := fun e => h (Or.inl e)
      rw [walk_rel hb']
      simp only [walk]
      rw [splitOn_append_sep, head?_append_ne ha]
      simp [List.foldl_append]

theorem walk_component {c : Str} (h : '/' ∉ c) (l : Loc) : walk l c = walkStep l c := by
  have : isAbs c = false := by
    rw [isAbs_false_iff]
    cases c with
    | nil => simp
    | cons x xs =>
      simp at h ⊢
      exact fun e => h.1 e.symm
  rw [walk_rel this, splitOn_noSep h]
  simp

theorem walk_foldl_join (l : Loc) (c : Str) (cs : List Str) :
    walk l (cs.foldl pathJoin c) = cs.foldl walk (walk l c) := by
  induction cs generalizing c with
  | nil => rfl
  | cons d ds ih => simp [ih, walk_join]

theorem walk_joinAll (l : Loc) (cs : List Str) (h : ∀ c ∈ cs, '/' ∉ c) :
    walk l (pathJoinAll cs) = cs.foldl walkStep l := by
  have aux : ∀ (cs : List Str) (l : Loc), (∀ c ∈ cs, '/' ∉ c) →
      cs.foldl walk l = cs.foldl walkStep l := by
    intro cs
    induction cs with
    | nil => intros; rfl
    | cons c cs ih =>
      intro l h
      simp only [List.foldl_cons]
      rw [walk_component (h c (by simp)), ih _ (fun d hd => h d (by simp [hd]))]
  cases cs with
  | nil => rfl
  | cons c cs =>
    simp only [pathJoinAll, List.foldl_cons]
    rw [walk_foldl_join, walk_component (h c (by simp)),
      aux _ _ (fun d hd => h d (by simp [hd]))]

/-- Components that survive normalisation. -/
def Kept (c : Str) : Prop := c ≠ [] ∧ c ≠ dot ∧ '/' ∉ c

theorem normStep_kept {abs : Bool} {acc : List Str} {c : Str}
    (hacc : ∀ x ∈ acc, Kept x) (hc : '/' ∉ c) : ∀ x ∈ normStep abs acc c, Kept x := by
  unfold normStep
  split
  · exact hacc
  · rename_i h
    split
    · intro x hx
      simp at hx
      rcases hx with rfl | hx
      · exact ⟨fun e => h (Or.inl e), fun e => h (Or.inr e), hc⟩
      · exact hacc x hx
    · intro x hx
      exact hacc x (List.mem_of_mem_tail hx)

theorem normStep_walk {abs : Bool} {acc : List Str} {c : Str} {l : Loc}
    (hl : abs = true → l = []) (hacc : ∀ x ∈ acc, Kept x) :
    (normStep abs acc c).reverse.foldl walkStep l =
      walkStep (acc.reverse.foldl walkStep l) c := by
  unfold normStep
  split
  · rename_i h
    rcases h with rfl | rfl <;> simp
  · rename_i h
    split
    · simp [List.foldl_append]
    · rename_i h2
      have hc : c = dotdot := Classical.byContradiction fun e => h2 (Or.inl e)
      subst hc
      cases acc with
      | nil =>
        have : abs = true := by
          cases abs with
          | true => rfl
          | false => exact absurd (Or.inr (Or.inl ⟨rfl, rfl⟩)) h2
        simp [hl this]
      | cons x xs =>
        have hx : x ≠ dotdot := fun e => h2 (Or.inr (Or.inr (by simp [e])))
        obtain ⟨h3, h4, _⟩ := hacc x (by simp)
        simp only [List.tail_cons, List.reverse_cons, List.foldl_append, List.foldl_cons,
          List.foldl_nil, walkStep_dotdot]
        have : ∀ l', walkStep l' x = x :: l' := by
          intro l'
          have h4' : ¬ x = ['.'] := h4
          have hx' : ¬ x = ['.', '.'] := hx
          simp [walkStep, h3, h4', hx']
        rw [this]
        rfl

theorem normFold_walk {abs : Bool} {l : Loc} (hl : abs = true → l = [])
    (cs : List Str) (hcs : ∀ c ∈ cs, '/' ∉ c) (acc : List Str) (hacc : ∀ x ∈ acc, Kept x) :
    (cs.foldl (normStep abs) acc).reverse.foldl walkStep l =
      cs.foldl walkStep (acc.reverse.foldl walkStep l) ∧
    ∀ x ∈ cs.foldl (normStep abs) acc, Kept x := by
  induction cs generalizing acc with
  | nil => exact ⟨rfl, hacc⟩
  | cons c cs ih =>
    simp only [List.foldl_cons]
    have hk := normStep_kept (abs := abs) hacc (hcs c (by simp))
    obtain ⟨h1, h2⟩ := ih (fun d hd => hcs d (by simp [hd])) _ hk
    refine ⟨?_, h2⟩
    rw [h1, normStep_walk hl hacc]

theorem splitOn_replicate_slash (n : Nat) (s : Str) :
    splitOn '/' (List.replicate n '/' ++ s) = List.replicate n [] ++ splitOn '/' s := by
  induction n with
  | zero => simp
  | succ n ih => simp [List.replicate_succ, splitOn, ih]

theorem foldl_walkStep_empties (n : Nat) (l : Loc) :
    (List.replicate n ([] : Str)).foldl walkStep l = l := by
  induction n with
  | zero => rfl
  | succ n ih => simp [List.replicate_succ, ih]

theorem initialSlashes_pos {p : Str} : isAbs p = true ↔ 0 < initialSlashes p := by
  unfold initialSlashes
  constructor
  · intro h
    split
    · omega
    · simp
  · intro h
    split at h
    · rename_i h2
      simp at h2
      have := h2.1
      cases p with
      | nil => simp [startsWith] at this
      | cons x xs => simp [startsWith] at this; simp [isAbs, startsWith]; exact this.1
    · split at h
      · rename_i h3; exact h3
      · omega

theorem head_joinWith_kept {cs : List Str} (h : ∀ x ∈ cs, Kept x) :
    (joinWith ['/'] cs).head? ≠ some '/' := by
  cases cs with
  | nil => simp [joinWith]
  | cons c cs =>
    obtain ⟨h1, _, h3⟩ := h c (by simp)
    have hc : c.head? ≠ some '/' := by
      cases c with
      | nil => simp
      | cons x xs =>
        simp at h3 ⊢
        exact fun e => h3.1 e.symm
    cases cs with
    | nil => simpa [joinWith]
    | cons d ds =>
      simp only [joinWith, List.append_assoc]
      rw [head?_append_ne h1]
      exact hc

theorem joinWith_kept_eq_nil {cs : List Str} (h : ∀ x ∈ cs, Kept x) :
    joinWith ['/'] cs = [] ↔ cs = [] := by
  cases cs with
  | nil => simp [joinWith]
  | cons c cs =>
    obtain ⟨h1, _, _⟩ := h c (by simp)
    cases cs with
    | nil => simp [joinWith, h1]
    | cons d ds => simp [joinWith, h1]

theorem foldl_walk_split_join {cs : List Str} (h : ∀ x ∈ cs, Kept x) (l : Loc) :
    (splitOn '/' (joinWith ['/'] cs)).foldl walkStep l = cs.foldl walkStep l := by
  by_cases hcs : cs = []
  · subst hcs; simp [joinWith, splitOn]
  · rw [splitOn_joinWith hcs (fun w hw => (h w hw).2.2)]

theorem walk_slashes_join {cs : List Str} (h : ∀ x ∈ cs, Kept x) (n : Nat) (l : Loc) :
    walk l (List.replicate n '/' ++ joinWith ['/'] cs) =
      cs.foldl walkStep (if n = 0 then l else []) := by
  cases n with
  | zero =>
    have h1 : isAbs (joinWith ['/'] cs) = false := isAbs_false_iff.mpr (head_joinWith_kept h)
    simp only [List.replicate_zero, List.nil_append, if_true]
    rw [walk_rel h1, foldl_walk_split_join h]
  | succ n =>
    have h1 : isAbs (List.replicate (n+1) '/' ++ joinWith ['/'] cs) = true := by
      rw [isAbs_iff]; simp [List.replicate_succ]
    rw [walk_of_isAbs h1, splitOn_replicate_slash, List.foldl_append, foldl_walkStep_empties,
      foldl_walk_split_join h]
    simp

/-- Normalising a path does not change what it denotes. -/
theorem walk_normpath (l : Loc) (p : Str) : walk l (normpath p) = walk l p := by
  unfold normpath
  split
  · rename_i h; subst h; rfl
  · let l0 : Loc := if isAbs p then [] else l
    have hl0 : isAbs p = true → l0 = [] := fun h => by simp [l0, h]
    obtain ⟨h1, h2⟩ := normFold_walk (abs := isAbs p) (l := l0) hl0 (splitOn '/' p)
      (fun c hc => mem_splitOn hc) [] (by simp)
    have hk : ∀ x ∈ ((splitOn '/' p).foldl (normStep (isAbs p)) []).reverse, Kept x :=
      fun x hx => h2 x (List.mem_reverse.mp hx)
    have hp : walk l p = (splitOn '/' p).foldl walkStep l0 := by
      by_cases ha : isAbs p = true
      · rw [walk_of_isAbs ha]; simp [l0, ha]
      · have ha' : isAbs p = false := by simpa using ha
        rw [walk_rel ha']; simp [l0, ha']
    have hw := walk_slashes_join hk (initialSlashes p) l
    have hl : (if initialSlashes p = 0 then l else []) = l0 := by
      by_cases ha : isAbs p = true
      · have := initialSlashes_pos.mp ha
        simp [l0, ha]; omega
      · have : initialSlashes p = 0 := by
          have : ¬ 0 < initialSlashes p := fun h => ha (initialSlashes_pos.mpr h)
          omega
        simp [l0, ha, this]
    rw [hl, h1] at hw
    simp only [List.reverse_nil, List.foldl_nil] at hw
    rw [hp, ← hw]
    simp only
    split
    · rename_i hq; rw [hq]; rfl
    · rfl

/-! ### Absolute normalised paths -/

theorem normStep_abs_valid {acc : List Str} {c : Str}
    (hacc : ∀ x ∈ acc, validName x) (hc : '/' ∉ c) :
    ∀ x ∈ normStep true acc c, validName x := by
  unfold normStep
  split
  · exact hacc
  · rename_i h
    split
    · rename_i h2
      intro x hx
      simp at hx
      rcases hx with rfl | hx
      · refine ⟨fun e => h (Or.inl e), hc, fun e => h (Or.inr e), ?_⟩
        rcases h2 with h2 | h2 | h2
        · exact h2
        · simp at h2
        · exfalso
          cases acc with
          | nil => simp at h2
          | cons y ys =>
            simp at h2
            exact (hacc y (by simp)).2.2.2 h2
      · exact hacc x hx
    · intro x hx
      exact hacc x (List.mem_of_mem_tail hx)

theorem normFold_abs_valid (cs : List Str) (hcs : ∀ c ∈ cs, '/' ∉ c) (acc : List Str)
    (hacc : ∀ x ∈ acc, validName x) : ∀ x ∈ cs.foldl (normStep true) acc, validName x := by
  induction cs generalizing acc with
  | nil => exact hacc
  | cons c cs ih =>
    exact ih (fun d hd => hcs d (by simp [hd])) _
      (normStep_abs_valid hacc (hcs c (by simp)))

theorem walkStep_valid {c : Str} (h : validName c) (l : Loc) : walkStep l c = c :: l := by
  obtain ⟨h1, _, h3, h4⟩ := h
  simp [walkStep, h1, h3, h4]

theorem foldl_walkStep_valid {cs : List Str} (h : ∀ c ∈ cs, validName c) (l : Loc) :
    cs.foldl walkStep l = cs.reverse ++ l := by
  induction cs generalizing l with
  | nil => rfl
  | cons c cs ih =>
    simp only [List.foldl_cons]
    rw [walkStep_valid (h c (by simp)), ih (fun d hd => h d (by simp [hd]))]
    simp

/-- The normal form of an absolute path: its slashes and the names on the way
from the root. -/
theorem normpath_abs {p : Str} (h : isAbs p = true) (l : Loc) :
    normpath p = List.replicate (initialSlashes p) '/' ++ joinWith ['/'] (walk l p).reverse ∧
    (∀ c ∈ walk l p, validName c) := by
  have hp : p ≠ [] := by
    intro e; subst e; simp [isAbs, startsWith] at h
  have hv := normFold_abs_valid (splitOn '/' p) (fun c hc => mem_splitOn hc) [] (by simp)
  have h1 := (normFold_walk (abs := true) (l := []) (fun _ => rfl) (splitOn '/' p)
      (fun c hc => mem_splitOn hc) [] (by simp)).1
  rw [foldl_walkStep_valid (fun c hc => hv c (List.mem_reverse.mp hc))] at h1
  simp only [List.reverse_reverse, List.append_nil, List.reverse_nil, List.foldl_nil] at h1
  rw [walk_of_isAbs h, ← h1]
  refine ⟨?_, hv⟩
  unfold normpath
  have hs := initialSlashes_pos.mp h
  rw [if_neg hp, h]
  simp only
  rw [if_neg]
  intro e
  have := congrArg List.length e
  simp at this
  omega

theorem kept_of_valid {c : Str} (h : validName c) : Kept c := ⟨h.1, h.2.2.1, h.2.1⟩

theorem walk_cwdStr {cwd : List Str} (h : ∀ c ∈ cwd, validName c) (l : Loc) :
    walk l (cwdStr cwd) = cwd.reverse := by
  have := walk_slashes_join (n := 1) (l := l) (fun x hx => kept_of_valid (h x hx))
  simp only [List.replicate_one, List.singleton_append] at this
  unfold cwdStr
  rw [this, foldl_walkStep_valid h]
  simp

theorem isAbs_join_cwd (cwd : List Str) (p : Str) : isAbs (pathJoin (cwdStr cwd) p) = true := by
  unfold pathJoin
  split
  · rename_i h; exact h
  · split <;> simp [cwdStr, isAbs, startsWith]

theorem walk_abspath {cwd : List Str} (h : ∀ c ∈ cwd, validName c) (p : Str) (l : Loc) :
    walk l (abspath cwd p) = walk cwd.reverse p := by
  unfold abspath
  rw [walk_normpath, walk_join, walk_cwdStr h]

theorem initialSlashes_ne_two {p : Str} (h : startsWith p c!"//" = false) :
    initialSlashes p ≤ 1 := by
  unfold initialSlashes
  rw [h]
  simp
  split <;> omega

theorem initialSlashes_le (p : Str) : initialSlashes p ≤ 2 := by
  unfold initialSlashes
  split
  · omega
  · split <;> omega

/-- Shape of `abspath`. -/
theorem abspath_shape {cwd : List Str} (h : ∀ c ∈ cwd, validName c) (p : Str) :
    ∃ n, 0 < n ∧ (startsWith p c!"//" = false → n = 1) ∧
      abspath cwd p = List.replicate n '/' ++ joinWith ['/'] (walk cwd.reverse p).reverse ∧
      (∀ c ∈ walk cwd.reverse p, validName c) := by
  have habs := isAbs_join_cwd cwd p
  obtain ⟨h1, h2⟩ := normpath_abs habs []
  rw [walk_join, walk_cwdStr h] at h1 h2
  refine ⟨initialSlashes (pathJoin (cwdStr cwd) p), initialSlashes_pos.mp habs, ?_, h1, h2⟩
  intro hp
  have hpos := initialSlashes_pos.mp habs
  have hle : initialSlashes (pathJoin (cwdStr cwd) p) ≤ 1 := by
    apply initialSlashes_ne_two
    by_cases ha : isAbs p = true
    · simpa [pathJoin, ha] using hp
    · have ha' : isAbs p = false := by simpa using ha
      have hnc : cwd = [] → pathJoin (cwdStr cwd) p = '/' :: p := by
        rintro rfl
        simp [pathJoin, ha', cwdStr, joinWith, endsWith]
      cases cwd with
      | nil =>
        rw [hnc rfl]
        have := isAbs_false_iff.mp ha'
        cases p with
        | nil => decide
        | cons y ys =>
          simp at this
          have hy : ¬ '/' = y := fun e => this e.symm
          simp [startsWith, List.isPrefixOf, hy]
      | cons c cs =>
        obtain ⟨hc1, hc2, _, _⟩ := h c (by simp)
        cases c with
        | nil => exact absurd rfl hc1
        | cons x xs =>
          simp at hc2
          have hx : ¬ '/' = x := hc2.1
          have h3 : ∀ r, startsWith ('/' :: x :: r) c!"//" = false := by
            intro r
            simp [startsWith, List.isPrefixOf, hx]
          have hite : ∀ (P : Prop) [Decidable P] (A B : Str), startsWith A c!"//" = false →
              startsWith B c!"//" = false →
              startsWith (if P then A else B) c!"//" = false := by
            intro P _ A B hA hB
            by_cases hP : P <;> simp [hP, hA, hB]
          unfold pathJoin
          rw [ha']
          simp only [Bool.false_eq_true, if_false]
          cases cs with
          | nil => exact hite _ _ _ (h3 _) (h3 _)
          | cons d ds => exact hite _ _ _ (h3 _) (h3 _)
  omega

theorem splitOn_abspath (n : Nat) {cs : List Str} (hv : ∀ c ∈ cs, validName c) :
    splitOn '/' (List.replicate n '/' ++ joinWith ['/'] cs) =
      List.replicate n [] ++ (if cs = [] then [[]] else cs) := by
  rw [splitOn_replicate_slash]
  congr 1
  split
  · rename_i h; subst h; simp [joinWith, splitOn]
  · rename_i h
    exact splitOn_joinWith h (fun w hw => (hv w hw).2.1)

theorem commonPrefix_spec (a b : List Str) :
    ∃ a' b', a = commonPrefix a b ++ a' ∧ b = commonPrefix a b ++ b' ∧
      (a' = [] ∨ b' = [] ∨ a'.head? ≠ b'.head?) := by
  induction a generalizing b with
  | nil => exact ⟨[], b, by simp [commonPrefix], by simp [commonPrefix], Or.inl rfl⟩
  | cons x xs ih =>
    cases b with
    | nil => exact ⟨x :: xs, [], by simp [commonPrefix], by simp [commonPrefix], Or.inr (Or.inl rfl)⟩
    | cons y ys =>
      by_cases h : x = y
      · subst h
        obtain ⟨a', b', h1, h2, h3⟩ := ih ys
        refine ⟨a', b', ?_, ?_, h3⟩
        · simp [commonPrefix]; exact h1
        · simp [commonPrefix]; exact h2
      · exact ⟨x :: xs, y :: ys, by simp [commonPrefix, h], by simp [commonPrefix, h],
          Or.inr (Or.inr (by simp [h]))⟩

theorem foldl_walkStep_ups (n : Nat) (l : Loc) :
    (List.replicate n dotdot).foldl walkStep l = l.drop n := by
  induction n generalizing l with
  | zero => rfl
  | succ n ih =>
    simp only [List.replicate_succ, List.foldl_cons, walkStep_dotdot, ih]
    cases l <;> simp

/-- Split components of an absolute normal path: some empties, then names, or
only empties. -/
structure AbsSplit (s : List Str) (names : List Str) : Prop where
  valid : ∀ c ∈ names, validName c
  shape : ∃ n, 0 < n ∧ s = List.replicate n [] ++ names

theorem absSplit_abspath {cwd : List Str} (h : ∀ c ∈ cwd, validName c) (p : Str) :
    AbsSplit (splitOn '/' (abspath cwd p)) (walk cwd.reverse p).reverse := by
  obtain ⟨n, hn, _, h1, h2⟩ := abspath_shape h p
  have h3 : ∀ c ∈ (walk cwd.reverse p).reverse, validName c :=
    fun c hc => h2 c (List.mem_reverse.mp hc)
  refine ⟨h3, ?_⟩
  rw [h1, splitOn_abspath n h3]
  by_cases hw : (walk cwd.reverse p).reverse = []
  · rw [if_pos hw, hw]
    exact ⟨n + 1, by omega, by
      rw [show ([[]] : List Str) = List.replicate 1 [] from rfl,
        List.replicate_append_replicate]; simp⟩
  · rw [if_neg hw]
    exact ⟨n, hn, rfl⟩

/-- Skipping empty components of a split. -/
def names (s : List Str) : List Str := s.filter (· ≠ [])

theorem names_absSplit {s ns : List Str} (h : AbsSplit s ns) : names s = ns := by
  obtain ⟨hv, n, _, rfl⟩ := h
  unfold names
  rw [List.filter_append]
  have h1 : (List.replicate n ([] : Str)).filter (· ≠ []) = [] := by
    rw [List.filter_eq_nil_iff]
    intro a ha
    simp [List.mem_replicate] at ha
    simp [ha.2]
  have h2 : ns.filter (· ≠ []) = ns := by
    rw [List.filter_eq_self]
    intro a ha
    simp [(hv a ha).1]
  rw [h1, h2]; rfl

theorem foldl_walkStep_names (s : List Str) (l : Loc)
    (h : ∀ c ∈ s, c = [] ∨ validName c) :
    s.foldl walkStep l = (names s).reverse ++ l := by
  induction s generalizing l with
  | nil => rfl
  | cons c cs ih =>
    simp only [List.foldl_cons]
    rw [ih _ (fun d hd => h d (by simp [hd]))]
    rcases h c (by simp) with rfl | hc
    · simp [names]
    · rw [walkStep_valid hc]
      simp [names, hc.1]

theorem absSplit_mem {s ns : List Str} (h : AbsSplit s ns) :
    ∀ c ∈ s, c = [] ∨ validName c := by
  obtain ⟨hv, n, _, rfl⟩ := h
  intro c hc
  simp only [List.mem_append, List.mem_replicate] at hc
  rcases hc with ⟨_, rfl⟩ | hc
  · exact Or.inl rfl
  · exact Or.inr (hv c hc)

theorem names_append (a b : List Str) : names (a ++ b) = names a ++ names b := by
  simp [names]

theorem names_eq_self {s : List Str} (h : [] ∉ s) : names s = s := by
  unfold names
  rw [List.filter_eq_self]
  intro a ha
  simp
  intro e; subst e; exact h ha

theorem nil_mem_suffix {q s : List Str} {n : Nat} {ns : List Str}
    (hv : ∀ c ∈ ns, validName c) (he : q ++ s = List.replicate n [] ++ ns) (h : [] ∈ s) :
    names q = [] := by
  -- the empties come first, so if one is left in the suffix the prefix has only empties
  induction n generalizing q with
  | zero =>
    simp at he
    exact absurd rfl (hv [] (by rw [← he]; simp [h])).1
  | succ n ih =>
    cases q with
    | nil => rfl
    | cons x xs =>
      simp [List.replicate_succ] at he
      obtain ⟨rfl, he⟩ := he
      have := ih he
      simpa [names] using this

/-- `os.path.join` of the relative components. -/
theorem RelativePath_eq (cwd : List Str) (path rel : Str) :
    RelativePath cwd path rel =
      (let ps := splitOn '/' (abspath cwd path)
       let rs := splitOn '/' (abspath cwd rel)
       let k := (commonPrefix ps rs).length
       pathJoinAll (List.replicate (rs.length - k) dotdot ++ ps.drop k)) := by
  unfold RelativePath
  simp only
  split
  · rename_i h
    have h' := List.eq_nil_of_length_eq_zero h
    rw [h']; rfl
  · rfl

theorem walk_RelativePath {cwd : List Str} (h : ∀ c ∈ cwd, validName c) (path rel : Str) :
    walk (walk cwd.reverse rel) (RelativePath cwd path rel) = walk cwd.reverse path := by
  have hP := absSplit_abspath h path
  have hR := absSplit_abspath h rel
  rw [RelativePath_eq]
  simp only
  generalize splitOn '/' (abspath cwd path) = ps at *
  generalize splitOn '/' (abspath cwd rel) = rs at *
  obtain ⟨p', r', h1, h2, _⟩ := commonPrefix_spec ps rs
  generalize hq : commonPrefix ps rs = q at *
  have hpn := names_absSplit hP
  have hrn := names_absSplit hR
  have hdrop : ps.drop q.length = p' := by rw [h1]; simp
  have hlen : rs.length - q.length = r'.length := by rw [h2]; simp
  rw [hdrop, hlen]
  have hmem : ∀ c ∈ p', c = [] ∨ validName c := fun c hc => absSplit_mem hP c (by rw [h1]; simp [hc])
  rw [walk_joinAll]
  · rw [List.foldl_append, foldl_walkStep_ups, foldl_walkStep_names _ _ hmem]
    rw [h1, names_append] at hpn
    rw [h2, names_append] at hrn
    have e1 : walk cwd.reverse path = (names p').reverse ++ (names q).reverse := by
      rw [← List.reverse_append, hpn, List.reverse_reverse]
    have e2 : walk cwd.reverse rel = (names r').reverse ++ (names q).reverse := by
      rw [← List.reverse_append, hrn, List.reverse_reverse]
    rw [e1, e2]
    congr 1
    by_cases hnil : [] ∈ r'
    · obtain ⟨hv, n, _, hs⟩ := hR
      have hq0 : names q = [] := nil_mem_suffix hv (by rw [← h2, hs]) hnil
      rw [hq0]
      simp only [List.reverse_nil, List.append_nil]
      rw [List.drop_eq_nil_iff]
      simp only [List.length_reverse]
      unfold names
      exact List.length_filter_le _ _
    · rw [names_eq_self hnil]
      simp
  · intro c hc
    simp only [List.mem_append, List.mem_replicate] at hc
    rcases hc with ⟨_, rfl⟩ | hc
    · decide
    · rcases hmem c hc with rfl | hc
      · simp
      · exact hc.2.1

theorem isAbs_pathJoin (a b : Str) : isAbs (pathJoin a b) = (isAbs b || (isAbs a)) := by
  unfold pathJoin
  by_cases hb : isAbs b = true
  · simp [hb]
  · have hb' : isAbs b = false := by simpa using hb
    simp only [hb', Bool.false_eq_true, if_false, Bool.false_or]
    split
    · cases a with
      | nil => simp [hb']; decide
      | cons x xs => simp [isAbs, startsWith, List.isPrefixOf]
    · rename_i h
      cases a with
      | nil => simp at h
      | cons x xs => simp [isAbs, startsWith, List.isPrefixOf]

/-- Location of a relative path does not see the slashes: the absolute form of
two paths without a double slash in front is the same text when they denote the
same location. -/
theorem abspath_congr {cwd : List Str} (h : ∀ c ∈ cwd, validName c) {p q : Str}
    (hp : startsWith p c!"//" = false) (hq : startsWith q c!"//" = false)
    (he : walk cwd.reverse p = walk cwd.reverse q) : abspath cwd p = abspath cwd q := by
  obtain ⟨n, _, hn, h1, _⟩ := abspath_shape h p
  obtain ⟨m, _, hm, h2, _⟩ := abspath_shape h q
  rw [h1, h2, hn hp, hm hq, he]

theorem joinAll_eq_joinWith {cs : List Str} (h : ∀ c ∈ cs, c ≠ [] ∧ '/' ∉ c) :
    pathJoinAll cs = joinWith ['/'] cs := by
  have key : ∀ (cs : List Str) (a : Str), a ≠ [] → endsWith a ['/'] = false →
      (∀ c ∈ cs, c ≠ [] ∧ '/' ∉ c) →
      cs.foldl pathJoin a = joinWith ['/'] (a :: cs) := by
    intro cs
    induction cs with
    | nil => intro a _ _ _; simp [joinWith]
    | cons c cs ih =>
      intro a ha hae hc
      obtain ⟨hc1, hc2⟩ := hc c (by simp)
      have hcabs : isAbs c = false := by
        rw [isAbs_false_iff]
        cases c with
        | nil => simp
        | cons x xs =>
          simp at hc2 ⊢
          exact fun e => hc2.1 e.symm
      have e1 : pathJoin a c = a ++ '/' :: c := by
        unfold pathJoin
        rw [hcabs, if_neg (by simp), if_neg]
        rintro (h | h)
        · exact ha h
        · rw [hae] at h; cases h
      simp only [List.foldl_cons, e1]
      rw [ih]
      · cases cs with
        | nil => simp [joinWith]
        | cons d ds => simp [joinWith]
      · simp
      · cases hb : endsWith (a ++ '/' :: c) ['/'] with
        | false => rfl
        | true =>
          obtain ⟨a', ha'⟩ := endsWith_slash hb
          have : (a ++ '/' :: c).getLast? = (a' ++ ['/']).getLast? := by rw [ha']
          simp at this
          cases hl : c.getLast? with
          | none => simp at hl; exact absurd hl hc1
          | some y =>
            have hy := List.mem_of_getLast? hl
            simp [List.getLast?_cons, hl] at this
            rw [this] at hy
            exact absurd hy hc2
      · exact fun d hd => hc d (by simp [hd])
  cases cs with
  | nil => rfl
  | cons c cs =>
    obtain ⟨hc1, hc2⟩ := h c (by simp)
    simp only [pathJoinAll]
    apply key cs c hc1 _ (fun d hd => h d (by simp [hd]))
    cases hb : endsWith c ['/'] with
    | false => rfl
    | true =>
      obtain ⟨a', ha'⟩ := endsWith_slash hb
      rw [ha'] at hc2
      simp at hc2

theorem splitOn_abspath_single {cwd : List Str} (h : ∀ c ∈ cwd, validName c) {p : Str}
    (hp : startsWith p c!"//" = false) (hroot : walk cwd.reverse p ≠ []) :
    splitOn '/' (abspath cwd p) = [] :: (walk cwd.reverse p).reverse := by
  obtain ⟨n, _, hn, h1, h2⟩ := abspath_shape h p
  rw [h1, hn hp, splitOn_abspath 1 (fun c hc => h2 c (List.mem_reverse.mp hc))]
  simp [hroot]

/-- Exact text of the relative path when neither side is the root. -/
theorem RelativePath_text {cwd : List Str} (h : ∀ c ∈ cwd, validName c) {p d : Str}
    (hp : startsWith p c!"//" = false) (hd : startsWith d c!"//" = false)
    (hpr : walk cwd.reverse p ≠ []) (hdr : walk cwd.reverse d ≠ []) :
    ∃ common up down,
      (walk cwd.reverse d).reverse = common ++ up ∧
      (walk cwd.reverse p).reverse = common ++ down ∧
      (up = [] ∨ down = [] ∨ up.head? ≠ down.head?) ∧
      RelativePath cwd p d =
        joinWith ['/'] (List.replicate up.length dotdot ++ down) := by
  rw [RelativePath_eq]
  simp only
  rw [splitOn_abspath_single h hp hpr, splitOn_abspath_single h hd hdr]
  obtain ⟨p', r', h1, h2, h3⟩ := commonPrefix_spec (walk cwd.reverse p).reverse
    (walk cwd.reverse d).reverse
  have hv := (absSplit_abspath h p).valid
  generalize hP : (walk cwd.reverse p).reverse = P at *
  generalize hD : (walk cwd.reverse d).reverse = D at *
  refine ⟨commonPrefix P D, r', p', h2, h1, ?_, ?_⟩
  · rcases h3 with h3 | h3 | h3
    · exact Or.inr (Or.inl h3)
    · exact Or.inl h3
    · exact Or.inr (Or.inr (Ne.symm h3))
  · have hcp : commonPrefix ([] :: P) ([] :: D) = [] :: commonPrefix P D := by
      simp [commonPrefix]
    rw [hcp]
    have e1 : ([] :: D).length - ([] :: commonPrefix P D).length = r'.length := by
      have := congrArg List.length h2
      simp at this ⊢
      omega
    have e2 : ([] :: P).drop ([] :: commonPrefix P D).length = p' := by
      show P.drop (commonPrefix P D).length = p'
      have : (commonPrefix P D ++ p').drop (commonPrefix P D).length = p' := List.drop_left
      rwa [← h1] at this
    rw [e1, e2]
    apply joinAll_eq_joinWith
    intro c hc
    simp only [List.mem_append, List.mem_replicate] at hc
    rcases hc with ⟨_, rfl⟩ | hc
    · decide
    · have := hv c (by rw [h1]; simp [hc])
      exact ⟨this.1, this.2.1⟩

theorem RelativePath_congr {cwd : List Str} {p p' d d' : Str}
    (hp : abspath cwd p = abspath cwd p') (hd : abspath cwd d = abspath cwd d') :
    RelativePath cwd p d = RelativePath cwd p' d' := by
  unfold RelativePath
  rw [hp, hd]

theorem commonPrefix_self (a : List Str) : commonPrefix a a = a := by
  induction a with
  | nil => rfl
  | cons x xs ih => simp [commonPrefix, ih]

theorem RelativePath_same {cwd : List Str} {p d : Str} (h : abspath cwd p = abspath cwd d) :
    RelativePath cwd p d = [] := by
  unfold RelativePath
  rw [h]
  simp [commonPrefix_self]

end Gyp
