import Verif.Props.AnalyzerClaims
import Verif.Proofs.Path
import Verif.Props.Targets
/-
C46: which files make the analyzer call a target changed.
-/
namespace Gyp
open Spec

/-! ### What a relative path does to any location -/

/-- `normpath` keeps a relative path as some `..` and then names. -/
theorem normFold_rel (cs : List Str) (hcs : ∀ c ∈ cs, '/' ∉ c) (v : List Str) (k : Nat)
    (hv : ∀ c ∈ v, validName c) :
    ∃ v' k', (∀ c ∈ v', validName c) ∧
      cs.foldl (normStep false) (v ++ List.replicate k dotdot) = v' ++ List.replicate k' dotdot := by
  induction cs generalizing v k with
  | nil => exact ⟨v, k, hv, rfl⟩
  | cons c cs ih =>
    have hc := hcs c (by simp)
    have hcs' : ∀ c ∈ cs, '/' ∉ c := fun x hx => hcs x (by simp [hx])
    rw [List.foldl_cons]
    unfold normStep
    by_cases h1 : c = [] ∨ c = dot
    · rw [if_pos h1]; exact ih hcs' v k hv
    · rw [if_neg h1]
      rw [not_or] at h1
      by_cases h2 : c = dotdot
      · subst h2
        cases v with
        | nil =>
          have : dotdot ≠ dotdot ∨ (false = false ∧
              ([] : List Str) ++ List.replicate k dotdot = []) ∨
              (([] : List Str) ++ List.replicate k dotdot).head? = some dotdot := by
            cases k with
            | zero => exact Or.inr (Or.inl ⟨rfl, rfl⟩)
            | succ k => exact Or.inr (Or.inr (by simp [List.replicate_succ]))
          rw [if_pos this]
          have h3 : dotdot :: ([] ++ List.replicate k dotdot) =
              [] ++ List.replicate (k + 1) dotdot := by simp [List.replicate_succ]
          rw [h3]
          exact ih hcs' [] (k + 1) (by simp)
        | cons x xs =>
          have hx := hv x (by simp)
          have : ¬ (dotdot ≠ dotdot ∨ (false = false ∧ (x :: xs) ++ List.replicate k dotdot = []) ∨
              ((x :: xs) ++ List.replicate k dotdot).head? = some dotdot) := by
            simp only [ne_eq, not_true, List.cons_append, List.head?_cons, Option.some.injEq,
              false_or, not_or]
            exact ⟨by simp, hx.2.2.2⟩
          rw [if_neg this]
          exact ih hcs' xs k (fun c hc => hv c (by simp [hc]))
      · rw [if_pos (Or.inl h2)]
        have hvc : validName c := ⟨h1.1, hc, h1.2, h2⟩
        exact ih hcs' (c :: v) k (by
          intro y hy
          rcases List.mem_cons.mp hy with rfl | hy
          · exact hvc
          · exact hv y hy)

theorem mem_splitOn_noSep {p : Str} : ∀ c ∈ splitOn '/' p, '/' ∉ c := by
  induction p with
  | nil => simp [splitOn]
  | cons x xs ih =>
    intro c hc
    simp only [splitOn] at hc
    by_cases hx : x = '/'
    · rw [if_pos hx] at hc
      rcases List.mem_cons.mp hc with rfl | hc
      · simp
      · exact ih c hc
    · rw [if_neg hx] at hc
      cases hs : splitOn '/' xs with
      | nil => exact absurd hs splitOn_ne_nil
      | cons w ws =>
        rw [hs] at hc ih
        rcases List.mem_cons.mp hc with rfl | hc
        · have := ih w (by simp)
          simp only [List.mem_cons, not_or]
          exact ⟨Ne.symm hx, this⟩
        · exact ih c (by simp [hc])

/-- A relative path goes up some directories and then down. -/
theorem rel_shape {p : Str} (h : isAbs p = false) :
    ∃ v k, (∀ c ∈ v, validName c) ∧ (∀ l, walk l p = v.reverse ++ l.drop k) ∧
      normpath p = if k = 0 ∧ v = [] then dot
        else joinWith c!"/" (List.replicate k dotdot ++ v) := by
  obtain ⟨v, k, hv, he⟩ := normFold_rel (splitOn '/' p) mem_splitOn_noSep [] 0 (by simp)
  simp only [List.replicate_zero, List.append_nil] at he
  have hw : ∀ l, walk l p = v ++ l.drop k := by
    intro l
    have h1 := (normFold_walk (abs := false) (l := l) (by simp) (splitOn '/' p)
      mem_splitOn_noSep [] (by simp)).1
    rw [walk_rel h]
    simp only [List.reverse_nil, List.foldl_nil] at h1
    rw [← h1, he, List.reverse_append, List.reverse_replicate, List.foldl_append,
      foldl_walkStep_ups, foldl_walkStep_valid (fun c hc => hv c (List.mem_reverse.mp hc)),
      List.reverse_reverse]
  refine ⟨v.reverse, k, fun c hc => hv c (List.mem_reverse.mp hc), by simpa using hw, ?_⟩
  have hrep : (v ++ List.replicate k dotdot).reverse = List.replicate k dotdot ++ v.reverse := by
    simp
  have hsl : initialSlashes p = 0 := by
    have := mt initialSlashes_pos.mpr (by rw [h]; simp)
    omega
  have hkept : ∀ x ∈ List.replicate k dotdot ++ v.reverse, Kept x := by
    intro x hx
    rcases List.mem_append.mp hx with hx | hx
    · rw [(List.mem_replicate.mp hx).2]
      exact ⟨by decide, by decide, by decide⟩
    · exact kept_of_valid (hv x (List.mem_reverse.mp hx))
  unfold normpath
  by_cases hp : p = []
  · subst hp
    have h0 := hw []
    have h1 := hw [c!"a"]
    simp only [walk_nil, List.drop_nil, List.append_nil] at h0
    subst h0
    have hk : k = 0 := by
      cases k with
      | zero => rfl
      | succ k => simp at h1
    simp [hk]
  · rw [if_neg hp]
    simp only [h]
    rw [he, hrep, hsl, List.replicate_zero, List.nil_append]
    by_cases hz : k = 0 ∧ v.reverse = []
    · rw [if_pos hz, hz.1, hz.2]
      simp [joinWith]
    · rw [if_neg hz]
      rw [if_neg]
      rw [joinWith_kept_eq_nil hkept]
      intro e
      apply hz
      rw [List.append_eq_nil_iff] at e
      refine ⟨?_, e.2⟩
      simpa using e.1

/-- A name that differs from all those in the list. -/
theorem exists_new_name (v : List Str) : ∃ w, validName w ∧ w ∉ v := by
  refine ⟨List.replicate (v.flatten.length + 3) 'a', ⟨?_, ?_, ?_, ?_⟩, ?_⟩
  · simp [List.replicate_succ]
  · intro h
    have := (List.mem_replicate.mp h).2
    cases this
  · intro h
    have := congrArg List.length h
    simp at this
  · intro h
    have := congrArg List.length h
    simp at this
  · intro h
    have hle : ∀ (v : List Str) (w : Str), w ∈ v → w.length ≤ v.flatten.length := by
      intro v
      induction v with
      | nil => intro w hw; cases hw
      | cons a v ih =>
        intro w hw
        rw [List.flatten_cons, List.length_append]
        rcases List.mem_cons.mp hw with rfl | hw
        · omega
        · have := ih w hw; omega
    have := hle v _ h
    rw [List.length_replicate] at this
    omega

theorem up_down_unique {v ns : List Str} {k : Nat}
    (h : ∀ l : Loc, v.reverse ++ l.drop k = ns.reverse ++ l) : k = 0 ∧ v = ns := by
  obtain ⟨w, -, hw⟩ := exists_new_name v
  have h1 := h (List.replicate k w)
  have hk : k = 0 := by
    by_contra hk
    simp only [List.drop_replicate, Nat.sub_self, List.replicate_zero, List.append_nil] at h1
    have : w ∈ ns.reverse ++ List.replicate k w := by simp [hk]
    rw [← h1] at this
    exact hw (List.mem_reverse.mp this)
  subst hk
  have h2 := h []
  simp only [List.drop_nil, List.append_nil] at h2
  exact ⟨rfl, by simpa using congrArg List.reverse h2⟩

/-- The normal form of a relative path is the file `ns` iff the path leads, from any
directory, to that file below it. -/
theorem normpath_eq_iff {p : Str} (h : isAbs p = false) {ns : List Str} (hns : ns ≠ [])
    (hv : ∀ c ∈ ns, validName c) :
    normpath p = joinWith c!"/" ns ↔ ∀ l, walk l p = ns.reverse ++ l := by
  constructor
  · intro e l
    rw [← walk_normpath, e]
    have := walk_slashes_join (n := 0) (l := l) (fun x hx => kept_of_valid (hv x hx))
    simp only [List.replicate_zero, List.nil_append, if_true] at this
    rw [this, foldl_walkStep_valid hv]
  · intro e
    obtain ⟨v, k, h1, h2, h3⟩ := rel_shape h
    obtain ⟨rfl, rfl⟩ := up_down_unique (fun l => by rw [← h2, e])
    rw [h3, if_neg (fun c => hns c.2)]
    simp

/-! ### Sources -/

theorem replaceStr_noop (s : Str) (h : ¬ c!"//" <:+: s) : replaceStr c!"//" c!"/" s = s := by
  induction s with
  | nil => rw [replaceStr]
  | cons x xs ih =>
    rw [replaceStr]
    have h1 : ¬ (List.isPrefixOf c!"//" (x :: xs) = true ∧ c!"//" ≠ []) := by
      rintro ⟨h1, -⟩
      exact h (List.isPrefixOf_iff_prefix.mp h1).isInfix
    rw [if_neg h1, ih (fun e => h (e.trans (List.suffix_cons x xs).isInfix))]

/-- Leading `../` are stripped and counted. -/
theorem stripParents_spec (fuel : Nat) (p : Str) :
    ∃ k, (stripParents fuel p).1 = k ∧
      p = (List.replicate k c!"../").flatten ++ (stripParents fuel p).2 := by
  induction fuel generalizing p with
  | zero => exact ⟨0, rfl, by simp [stripParents]⟩
  | succ fuel ih =>
    unfold stripParents
    by_cases h : startsWith p c!"../" = true
    · rw [if_pos h]
      obtain ⟨k, h1, h2⟩ := ih (p.drop 3)
      refine ⟨k + 1, by simp [h1], ?_⟩
      obtain ⟨q, hq⟩ := List.isPrefixOf_iff_prefix.mp h
      have hd : p.drop 3 = q := by rw [← hq]; rfl
      rw [List.replicate_succ, List.flatten_cons, List.append_assoc]
      simp only
      rw [← h2, hd, hq]
    · rw [if_neg h]
      exact ⟨0, rfl, by simp⟩

theorem walk_parents (k : Nat) (r : Str) (hr : isAbs r = false) (l : Loc) :
    walk l ((List.replicate k c!"../").flatten ++ r) = walk (l.drop k) r := by
  induction k generalizing l with
  | zero => simp
  | succ k ih =>
    rw [List.replicate_succ, List.flatten_cons, List.append_assoc]
    have hrel : isAbs ((List.replicate k c!"../").flatten ++ r) = false := by
      cases k with
      | zero => simpa using hr
      | succ k => simp only [List.replicate_succ, List.flatten_cons]; rfl
    have h1 : pathJoin c!".." ((List.replicate k c!"../").flatten ++ r) =
        c!"../" ++ ((List.replicate k c!"../").flatten ++ r) := by
      unfold pathJoin
      rw [hrel]
      rfl
    rw [← h1, walk_join, ih]
    have h2 : walk l c!".." = l.tail := by
      rw [walk_component (by decide)]; rfl
    rw [h2]
    simp

theorem isAbs_join_valid {dirs : List Str} (hv : ∀ c ∈ dirs, validName c) (s : Str)
    (hd : dirs ≠ []) : isAbs (joinWith c!"/" dirs ++ s) = false := by
  rw [isAbs_false_iff]
  have h1 : joinWith c!"/" dirs ≠ [] := by
    rw [ne_eq, joinWith_kept_eq_nil (fun x hx => kept_of_valid (hv x hx))]; exact hd
  rw [head?_append_ne h1]
  exact head_joinWith_kept (fun x hx => kept_of_valid (hv x hx))

theorem not_endsWith_slash_join {dirs : List Str} (hv : ∀ c ∈ dirs, validName c)
    (hd : dirs ≠ []) : endsWith (joinWith c!"/" dirs) c!"/" = false := by
  rw [← Bool.not_eq_true]
  intro h
  obtain ⟨a, ha⟩ := endsWith_slash h
  have h1 : splitOn '/' (joinWith c!"/" dirs) = dirs :=
    splitOn_joinWith hd (fun w hw => (hv w hw).2.1)
  rw [ha, show a ++ ['/'] = a ++ '/' :: [] from rfl, splitOn_append_sep] at h1
  have : [] ∈ dirs := by rw [← h1]; simp [splitOn]
  exact (hv [] this).1 rfl

theorem walk_join_valid {dirs : List Str} (hv : ∀ c ∈ dirs, validName c) (l : Loc) :
    walk l (joinWith c!"/" dirs) = dirs.reverse ++ l := by
  have := walk_slashes_join (n := 0) (l := l) (fun x hx => kept_of_valid (hv x hx))
  simp only [List.replicate_zero, List.nil_append, if_true] at this
  rw [this, foldl_walkStep_valid hv]

/-- Writing a directory, a slash and a relative path. -/
theorem walk_dir_slash {dirs : List Str} (hv : ∀ c ∈ dirs, validName c) (hd : dirs ≠ [])
    {s : Str} (hs : isAbs s = false) (l : Loc) :
    walk l (joinWith c!"/" dirs ++ c!"/" ++ s) = walk (dirs.reverse ++ l) s := by
  have h1 : pathJoin (joinWith c!"/" dirs) s = joinWith c!"/" dirs ++ c!"/" ++ s := by
    unfold pathJoin
    rw [hs, not_endsWith_slash_join hv hd]
    have h2 : joinWith c!"/" dirs ≠ [] := by
      rw [ne_eq, joinWith_kept_eq_nil (fun x hx => kept_of_valid (hv x hx))]; exact hd
    simp [h2]
  rw [← h1, walk_join, walk_join_valid hv]

/-- A source that is looked at: a relative path that is neither empty nor starts with a
variable (`$`) or the marker `!!!`. -/
def Spec.PlainSource (src : Str) : Prop :=
  src ≠ [] ∧ src.head? ≠ some '$' ∧ ¬ c!"!!!" <+: src

/-- Written in directory `dirs` (from the top of the tree), the path means the file `ns` (from the
top of the tree), wherever the tree is. -/
def Spec.Denotes (dirs : List Str) (src : Str) (ns : List Str) : Prop :=
  ∀ l : Loc, walk (dirs.reverse ++ l) src = ns.reverse ++ l

/-- Which files a source is taken for. -/
theorem addSource_spec {dirs : List Str} (hv : ∀ c ∈ dirs, validName c) {src : Str}
    (hr : isAbs src = false) (hdd : ¬ c!"//" <:+: src)
    (htop : dirs = [] → startsWith src c!"../" = false)
    {ns : List Str} (hns : ns ≠ []) (hnv : ∀ c ∈ ns, validName c) :
    (∃ p, addSource (if dirs = [] then [] else joinWith c!"/" dirs ++ c!"/")
        (if dirs = [] then [[]] else dirs) src = some p ∧ normpath p = joinWith c!"/" ns) ↔
      PlainSource src ∧ Denotes dirs src ns := by
  cases src with
  | nil =>
    simp only [addSource]
    constructor
    · rintro ⟨p, h, -⟩; cases h
    · rintro ⟨⟨h, -⟩, -⟩; exact absurd rfl h
  | cons c cs =>
    simp only [addSource]
    have hplain : PlainSource (c :: cs) ↔
        ¬ (startsWith (c :: cs) c!"!!!" = true ∨ startsWith (c :: cs) c!"$" = true) := by
      unfold PlainSource startsWith
      rw [List.isPrefixOf_iff_prefix, List.isPrefixOf_iff_prefix]
      constructor
      · rintro ⟨-, h1, h2⟩ (h | h)
        · exact h2 h
        · obtain ⟨q, hq⟩ := h
          apply h1
          rw [← hq]; rfl
      · intro h
        rw [not_or] at h
        refine ⟨by simp, ?_, h.1⟩
        intro e
        apply h.2
        simp only [List.head?_cons, Option.some.injEq] at e
        subst e
        exact ⟨cs, rfl⟩
    by_cases hp : startsWith (c :: cs) c!"!!!" = true ∨ startsWith (c :: cs) c!"$" = true
    · rw [if_pos hp]
      constructor
      · rintro ⟨p, h, -⟩; cases h
      · rintro ⟨h, -⟩; exact absurd hp (hplain.mp h)
    rw [if_neg hp]
    have hpl := hplain.mpr hp
    have hrep : replaceStr c!"//" c!"/" cs = cs :=
      replaceStr_noop cs (fun e => hdd (e.trans (List.suffix_cons c cs).isInfix))
    rw [hrep]
    by_cases hup : startsWith (c :: cs) c!"../" = true
    · rw [if_pos hup]
      have hd : dirs ≠ [] := fun e => by rw [htop e] at hup; cases hup
      simp only [hd, if_false]
      obtain ⟨k, hk, hsrc⟩ := stripParents_spec (c :: cs).length (c :: cs)
      unfold resolveParent
      simp only [hk]
      generalize (stripParents (c :: cs).length (c :: cs)).2 = r at hsrc ⊢
      -- the rest is relative
      have hrr : isAbs r = false := by
        cases k with
        | zero => rw [hsrc] at hr; simpa using hr
        | succ k =>
          rw [isAbs_false_iff]
          intro e
          apply hdd
          cases r with
          | nil => cases e
          | cons x xs =>
            simp only [List.head?_cons, Option.some.injEq] at e
            subst e
            rw [hsrc, List.replicate_succ', List.flatten_append]
            refine ⟨(List.replicate k c!"../").flatten ++ c!"..", xs, ?_⟩
            simp
      have hden : ∀ l : Loc, walk (dirs.reverse ++ l) (c :: cs) =
          walk ((dirs.reverse ++ l).drop k) r := by
        intro l; rw [hsrc]; exact walk_parents k r hrr _
      by_cases hgt : k > dirs.length
      · rw [if_pos hgt]
        simp only [if_true]
        constructor
        · rintro ⟨p, h, -⟩; cases h
        · rintro ⟨-, hD⟩
          exfalso
          obtain ⟨v, j, -, h2, -⟩ := rel_shape hrr
          have : ∀ l : Loc, v.reverse ++ l.drop (k - dirs.length + j) = ns.reverse ++ l := by
            intro l
            rw [← hD l, hden, h2, List.drop_drop]
            congr 1
            rw [List.drop_append, List.drop_of_length_le (l := dirs.reverse) (by simp; omega)]
            simp only [List.nil_append, List.length_reverse]
            congr 1
            omega
          have := (up_down_unique this).1
          omega
      · rw [if_neg hgt]
        by_cases heq : k = dirs.length
        · rw [if_pos heq]
          have hden' : ∀ l : Loc, walk (dirs.reverse ++ l) (c :: cs) = walk l r := by
            intro l; rw [hden, heq]
            congr 1
            rw [List.drop_left' (by simp)]
          by_cases hre : r = []
          · rw [if_pos hre]
            constructor
            · rintro ⟨p, h, -⟩; cases h
            · rintro ⟨-, hD⟩
              have := hD []
              rw [hden', hre] at this
              simp at this
              exact absurd this hns
          · rw [if_neg hre]
            simp only [Option.some.injEq, exists_eq_left']
            rw [normpath_eq_iff hrr hns hnv]
            constructor
            · intro h; exact ⟨hpl, fun l => by rw [hden']; exact h l⟩
            · rintro ⟨-, h⟩ l; rw [← hden']; exact h l
        · rw [if_neg heq]
          have hlt : k < dirs.length := by omega
          have htk : dirs.take (dirs.length - k) ≠ [] := by
            intro e
            have := congrArg List.length e
            simp at this
            omega
          have htv : ∀ c ∈ dirs.take (dirs.length - k), validName c :=
            fun c hc => hv c (List.mem_of_mem_take hc)
          have hne : joinWith c!"/" (dirs.take (dirs.length - k)) ++ c!"/" ++ r ≠ [] := by simp
          rw [if_neg hne]
          simp only [Option.some.injEq, exists_eq_left']
          have habs : isAbs (joinWith c!"/" (dirs.take (dirs.length - k)) ++ c!"/" ++ r) = false := by
            rw [List.append_assoc]; exact isAbs_join_valid htv _ htk
          rw [normpath_eq_iff habs hns hnv]
          have hden' : ∀ l : Loc, walk (dirs.reverse ++ l) (c :: cs) =
              walk l (joinWith c!"/" (dirs.take (dirs.length - k)) ++ c!"/" ++ r) := by
            intro l
            rw [hden, walk_dir_slash htv htk hrr]
            congr 1
            rw [List.drop_append_of_le_length (by simp; omega), List.drop_reverse]
          constructor
          · intro h; exact ⟨hpl, fun l => by rw [hden']; exact h l⟩
          · rintro ⟨-, h⟩ l; rw [← hden']; exact h l
    · rw [if_neg hup]
      simp only [Option.some.injEq, exists_eq_left']
      by_cases hd : dirs = []
      · subst hd
        simp only [if_true, List.nil_append]
        rw [normpath_eq_iff hr hns hnv]
        exact ⟨fun h => ⟨hpl, h⟩, fun h => h.2⟩
      · simp only [hd, if_false]
        have habs : isAbs (joinWith c!"/" dirs ++ c!"/" ++ (c :: cs)) = false := by
          rw [List.append_assoc]; exact isAbs_join_valid hv _ hd
        rw [normpath_eq_iff habs hns hnv]
        constructor
        · intro h; exact ⟨hpl, fun l => by rw [← walk_dir_slash hv hd hr]; exact h l⟩
        · rintro ⟨-, h⟩ l; rw [walk_dir_slash hv hd hr]; exact h l

/-! ### Changed targets -/

theorem joinWith_snoc {dirs : List Str} (hd : dirs ≠ []) (file : Str) :
    joinWith c!"/" (dirs ++ [file]) = joinWith c!"/" dirs ++ '/' :: file := by
  induction dirs with
  | nil => exact absurd rfl hd
  | cons a ds ih =>
    cases ds with
    | nil => simp [joinWith]
    | cons b ds =>
      have := ih (by simp)
      simp only [List.cons_append, joinWith] at this ⊢
      rw [this]
      simp

theorem dirname_join {dirs : List Str} (hv : ∀ c ∈ dirs, validName c) {b : Str} (hb : '/' ∉ b) :
    dirname (if dirs = [] then b else joinWith c!"/" dirs ++ '/' :: b) = joinWith c!"/" dirs := by
  by_cases hd : dirs = []
  · rw [if_pos hd, hd]
    exact C03_dirname_no_slash _ hb
  · rw [if_neg hd]
    have hne : joinWith c!"/" dirs ≠ [] := by
      rw [ne_eq, joinWith_kept_eq_nil (fun x hx => kept_of_valid (hv x hx))]; exact hd
    have hlast : ∀ x ∈ (joinWith c!"/" dirs).getLast?, x ≠ '/' := by
      intro x hx e
      have := not_endsWith_slash_join hv hd
      rw [← Bool.not_eq_true] at this
      apply this
      subst e
      obtain ⟨a, ha⟩ := List.getLast?_eq_some_iff.mp hx
      unfold endsWith
      rw [List.isSuffixOf_iff_suffix]
      exact ⟨a, ha.symm⟩
    unfold dirname
    rw [rsplit1_append hb]
    simp only
    have hrev : ∃ x r, (joinWith c!"/" dirs).reverse = x :: r ∧ x ≠ '/' := by
      cases h : (joinWith c!"/" dirs).reverse with
      | nil => exact absurd (List.reverse_eq_nil_iff.mp h) hne
      | cons x r =>
        refine ⟨x, r, rfl, hlast x ?_⟩
        rw [List.getLast?_eq_head?_reverse, h]
        rfl
    obtain ⟨x, r, hxr, hx⟩ := hrev
    have hall : ((joinWith c!"/" dirs ++ ['/']).all fun c => decide (c = '/')) = false := by
      rw [List.all_eq_false]
      refine ⟨x, ?_, by simpa using hx⟩
      have : x ∈ (joinWith c!"/" dirs).reverse := by rw [hxr]; simp
      simp only [List.mem_append]
      exact Or.inl (List.mem_reverse.mp this)
    rw [hall]
    simp only [Bool.false_eq_true, if_false, List.reverse_append, List.reverse_cons,
      List.reverse_nil, List.nil_append, List.cons_append, List.dropWhile_cons, decide_true,
      if_true, hxr]
    simp only [hx, decide_false, Bool.false_eq_true, if_false]
    rw [← hxr, List.reverse_reverse]

theorem toLocalPath_rel {top p : Str} (ht : isAbs top = true) (hp : isAbs p = false) :
    toLocalPath top p = p := by
  unfold toLocalPath
  rw [if_neg (fun e => by rw [e, ht] at hp; cases hp), if_neg]
  intro h
  obtain ⟨q, hq⟩ := List.isPrefixOf_iff_prefix.mp h
  cases top with
  | nil => cases ht
  | cons x xs =>
    rw [isAbs_iff] at ht
    rw [isAbs_false_iff] at hp
    apply hp
    rw [← hq]
    simpa using ht

theorem isAbs_normpath_rel {p : Str} (h : isAbs p = false) : isAbs (normpath p) = false := by
  obtain ⟨v, k, hv, -, he⟩ := rel_shape h
  rw [he]
  by_cases hz : k = 0 ∧ v = []
  · rw [if_pos hz]; rfl
  · rw [if_neg hz, isAbs_false_iff]
    apply head_joinWith_kept
    intro x hx
    rcases List.mem_append.mp hx with hx | hx
    · rw [(List.mem_replicate.mp hx).2]; exact ⟨by decide, by decide, by decide⟩
    · exact kept_of_valid (hv x hx)

/-- A changed file, as a list of names from the top of the tree. -/
def Spec.ChangedFile (inp : AInput) (ns : List Str) : Prop :=
  ns ≠ [] ∧ (∀ c ∈ ns, validName c) ∧ joinWith c!"/" ns ∈ inp.files

/-- The files a target lists: its sources and the inputs of its actions and rules. -/
def Spec.sourcesOf (d : TInfo) : List Str := d.sources ++ d.actions.flatten ++ d.rules.flatten

theorem mem_files_iff {inp : AInput}
    (hfiles : ∀ f ∈ inp.files, ∃ ns, ns ≠ [] ∧ (∀ c ∈ ns, validName c) ∧ f = joinWith c!"/" ns)
    (f : Str) : f ∈ inp.files ↔ ∃ ns, ChangedFile inp ns ∧ f = joinWith c!"/" ns := by
  constructor
  · intro h
    obtain ⟨ns, h1, h2, h3⟩ := hfiles f h
    exact ⟨ns, ⟨h1, h2, h3 ▸ h⟩, h3⟩
  · rintro ⟨ns, h1, rfl⟩; exact h1.2.2

/-- C46, a changed target: the target `rest` of the build file `file` in directory `dirs`
(as seen from the top of the tree) contains a changed file iff the build file itself is
changed, or a file it includes is, or one of the files the target lists is -- relative paths
being read from the directory of the build file. -/
theorem C46_changed_file {inp : AInput} {dirs : List Str} {file rest : Str} {d : TInfo}
    {included : List Str} (hv : ∀ c ∈ dirs, validName c) (hf : validName file)
    (hcolon : ':' ∉ rest) (hslash : '/' ∉ rest)
    (hdata : inp.data (joinWith c!"/" (dirs ++ [file])) = some included)
    (htop : isAbs inp.toplevel = true)
    (hfiles : ∀ f ∈ inp.files, ∃ ns, ns ≠ [] ∧ (∀ c ∈ ns, validName c) ∧ f = joinWith c!"/" ns)
    (hinc : ∀ f ∈ included.drop 1, isAbs f = false)
    (hsrc : ∀ s ∈ sourcesOf d, isAbs s = false ∧ ¬ c!"//" <:+: s ∧
      (dirs = [] → startsWith s c!"../" = false)) :
    touched inp (joinWith c!"/" (dirs ++ [file]) ++ c!":" ++ rest) d = .ok true ↔
      ChangedFile inp (dirs ++ [file]) ∨
      (∃ f ∈ included.drop 1, ∃ ns, ChangedFile inp ns ∧ Denotes dirs f ns) ∨
      (∃ s ∈ sourcesOf d, PlainSource s ∧ ∃ ns, ChangedFile inp ns ∧ Denotes dirs s ns) := by
  have hbv : ∀ c ∈ dirs ++ [file], validName c := by
    intro c hc
    rcases List.mem_append.mp hc with hc | hc
    · exact hv c hc
    · rw [List.mem_singleton.mp hc]; exact hf
  have hparse : (ParseQualifiedTarget (joinWith c!"/" (dirs ++ [file]) ++ c!":" ++ rest)).1 =
      some (joinWith c!"/" (dirs ++ [file])) := by
    unfold ParseQualifiedTarget
    rw [List.append_assoc, show c!":" ++ rest = ':' :: rest from rfl, rsplit1_append hcolon]
    simp only
    split <;> rfl
  have hbrel : isAbs (joinWith c!"/" (dirs ++ [file])) = false := by
    have := isAbs_join_valid hbv [] (by simp)
    simpa using this
  have hbf : joinWith c!"/" (dirs ++ [file]) ∈ inp.files ↔ ChangedFile inp (dirs ++ [file]) :=
    ⟨fun h => ⟨by simp, hbv, h⟩, fun h => h.2.2⟩
  have hbdir : dirname (joinWith c!"/" (dirs ++ [file])) = joinWith c!"/" dirs := by
    have := dirname_join hv (b := file) hf.2.1
    by_cases hd : dirs = []
    · rw [if_pos hd] at this; rw [← this, hd]; rfl
    · rw [if_neg hd] at this; rw [joinWith_snoc hd, this]
  -- included files
  have hwas : wasBuildFileModified inp (joinWith c!"/" (dirs ++ [file])) = .ok true ↔
      ChangedFile inp (dirs ++ [file]) ∨
      (∃ f ∈ included.drop 1, ∃ ns, ChangedFile inp ns ∧ Denotes dirs f ns) := by
    unfold wasBuildFileModified
    rw [toLocalPath_rel htop hbrel, hdata]
    by_cases h : joinWith c!"/" (dirs ++ [file]) ∈ inp.files
    · rw [if_pos h]
      simp only [true_iff]
      exact Or.inl (hbf.mp h)
    · rw [if_neg h]
      simp only [Except.ok.injEq, List.any_eq_true, decide_eq_true_eq]
      have hnot : ¬ ChangedFile inp (dirs ++ [file]) := fun e => h (hbf.mpr e)
      simp only [hnot, false_or]
      refine exists_congr fun f => and_congr_right fun hfi => ?_
      have hfr := hinc f hfi
      have hjoin : isAbs (pathJoin (joinWith c!"/" dirs) f) = false := by
        have hp : pathJoin (joinWith c!"/" dirs) f =
            if dirs = [] then f else joinWith c!"/" dirs ++ c!"/" ++ f := by
          unfold pathJoin
          rw [hfr]
          by_cases hd : dirs = []
          · subst hd
            simp [joinWith]
          · have h2 : joinWith c!"/" dirs ≠ [] := by
              rw [ne_eq, joinWith_kept_eq_nil (fun x hx => kept_of_valid (hv x hx))]; exact hd
            rw [not_endsWith_slash_join hv hd]
            simp [h2, hd]
        rw [hp]
        split
        · exact hfr
        · rename_i hd
          rw [List.append_assoc]; exact isAbs_join_valid hv _ hd
      unfold UnrelativePath
      rw [hbdir, toLocalPath_rel htop (isAbs_normpath_rel hjoin), mem_files_iff hfiles]
      refine exists_congr fun ns => and_congr_right fun hns => ?_
      rw [normpath_eq_iff hjoin hns.1 hns.2.1]
      refine forall_congr' fun l => ?_
      rw [walk_join, walk_join_valid hv]
  -- sources
  have htdir : dirname (joinWith c!"/" (dirs ++ [file]) ++ c!":" ++ rest) =
      joinWith c!"/" dirs := by
    have hb : '/' ∉ file ++ c!":" ++ rest := by
      simp only [List.mem_append, List.mem_singleton, not_or]
      exact ⟨⟨hf.2.1, by decide⟩, hslash⟩
    have := dirname_join hv hb
    by_cases hd : dirs = []
    · rw [if_pos hd] at this; rw [← this, hd]; rfl
    · rw [if_neg hd] at this; rw [joinWith_snoc hd]; refine Eq.trans ?_ this; congr 1; simp
  have htrel : isAbs (joinWith c!"/" (dirs ++ [file]) ++ c!":" ++ rest) = false := by
    rw [List.append_assoc]; exact isAbs_join_valid hbv _ (by simp)
  have hmem : ∀ p, p ∈ extractSources (joinWith c!"/" (dirs ++ [file]) ++ c!":" ++ rest) d
      inp.toplevel ↔ ∃ s ∈ sourcesOf d,
        addSource (if dirs = [] then [] else joinWith c!"/" dirs ++ c!"/")
          (if dirs = [] then [[]] else dirs) s = some p := by
    intro p
    unfold extractSources sourcesOf
    simp only
    rw [toLocalPath_rel htop htrel, htdir]
    have e1 : splitOn '/' (joinWith c!"/" dirs) = if dirs = [] then [[]] else dirs := by
      by_cases hd : dirs = []
      · rw [if_pos hd, hd]; rfl
      · rw [if_neg hd]; exact splitOn_joinWith hd (fun w hw => (hv w hw).2.1)
    have e2 : (if joinWith c!"/" dirs = [] then joinWith c!"/" dirs
        else joinWith c!"/" dirs ++ c!"/") =
        if dirs = [] then [] else joinWith c!"/" dirs ++ c!"/" := by
      by_cases hd : dirs = []
      · subst hd; rfl
      · have h2 : joinWith c!"/" dirs ≠ [] := by
          rw [ne_eq, joinWith_kept_eq_nil (fun x hx => kept_of_valid (hv x hx))]; exact hd
        rw [if_neg hd, if_neg h2]
    rw [e1, e2]
    simp only [List.mem_append, List.mem_filterMap, List.mem_flatMap, List.mem_flatten]
    constructor
    · rintro ((⟨s, h1, h2⟩ | ⟨is, h1, s, h2, h3⟩) | ⟨is, h1, s, h2, h3⟩)
      · exact ⟨s, Or.inl (Or.inl h1), h2⟩
      · exact ⟨s, Or.inl (Or.inr ⟨is, h1, h2⟩), h3⟩
      · exact ⟨s, Or.inr ⟨is, h1, h2⟩, h3⟩
    · rintro ⟨s, (h1 | ⟨is, h1, h2⟩) | ⟨is, h1, h2⟩, h3⟩
      · exact Or.inl (Or.inl ⟨s, h1, h3⟩)
      · exact Or.inl (Or.inr ⟨is, h1, s, h2, h3⟩)
      · exact Or.inr ⟨is, h1, s, h2, h3⟩
  have hany : ((extractSources (joinWith c!"/" (dirs ++ [file]) ++ c!":" ++ rest) d
      inp.toplevel).any fun s => decide (normpath s ∈ inp.files)) = true ↔
      ∃ s ∈ sourcesOf d, PlainSource s ∧ ∃ ns, ChangedFile inp ns ∧ Denotes dirs s ns := by
    simp only [List.any_eq_true, decide_eq_true_eq, hmem]
    constructor
    · rintro ⟨p, ⟨s, hs, hp⟩, hpf⟩
      obtain ⟨ns, hns, e⟩ := (mem_files_iff hfiles _).mp hpf
      obtain ⟨h1, h2, h3⟩ := hsrc s hs
      obtain ⟨a, b⟩ := (addSource_spec hv h1 h2 h3 hns.1 hns.2.1).mp ⟨p, hp, e⟩
      exact ⟨s, hs, a, ns, hns, b⟩
    · rintro ⟨s, hs, a, ns, hns, b⟩
      obtain ⟨h1, h2, h3⟩ := hsrc s hs
      obtain ⟨p, hp, e⟩ := (addSource_spec hv h1 h2 h3 hns.1 hns.2.1).mpr ⟨a, b⟩
      exact ⟨p, ⟨s, hs, hp⟩, (mem_files_iff hfiles _).mpr ⟨ns, hns, e⟩⟩
  unfold touched
  rw [hparse]
  simp only
  cases hw : wasBuildFileModified inp (joinWith c!"/" (dirs ++ [file])) with
  | error e =>
    exfalso
    unfold wasBuildFileModified at hw
    rw [hdata] at hw
    by_cases h : toLocalPath inp.toplevel (joinWith c!"/" (dirs ++ [file])) ∈ inp.files
    · rw [if_pos h] at hw; cases hw
    · rw [if_neg h] at hw; cases hw
  | ok b =>
    rw [hw] at hwas
    cases b with
    | true =>
      simp only [true_iff]
      rcases hwas.mp rfl with h | h
      · exact Or.inl h
      · exact Or.inr (Or.inl h)
    | false =>
      have hno := mt hwas.mpr (by simp)
      rw [not_or] at hno
      simp only [Except.ok.injEq, hany, hno.1, hno.2, false_or]

end Gyp
