import Verif.Spec.Release
import Verif.Proofs.Path
import Mathlib.Data.List.TakeWhile
/-
Facts about the URL helpers of `process-release.js`.
-/
namespace Gyp
open Spec

theorem stripSlashes_spec (u : Str) : WithoutSlashes u (stripSlashes u) := by
  refine ⟨⟨(u.reverse.takeWhile (· = '/')).length, ?_⟩, ?_⟩
  · have h := List.takeWhile_append_dropWhile (p := fun c : Char => decide (c = '/')) (l := u.reverse)
    have h1 : u.reverse.takeWhile (fun c : Char => decide (c = '/')) =
        List.replicate (u.reverse.takeWhile (fun c : Char => decide (c = '/'))).length '/' := by
      apply List.eq_replicate_of_mem
      intro c hc
      have := List.all_eq_true.mp (List.all_takeWhile (p := fun c : Char => decide (c = '/')) (l := u.reverse)) c hc
      simpa using this
    rw [h1] at h
    have := congrArg List.reverse h
    simp only [List.reverse_append, List.reverse_replicate, List.reverse_reverse] at this
    exact this.symm
  · unfold stripSlashes
    rw [List.getLast?_reverse]
    intro hh
    have := List.head?_dropWhile_not (fun c : Char => decide (c = '/')) u.reverse
    rw [hh] at this
    simp at this

theorem withoutSlashes_unique {u d : Str} (h : WithoutSlashes u d) : stripSlashes u = d := by
  obtain ⟨⟨n, rfl⟩, h2⟩ := h
  unfold stripSlashes
  simp only [List.reverse_append, List.reverse_replicate]
  have : ∀ n (r : Str), r.head? ≠ some '/' →
      (List.replicate n '/' ++ r).dropWhile (fun c : Char => decide (c = '/')) = r := by
    intro n r hr
    induction n with
    | zero =>
      cases r with
      | nil => rfl
      | cons x xs =>
        have : x ≠ '/' := fun e => hr (by simp [e])
        simp [this]
    | succ n ih => simpa [List.replicate_succ] using ih
  rw [this n d.reverse (by rw [List.head?_reverse]; exact h2), List.reverse_reverse]

theorem urlResolve_dir (x rel : Str) : urlResolve (x ++ c!"/") rel = x ++ c!"/" ++ rel := by
  have : rsplit1 '/' (x ++ '/' :: []) = some (x, []) := rsplit1_append (by simp)
  unfold urlResolve
  rw [this]
  simp

theorem urlResolve_file (x f rel : Str) (hf : '/' ∉ f) :
    urlResolve (x ++ c!"/" ++ f) rel = x ++ c!"/" ++ rel := by
  have : rsplit1 '/' (x ++ '/' :: f) = some (x, f) := rsplit1_append hf
  unfold urlResolve
  rw [show x ++ c!"/" ++ f = x ++ '/' :: f by simp, this]
  simp

/-! ### The search for an architecture directory -/

theorem matchArch_some {archs : List Str} {s rest : Str} (h : matchArch archs s = some rest) :
    ∃ a ∈ archs, s = c!"/win-" ++ a ++ c!"/" ++ rest := by
  unfold matchArch at h
  obtain ⟨a, ha, h⟩ := List.exists_of_findSome?_eq_some h
  by_cases hs : startsWith s (c!"/win-" ++ a ++ c!"/") = true
  · rw [if_pos hs] at h
    refine ⟨a, ha, ?_⟩
    obtain ⟨t, ht⟩ := List.isPrefixOf_iff_prefix.mp hs
    rw [← ht, List.drop_left] at h
    rw [← ht]
    simp at h
    rw [h]
  · rw [if_neg hs] at h
    cases h

theorem matchArch_none {archs : List Str} {s : Str} (h : matchArch archs s = none) (a b : Str)
    (ha : a ∈ archs) : s ≠ c!"/win-" ++ a ++ c!"/" ++ b := by
  intro e
  unfold matchArch at h
  rw [List.findSome?_eq_none_iff] at h
  have := h a ha
  rw [if_pos (by rw [e]; exact List.isPrefixOf_iff_prefix.mpr ⟨b, rfl⟩)] at this
  cases this

theorem searchArch_none {archs : List Str} {s : Str} :
    searchArch archs s = none ↔
      ∀ p x b, x ∈ archs → s ≠ p ++ (c!"/win-" ++ x ++ c!"/" ++ b) := by
  induction s with
  | nil =>
    simp only [searchArch, true_iff]
    intro p x b _ e
    have := congrArg List.length e
    simp at this
  | cons c s ih =>
    simp only [searchArch]
    cases hm : matchArch archs (c :: s) with
    | some rest =>
      obtain ⟨a, ha, e⟩ := matchArch_some hm
      constructor
      · intro h; cases h
      · intro h; exact absurd e (h [] a rest ha)
    | none =>
      constructor
      · intro h p x b hx e
        have h' : searchArch archs s = none := by
          cases hs : searchArch archs s with
          | none => rfl
          | some q => rw [hs] at h; cases h
        cases p with
        | nil => exact matchArch_none hm x b hx e
        | cons d p =>
          simp only [List.cons_append, List.cons.injEq] at e
          exact ih.mp h' p x b hx (by simpa using e.2)
      · intro h
        have : searchArch archs s = none := ih.mpr fun p x b hx e => h (c :: p) x b hx (by rw [e]; rfl)
        rw [this]; rfl

theorem searchArch_some {archs : List Str} {s p b : Str} (h : searchArch archs s = some (p, b)) :
    (∃ x ∈ archs, s = p ++ (c!"/win-" ++ x ++ c!"/" ++ b)) ∧
    ∀ q x r, x ∈ archs → s = q ++ (c!"/win-" ++ x ++ c!"/" ++ r) → p.length ≤ q.length := by
  induction s generalizing p with
  | nil => cases h
  | cons c s ih =>
    simp only [searchArch] at h
    cases hm : matchArch archs (c :: s) with
    | some rest =>
      rw [hm] at h
      cases h
      obtain ⟨a, ha, e⟩ := matchArch_some hm
      exact ⟨⟨a, ha, e⟩, fun _ _ _ _ _ => Nat.zero_le _⟩
    | none =>
      rw [hm] at h
      cases hs : searchArch archs s with
      | none => rw [hs] at h; cases h
      | some q =>
        rw [hs] at h
        obtain ⟨q1, q2⟩ := q
        simp only [Option.map_some, Option.some.injEq, Prod.mk.injEq] at h
        obtain ⟨rfl, rfl⟩ := h
        obtain ⟨⟨x, hx, e⟩, hmin⟩ := ih hs
        refine ⟨⟨x, hx, by rw [e]; rfl⟩, ?_⟩
        intro q x r hx e
        cases q with
        | nil => exact absurd e (matchArch_none hm x r hx)
        | cons d q =>
          simp only [List.cons_append, List.cons.injEq] at e
          simp only [List.length_cons]
          have := hmin q x r hx (by simpa using e.2)
          omega

/-- A URL without a directory named like one for import libraries has no match. -/
theorem searchArch_noArchDir {archs : List Str} (ha : ∀ a ∈ archs, c!"win-" ++ a ∈ archDirs)
    {s : Str} (h : NoArchDir s) : searchArch archs s = none := by
  rw [searchArch_none]
  intro p x b hx e
  have hmem := ha x hx
  apply h (c!"win-" ++ x) _ hmem
  have hno : '/' ∉ c!"win-" ++ x := by
    simp only [archDirs, List.mem_cons, List.not_mem_nil, or_false] at hmem
    rcases hmem with hh | hh | hh | hh <;> rw [hh] <;> decide
  have : s = p ++ '/' :: ((c!"win-" ++ x) ++ '/' :: b) := by rw [e]; simp
  rw [this, splitOn_append_sep, splitOn_append_sep, splitOn_noSep hno]
  simp

/-! ### Relative paths -/

theorem resolvedNames_valid (p : Str) : ∀ c ∈ resolvedNames p, validName c := by
  intro c hc
  unfold resolvedNames at hc
  rw [List.mem_reverse] at hc
  exact normFold_abs_valid _ (fun c hc => mem_splitOn hc) [] (by simp) c hc

theorem resolvedNames_walk {p : Str} (h : isAbs p = true) : walk [] p = (resolvedNames p).reverse := by
  have h1 := (normFold_walk (abs := true) (l := []) (fun _ => rfl) (splitOn '/' p)
    (fun c hc => mem_splitOn hc) [] (by simp)).1
  have h2 := foldl_walkStep_valid (resolvedNames_valid p) []
  rw [List.append_nil] at h2
  rw [← h2, walk_of_isAbs h]
  exact h1.symm

theorem resolvedNames_append (q f : Str) (names : List Str) (hne : names ≠ [])
    (hv : ∀ c ∈ names, validName c) (hf : f = joinWith ['/'] names) :
    resolvedNames (q ++ c!"/" ++ f) = resolvedNames (q ++ c!"/") ++ names := by
  have e1 : splitOn '/' (q ++ c!"/" ++ f) = splitOn '/' q ++ names := by
    rw [show q ++ c!"/" ++ f = q ++ '/' :: f by simp, splitOn_append_sep, hf,
      splitOn_joinWith hne (fun w hw => (hv w hw).2.1)]
  have e2 : splitOn '/' (q ++ c!"/") = splitOn '/' q ++ [[]] := by
    rw [show q ++ c!"/" = q ++ '/' :: [] by simp, splitOn_append_sep]; rfl
  unfold resolvedNames
  rw [e1, e2, List.foldl_append, List.foldl_append]
  have e3 : ∀ (acc : List Str) (ns : List Str), (∀ c ∈ ns, validName c) →
      ns.foldl (normStep true) acc = ns.reverse ++ acc := by
    intro acc ns hns
    induction ns generalizing acc with
    | nil => rfl
    | cons n ns ih =>
      obtain ⟨h1, h2, h3, h4⟩ := hns n (by simp)
      have : normStep true acc n = n :: acc := by
        unfold normStep
        rw [if_neg (by rintro (e | e); exacts [h1 e, h3 e]), if_pos (Or.inl (show n ≠ dotdot from h4))]
      rw [List.foldl_cons, this, ih _ (fun c hc => hns c (by simp [hc]))]
      simp
  rw [e3 _ _ hv]
  simp [normStep]

theorem commonPrefix_self_append (a b : List Str) : commonPrefix a (a ++ b) = a := by
  induction a with
  | nil => simp [commonPrefix]
  | cons x xs ih => simp [commonPrefix, ih]

/-- A file below a directory is named by its path from there. -/
theorem relativeUrlPath_below (q f : Str) (names : List Str) (hne : names ≠ [])
    (hv : ∀ c ∈ names, validName c) (hf : f = joinWith ['/'] names) :
    relativeUrlPath (q ++ c!"/") (q ++ c!"/" ++ f) = f := by
  unfold relativeUrlPath
  rw [resolvedNames_append q f names hne hv hf]
  simp only [commonPrefix_self_append]
  simp [hne, hf]

theorem head_joinWith_valid {parts : List Str} (h : ∀ c ∈ parts, '/' ∉ c ∧ c ≠ []) :
    (joinWith ['/'] parts).head? ≠ some '/' := by
  cases parts with
  | nil => simp [joinWith]
  | cons a t =>
    obtain ⟨h1, h2⟩ := h a (by simp)
    cases a with
    | nil => exact absurd rfl h2
    | cons x xs =>
      have : x ≠ '/' := fun e => h1 (by simp [e])
      cases t <;> simp [joinWith, this]

/-- Following the relative path from the one directory leads to the other. -/
theorem relativeUrlPath_walk {a b : Str} (ha : isAbs a = true) (hb : isAbs b = true) :
    walk (walk [] a) (relativeUrlPath a b) = walk [] b := by
  rw [resolvedNames_walk ha, resolvedNames_walk hb]
  have va := resolvedNames_valid a
  have vb := resolvedNames_valid b
  unfold relativeUrlPath
  generalize resolvedNames a = f at *
  generalize resolvedNames b = t at *
  obtain ⟨f', t', e1, e2, _⟩ := commonPrefix_spec f t
  generalize hcp : commonPrefix f t = cp at *
  have vt' : ∀ c ∈ t', validName c := fun c hc => vb c (by rw [e2]; simp [hc])
  have hd : t.drop cp.length = t' := by rw [e2]; simp
  have hl : f.length - cp.length = f'.length := by rw [e1]; simp
  simp only [hcp, hd, hl]
  have key : (List.replicate f'.length dotdot ++ t').foldl walkStep f.reverse = t.reverse := by
    rw [List.foldl_append, foldl_walkStep_ups, foldl_walkStep_valid vt', e1, e2]
    simp
  by_cases hp : List.replicate f'.length dotdot ++ t' = []
  · rw [if_pos hp]
    rw [hp] at key
    exact key
  · rw [if_neg hp]
    have hsl : ∀ c ∈ List.replicate f'.length dotdot ++ t', '/' ∉ c ∧ c ≠ [] := by
      intro c hc
      rcases List.mem_append.mp hc with hc | hc
      · rw [(List.mem_replicate.mp hc).2]; decide
      · exact ⟨(vt' c hc).2.1, (vt' c hc).1⟩
    unfold walk
    rw [if_neg (head_joinWith_valid hsl), splitOn_joinWith hp (fun w hw => (hsl w hw).1)]
    exact key

/-! ### The path of a URL -/

theorem dropWhile_append_hit {α} (p : α → Bool) (a : List α) (x : α) (b : List α)
    (ha : ∀ y ∈ a, p y = true) (hx : p x = false) : (a ++ x :: b).dropWhile p = x :: b := by
  induction a with
  | nil => simp [hx]
  | cons y ys ih =>
    simp [ha y (by simp), ih (fun z hz => ha z (by simp [hz]))]

theorem urlPath_plain {scheme host p : Str} (hs : ':' ∉ scheme) (hh : '/' ∉ host) :
    urlPath (scheme ++ c!"://" ++ host ++ '/' :: p) = '/' :: p := by
  unfold urlPath
  have e : (scheme ++ c!"://" ++ host ++ '/' :: p).dropWhile (· ≠ ':') =
      ':' :: '/' :: '/' :: (host ++ '/' :: p) := by
    rw [show scheme ++ c!"://" ++ host ++ '/' :: p =
      scheme ++ ':' :: '/' :: '/' :: (host ++ '/' :: p) by simp]
    apply dropWhile_append_hit
    · intro y hy
      simp only [decide_eq_true_eq]
      rintro rfl
      exact hs hy
    · simp
  rw [e]
  have e2 : startsWith (':' :: '/' :: '/' :: (host ++ '/' :: p)) c!"://" = true :=
    List.isPrefixOf_iff_prefix.mpr ⟨host ++ '/' :: p, rfl⟩
  simp only [e2, if_true, List.drop_succ_cons, List.drop_zero]
  have e3 : (host ++ '/' :: p).dropWhile (· ≠ '/') = '/' :: p := by
    apply dropWhile_append_hit
    · intro y hy
      simp only [decide_eq_true_eq]
      rintro rfl
      exact hh hy
    · simp
  rw [e3]
  simp

/-- Below a URL directory the paths grow as the URLs do. -/
theorem urlPath_below {d : Str} (h : PlainUrl d) :
    ∃ q, ∀ r, urlPath (d ++ '/' :: r) = q ++ '/' :: r ∧ isAbs (q ++ '/' :: r) = true := by
  obtain ⟨scheme, host, rest, rfl, hs, hh, hr⟩ := h
  rcases hr with rfl | ⟨p, rfl⟩
  · refine ⟨[], fun r => ⟨?_, rfl⟩⟩
    rw [List.append_nil]
    exact urlPath_plain hs hh
  · refine ⟨'/' :: p, fun r => ⟨?_, rfl⟩⟩
    rw [show scheme ++ c!"://" ++ host ++ '/' :: p ++ '/' :: r =
      scheme ++ c!"://" ++ host ++ '/' :: (p ++ '/' :: r) by simp, urlPath_plain hs hh]
    rfl

theorem urlPath_isAbs (u : Str) : isAbs (urlPath u) = true := by
  unfold urlPath
  simp only
  generalize (if startsWith (u.dropWhile (· ≠ ':')) c!"://" = true then (u.dropWhile (· ≠ ':')).drop 3 else u) = r
  by_cases hp : r.dropWhile (· ≠ '/') = []
  · rw [if_pos hp]; rfl
  · rw [if_neg hp]
    have := List.head?_dropWhile_not (fun c : Char => decide (c ≠ '/')) r
    cases hd : r.dropWhile (· ≠ '/') with
    | nil => exact absurd hd hp
    | cons x xs =>
      rw [hd] at this
      simp at this
      subst this
      rfl

end Gyp
