import Verif.Proofs.MergeLists
/-
C20 (append), C21 (prepend), C23 (paths follow their build file).
-/
namespace Gyp
open Spec

/-! ### C23 -/

/-- C23: an item that is not one of the exceptions denotes, as seen from the directory
of the receiving build file, the file it denoted as seen from the directory of the file
it was written in.  (Backslashes are rewritten to slashes by the code, so names
containing one are excluded; see `C23_backslash`.) -/
theorem C23_path_follows (c : MergeCtx) (hc : ∀ x ∈ c.cwd, validName x) (item : Str)
    (hi : '\\' ∉ item) (hf : '\\' ∉ c.froFile) (hcwd : ∀ x ∈ c.cwd, '\\' ∉ x)
    (hex : exceptionMatch item = false) :
    let here := c.cwd.reverse
    walk (walk here (dirname c.toFile)) (MakePathRelative c item) =
      walk (walk here (dirname c.froFile)) item := by
  intro here
  unfold MakePathRelative
  by_cases hs : c.toFile = c.froFile
  · rw [if_pos (Or.inl hs), hs]
  · rw [if_neg (by simp [hs, hex])]
    have hno : '\\' ∉ normpath
        (pathJoin (RelativePath c.cwd (dirname c.froFile) (dirname c.toFile)) item) := by
      intro h
      rcases mem_normpath h with h | h | h
      · rcases mem_pathJoin h with h | h | h
        · rcases mem_RelativePath h with h | h | h | ⟨x, hx, h⟩
          · exact hf (mem_dirname h)
          · exact absurd h (by decide)
          · exact absurd h (by decide)
          · exact hcwd x hx h
        · exact hi h
        · exact absurd h (by decide)
      · exact absurd h (by decide)
      · exact absurd h (by decide)
    simp only [replaceChar_of_notMem hno]
    have key : walk (walk here (dirname c.toFile)) (normpath
        (pathJoin (RelativePath c.cwd (dirname c.froFile) (dirname c.toFile)) item)) =
        walk (walk here (dirname c.froFile)) item := by
      rw [walk_normpath, walk_join, walk_RelativePath hc]
    split
    · rw [← key]
      generalize hn : normpath
        (pathJoin (RelativePath c.cwd (dirname c.froFile) (dirname c.toFile)) item) = n
      have hne : n ≠ [] := hn ▸ normpath_ne_nil _
      generalize walk here (dirname c.toFile) = l
      unfold walk
      rw [head?_append_ne hne, splitOn_append_sep]
      simp [splitOn, List.foldl_append]
    · exact key

example : MakePathRelative ⟨[c!"r"], [], c!"out/x.gyp", c!"lib/y.gyp"⟩ c!"src/../a.c" =
    c!"../lib/a.c" := by decide
example : exceptionMatch c!"src/../a.c" = false := by decide

/-- C23: absolute paths, flags, variable references and quoted forms of these are not
touched, and nothing is when both files are the same. -/
theorem C23_unchanged (c : MergeCtx) (item : Str)
    (h : c.toFile = c.froFile ∨
      ∃ q x rest, item = q ++ x :: rest ∧ (q = [] ∨ q = c!"\"" ∨ q = c!"'") ∧
        x ∈ c!"-/$<>^") :
    MakePathRelative c item = item := by
  unfold MakePathRelative
  rw [if_pos]
  rcases h with h | ⟨q, x, rest, rfl, hq, hx⟩
  · exact Or.inl h
  · right
    have hx' : isExceptionChar x = true := by
      unfold isExceptionChar
      simp only [List.mem_cons, List.not_mem_nil, or_false] at hx
      simpa using hx
    rcases hq with rfl | rfl | rfl
    · unfold exceptionMatch
      simp only [List.nil_append]
      rw [if_neg]
      · exact hx'
      · rintro (rfl | rfl) <;> simp [isExceptionChar] at hx'
    · simpa [exceptionMatch] using hx'
    · simpa [exceptionMatch] using hx'

example : MakePathRelative ⟨[], [], c!"a/x.gyp", c!"b/y.gyp"⟩ c!"'$(DIR)/x" = c!"'$(DIR)/x" :=
  C23_unchanged _ _ (Or.inr ⟨c!"'", '$', _, rfl, by simp, by decide⟩)

/-- C23: an item written with a trailing slash keeps it. -/
theorem C23_trailing_slash (c : MergeCtx) (item : Str) (h : endsWith item c!"/" = true) :
    endsWith (MakePathRelative c item) c!"/" = true := by
  unfold MakePathRelative
  split
  · exact h
  · simp only [h, if_true]
    unfold endsWith
    rw [List.isSuffixOf_iff_suffix]
    exact ⟨_, rfl⟩

/-- C23: moving settings through several build files equals moving them directly, as
far as the file denoted is concerned. -/
theorem C23_transitive (cwd : List Str) (ps : List Str) (f1 f2 f3 item : Str)
    (hc : ∀ x ∈ cwd, validName x) (hcwd : ∀ x ∈ cwd, '\\' ∉ x)
    (h1 : '\\' ∉ f1) (h2 : '\\' ∉ f2) (hi : '\\' ∉ item)
    (hi2 : '\\' ∉ MakePathRelative ⟨cwd, ps, f2, f1⟩ item)
    (he : exceptionMatch item = false)
    (he2 : exceptionMatch (MakePathRelative ⟨cwd, ps, f2, f1⟩ item) = false) :
    walk (walk cwd.reverse (dirname f3))
        (MakePathRelative ⟨cwd, ps, f3, f2⟩ (MakePathRelative ⟨cwd, ps, f2, f1⟩ item)) =
      walk (walk cwd.reverse (dirname f3)) (MakePathRelative ⟨cwd, ps, f3, f1⟩ item) := by
  rw [C23_path_follows ⟨cwd, ps, f3, f2⟩ hc _ hi2 h2 hcwd he2,
    C23_path_follows ⟨cwd, ps, f2, f1⟩ hc item hi h1 hcwd he,
    C23_path_follows ⟨cwd, ps, f3, f1⟩ hc item hi h1 hcwd he]

/-- C23, the exception: on POSIX a backslash is an ordinary file name character, the code
turns it into a separator. -/
theorem C23_backslash :
    MakePathRelative ⟨[], [], c!"a/x.gyp", c!"b/y.gyp"⟩ c!"o\\d" = c!"../b/o/d" := by decide

/-! ### C20 -/

/-- What an item of the new list becomes, and whether it may appear only once. -/
inductive Converted (c : MergeCtx) (isPaths : Bool) : Val → Val × Bool → Prop where
  /-- a flag is never changed and may be repeated -/
  | flag (s : Str) (h : startsWith s c!"-" = true) : Converted c isPaths (.str s) (.str s, false)
  /-- other text appears once; in a list of paths it is made relative to the new file -/
  | text (s : Str) (h : startsWith s c!"-" = false) :
      Converted c isPaths (.str s) (.str (if isPaths then MakePathRelative c s else s), true)
  | int (i : Int) : Converted c isPaths (.int i) (.int i, true)
  /-- a dictionary is copied by merging it into an empty one -/
  | dict (d d' : Dict) (h : MergeDicts c [] d = .ok d') :
      Converted c isPaths (.dict d) (.dict d', false)
  /-- a list is copied by appending it to an empty one -/
  | list (l l' : List Val) (h : MergeLists c [] l false true = .ok l') :
      Converted c isPaths (.list l) (.list l', false)

theorem mergeItem_converted {c : MergeCtx} {isPaths : Bool} {v : Val} {it : Val × Bool}
    (h : mergeItem c isPaths v = .ok it) : Converted c isPaths v it := by
  cases v with
  | str s =>
    unfold mergeItem at h
    cases h
    cases hs : startsWith s ['-'] with
    | true =>
      have : MakePathRelative c s = s := by
        apply C23_unchanged
        right
        unfold startsWith at hs
        rw [List.isPrefixOf_iff_prefix] at hs
        obtain ⟨rest, rfl⟩ := hs
        exact ⟨[], '-', rest, rfl, Or.inl rfl, by decide⟩
      rw [this]
      simpa using Converted.flag (c := c) (isPaths := isPaths) s hs
    | false => exact Converted.text s hs
  | int i =>
    unfold mergeItem at h
    split at h
    · cases h
    · cases h; exact .int i
  | dict d =>
    unfold mergeItem at h
    split at h
    · rename_i d' hd
      cases h
      exact .dict d d' hd
    · cases h
  | list l =>
    unfold mergeItem at h
    split at h
    · rename_i st hl
      cases h
      refine .list l st.tgt ?_
      unfold MergeLists
      rw [hl]; rfl
    · cases h
  | other => unfold mergeItem at h; cases h

open Classical in
/-- The items an append adds: all in order, except that an item that may appear only
once is left out when it is in the old list or earlier in the new one. -/
noncomputable def newItems (old : List Val) (items : List (Val × Bool)) : List Val :=
  (items.zipIdx.filter fun e => e.1.2 = false ∨
    (e.1.1 ∉ old ∧ e.1.1 ∉ (items.take e.2).map Prod.fst)).map fun e => e.1.1

theorem newItems_snoc (old : List Val) (items : List (Val × Bool)) (it : Val × Bool) :
    newItems old (items ++ [it]) = newItems old items ++
      open Classical in
      (if it.2 = false ∨ (it.1 ∉ old ∧ it.1 ∉ items.map Prod.fst) then [it.1] else []) := by
  classical
  unfold newItems
  rw [List.zipIdx_append, List.filter_append, List.map_append]
  congr 1
  · congr 1
    apply List.filter_congr
    rintro ⟨x, i⟩ hx
    have : i < items.length := by
      have := List.mem_zipIdx hx
      omega
    simp only [List.take_append_of_le_length (Nat.le_of_lt this)]
  · simp only [List.zipIdx_cons, List.zipIdx_nil, Nat.zero_add, List.filter_cons, List.filter_nil,
      List.take_left]
    split
    · rename_i h
      rw [if_pos (by simpa using h)]; rfl
    · rename_i h
      rw [if_neg (by simpa using h)]; rfl

theorem append_fold (old : List Val) (items : List (Val × Bool))
    (h : ∀ it ∈ items, it.2 = true → it.1.isScalar = true) :
    let st := items.foldl (fun st it => addItem true it.2 it.1 st) (MLState.start old)
    st.tgt = old ++ newItems old items ∧
    (∀ x, x ∈ st.seen ↔ x.isScalar = true ∧ (x ∈ old ∨ x ∈ items.map Prod.fst)) := by
  induction items using List.reverseRecOn with
  | nil => simp [MLState.start, newItems, and_comm]
  | append_singleton items it ih =>
    obtain ⟨h1, h2⟩ := ih fun x hx => h x (by simp [hx])
    rw [List.foldl_append, newItems_snoc]
    simp only [List.foldl_cons, List.foldl_nil]
    generalize items.foldl (fun st it => addItem true it.2 it.1 st) (MLState.start old) = st at h1 h2
    obtain ⟨x, once⟩ := it
    have hx : once = true → x.isScalar = true := fun e => h (x, once) (by simp) e
    simp only at *
    unfold addItem
    simp only [if_true]
    by_cases hadd : once = false ∨ (x ∉ old ∧ x ∉ items.map Prod.fst)
    · have hb : (!once || !x.inList st.seen) = true := by
        rcases hadd with rfl | hadd
        · rfl
        · cases once with
          | false => rfl
          | true =>
            have : ¬ (x.inList st.seen = true) := by
              rw [Val.inList_iff (hx rfl), h2]
              tauto
            simpa using this
      rw [if_pos hb, if_pos hadd]
      refine ⟨by rw [h1]; simp, fun y => ?_⟩
      simp only [List.map_append, List.map_cons, List.map_nil, List.mem_append, List.mem_singleton]
      by_cases hs : x.isScalar = true
      · rw [if_pos hs, List.mem_cons, h2]
        constructor
        · rintro (rfl | ⟨h3, h4⟩)
          · exact ⟨hs, Or.inr (Or.inr rfl)⟩
          · exact ⟨h3, h4.elim Or.inl (fun h => Or.inr (Or.inl h))⟩
        · rintro ⟨h3, h4 | h4 | h4⟩
          · exact Or.inr ⟨h3, Or.inl h4⟩
          · exact Or.inr ⟨h3, Or.inr h4⟩
          · exact Or.inl h4
      · rw [if_neg hs, h2]
        constructor
        · rintro ⟨h3, h4⟩
          exact ⟨h3, h4.elim Or.inl (fun h => Or.inr (Or.inl h))⟩
        · rintro ⟨h3, h4 | h4 | rfl⟩
          · exact ⟨h3, Or.inl h4⟩
          · exact ⟨h3, Or.inr h4⟩
          · exact absurd h3 hs
    · have honce : once = true := by
        cases once
        · exact absurd (Or.inl rfl) hadd
        · rfl
      have hin : x ∈ old ∨ x ∈ items.map Prod.fst := by
        by_contra hno
        exact hadd (Or.inr (not_or.mp hno))
      have hb : ¬ (!once || !x.inList st.seen) = true := by
        have : x.inList st.seen = true := (Val.inList_iff (hx honce) _).mpr ((h2 x).mpr ⟨hx honce, hin⟩)
        simp [honce, this]
      rw [if_neg hb, if_neg hadd]
      refine ⟨by simp [h1], fun y => ?_⟩
      rw [h2]
      simp only [List.map_append, List.map_cons, List.map_nil, List.mem_append, List.mem_singleton]
      constructor
      · rintro ⟨h3, h4⟩
        exact ⟨h3, h4.elim Or.inl (fun h => Or.inr (Or.inl h))⟩
      · rintro ⟨h3, h4 | h4 | rfl⟩
        · exact ⟨h3, Or.inl h4⟩
        · exact ⟨h3, Or.inr h4⟩
        · exact ⟨h3, hin⟩

/-- C20: appending leaves the old list in front, untouched, and adds behind it the
converted new items in order, leaving out exactly the singletons already there. -/
theorem C20_append (c : MergeCtx) (old fro : List Val) (isPaths : Bool) (r : List Val)
    (h : MergeLists c old fro isPaths true = .ok r) :
    ∃ items, List.Forall₂ (Converted c isPaths) fro items ∧ r = old ++ newItems old items := by
  unfold MergeLists at h
  cases hl : mergeListLoop c isPaths true fro (MLState.start old) with
  | error e => rw [hl] at h; cases h
  | ok st =>
    rw [hl] at h
    cases h
    obtain ⟨items, h1, rfl⟩ := (mergeListLoop_iff ..).mp hl
    refine ⟨items, h1.imp fun _ _ => mergeItem_converted, (append_fold old items ?_).1⟩
    intro it hit honce
    obtain ⟨i, hi, rfl⟩ := List.getElem_of_mem hit
    have := h1.get (by rw [h1.length_eq]; exact hi) hi
    apply mergeItem_once (c := c) (isPaths := isPaths)
    have e : items[i] = (items[i].1, true) := by rw [← honce]
    rw [← e]
    exact this

theorem mergeListLoop_strs (c : MergeCtx) (append : Bool) (fro : List Str) (st : MLState) :
    mergeListLoop c false append (fro.map .str) st =
      .ok ((fro.map fun s => (Val.str s, !startsWith s ['-'])).foldl
        (fun st it => addItem append it.2 it.1 st) st) := by
  rw [mergeListLoop_iff]
  refine ⟨_, ?_, rfl⟩
  induction fro with
  | nil => exact .nil
  | cons s fro ih =>
    refine .cons ?_ ih
    unfold mergeItem
    rfl

theorem newItems_sub (old : List Val) (items : List (Val × Bool)) :
    (newItems old items).Sublist (items.map Prod.fst) := by
  classical
  unfold newItems
  have h1 : (items.zipIdx.map fun e => e.1.1) = items.map Prod.fst := by
    have : (fun e : (Val × Bool) × Nat => e.1.1) = Prod.fst ∘ Prod.fst := rfl
    rw [this, ← List.map_map, List.zipIdx_map_fst]
  rw [← h1]
  exact List.filter_sublist.map _

open Classical in
/-- C20, for lists of strings in a section that holds no paths: appending always works
and adds a sublist of the new strings; every new string is present afterwards; flags
are all added; any other string is added at most once and only if it was not there. -/
theorem C20_strings (c : MergeCtx) (old : List Val) (fro : List Str) :
    ∃ added : List Str, MergeLists c old (fro.map .str) false true = .ok (old ++ added.map .str) ∧
      added.Sublist fro ∧
      (∀ s ∈ fro, .str s ∈ old ∨ s ∈ added) ∧
      (∀ s, startsWith s c!"-" = true → added.count s = fro.count s) ∧
      (∀ s, startsWith s c!"-" = false → added.count s ≤ 1 ∧ (s ∈ added → .str s ∉ old)) := by
  suffices H : ∃ added : List Str, newItems old (fro.map fun s => (Val.str s, !startsWith s ['-'])) =
      added.map .str ∧ added.Sublist fro ∧
      (∀ s ∈ fro, .str s ∈ old ∨ s ∈ added) ∧
      (∀ s, startsWith s c!"-" = true → added.count s = fro.count s) ∧
      (∀ s, startsWith s c!"-" = false → added.count s ≤ 1 ∧ (s ∈ added → .str s ∉ old)) by
    obtain ⟨added, h1, h2⟩ := H
    refine ⟨added, ?_, h2⟩
    unfold MergeLists
    rw [mergeListLoop_strs, ← h1]
    have := (append_fold old (fro.map fun s => (Val.str s, !startsWith s ['-'])) (by
      intro it hit _
      obtain ⟨s, -, rfl⟩ := List.mem_map.mp hit
      rfl)).1
    simp only [Except.map]
    rw [this]
  induction fro using List.reverseRecOn with
  | nil => exact ⟨[], by simp [newItems], by simp⟩
  | append_singleton fro s ih =>
    obtain ⟨added, h1, h2, h3, h4, h5⟩ := ih
    rw [List.map_append, List.map_singleton, newItems_snoc, h1]
    have hmem : Val.str s ∈ (fro.map fun s => (Val.str s, !startsWith s ['-'])).map Prod.fst ↔
        s ∈ fro := by simp
    have hcount : ∀ (l : List Str) (t : Str), (l ++ [s]).count t =
        l.count t + if s = t then 1 else 0 := by
      intro l t
      rw [List.count_append, List.count_singleton]
      by_cases h : s = t <;> simp [h]
    by_cases hadd : (!startsWith s ['-']) = false ∨
        (Val.str s ∉ old ∧ Val.str s ∉ (fro.map fun s => (Val.str s, !startsWith s ['-'])).map Prod.fst)
    · rw [if_pos hadd]
      refine ⟨added ++ [s], by simp, h2.append (.refl _), ?_, ?_, ?_⟩
      · intro t ht
        rcases List.mem_append.mp ht with ht | ht
        · exact (h3 t ht).imp id fun h => by simp [h]
        · right; rw [List.mem_singleton] at ht; simp [ht]
      · intro t ht
        rw [hcount, hcount, h4 t ht]
      · intro t ht
        rw [hcount]
        by_cases hst : s = t
        · subst hst
          have hadd' := hadd.resolve_left (by simp [ht])
          rw [hmem] at hadd'
          have : s ∉ added := fun h => hadd'.2 (h2.subset h)
          rw [List.count_eq_zero.mpr this]
          simp only [if_true, Nat.zero_add]
          exact ⟨Nat.le_refl 1, fun _ => hadd'.1⟩
        · rw [if_neg hst]
          refine ⟨(h5 t ht).1, fun h => (h5 t ht).2 ?_⟩
          rcases List.mem_append.mp h with h | h
          · exact h
          · exact absurd (List.mem_singleton.mp h).symm hst
    · rw [if_neg hadd]
      have hne : startsWith s ['-'] = false := by
        cases h : startsWith s ['-']
        · rfl
        · exact absurd (Or.inl (by simp [h])) hadd
      have hin : Val.str s ∈ old ∨ s ∈ fro := by
        rw [← hmem]
        by_contra hno
        exact hadd (Or.inr (not_or.mp hno))
      refine ⟨added, by simp, h2.trans (List.sublist_append_left _ _), ?_, ?_, h5⟩
      · intro t ht
        rcases List.mem_append.mp ht with ht | ht
        · exact h3 t ht
        · rw [List.mem_singleton.mp ht]
          rcases hin with h | h
          · exact Or.inl h
          · exact h3 s h
      · intro t ht
        rw [hcount, h4 t ht, if_neg, Nat.add_zero]
        rintro rfl
        rw [hne] at ht; cases ht

example : MergeLists ⟨[], [], c!"a", c!"b"⟩ [.str c!"x"]
    ([c!"y", c!"-O", c!"x", c!"y", c!"-O"].map .str) false true =
    .ok [.str c!"x", .str c!"y", .str c!"-O", .str c!"-O"] := rfl

/-! ### C21 -/

/-- Each item that may appear only once is different from all other items. -/
def DistinctSingles : List (Val × Bool) → Prop
  | [] => True
  | it :: rest => (∀ it' ∈ rest, it.2 = true ∨ it'.2 = true → it.1 ≠ it'.1) ∧ DistinctSingles rest

theorem DistinctSingles.snoc {items : List (Val × Bool)} {it : Val × Bool}
    (h : DistinctSingles (items ++ [it])) :
    DistinctSingles items ∧ (it.2 = true → it.1 ∉ items.map Prod.fst) := by
  induction items with
  | nil => simp [DistinctSingles]
  | cons a items ih =>
    simp only [List.cons_append, DistinctSingles] at h ⊢
    obtain ⟨h1, h2⟩ := h
    obtain ⟨h3, h4⟩ := ih h2
    refine ⟨⟨fun x hx => h1 x (by simp [hx]), h3⟩, fun e hm => ?_⟩
    rw [List.map_cons, List.mem_cons] at hm
    rcases hm with hm | hm
    · exact h1 it (by simp) (Or.inr e) hm.symm
    · exact h4 e hm

open Classical in
theorem prepend_fold (old : List Val) (items : List (Val × Bool))
    (hs : ∀ it ∈ items, it.2 = true → it.1.isScalar = true) (hd : DistinctSingles items) :
    let st := items.foldl (fun st it => addItem false it.2 it.1 st) (MLState.start old)
    st.tgt = items.map Prod.fst ++ old.filter (fun y => (y, true) ∉ items) ∧
    st.index = items.length := by
  induction items using List.reverseRecOn with
  | nil => simp [MLState.start]
  | append_singleton items it ih =>
    obtain ⟨hd1, hd2⟩ := hd.snoc
    obtain ⟨h1, h2⟩ := ih (fun x hx => hs x (by simp [hx])) hd1
    rw [List.foldl_append]
    simp only [List.foldl_cons, List.foldl_nil]
    generalize items.foldl (fun st it => addItem false it.2 it.1 st) (MLState.start old) = st at h1 h2
    obtain ⟨x, once⟩ := it
    simp only at *
    unfold addItem
    simp only [Bool.false_eq_true, if_false, h2, List.length_append, List.length_singleton, and_true]
    have hlen : (items.map Prod.fst).length = items.length := List.length_map _
    cases once with
    | false =>
      simp only [Bool.false_eq_true, if_false, h1]
      rw [← hlen, List.take_left, List.drop_left]
      simp only [List.map_append, List.map_cons, List.map_nil, List.append_assoc, List.singleton_append]
      congr 2
      apply List.filter_congr
      intro y _
      simp
    | true =>
      have hxs := hs (x, true) (by simp) rfl
      have hfilt : ∀ l : List Val, l.filter (fun y => !x.scalarEq y) = l.filter (fun y => x ≠ y) := by
        intro l
        apply List.filter_congr
        intro y _
        by_cases e : x = y
        · simp [e, (Val.scalarEq_iff (e ▸ hxs)).mpr rfl]
        · have : ¬ x.scalarEq y = true := fun h => e ((Val.scalarEq_iff hxs).mp h)
          simp [e, this]
      simp only [if_true, hfilt, h1, List.filter_append]
      have hkeep : (items.map Prod.fst).filter (fun y => x ≠ y) = items.map Prod.fst := by
        rw [List.filter_eq_self]
        intro y hy
        have := hd2 rfl
        simp only [decide_eq_true_eq]
        rintro rfl
        exact this hy
      rw [hkeep, ← hlen, List.take_left, List.drop_left]
      simp only [List.map_append, List.map_cons, List.map_nil, List.append_assoc, List.singleton_append]
      congr 2
      rw [List.filter_filter]
      apply List.filter_congr
      intro y _
      simp [and_comm, eq_comm]

open Classical in
/-- C21, for new lists that do not repeat a singleton: prepending puts the converted new
items in front, in order, followed by the old items that are not among the new
singletons.  What is missing: new lists that repeat a singleton, where the statement is
false (`C21_repeated_item`). -/
theorem C21_prepend_partial (c : MergeCtx) (old fro : List Val) (isPaths : Bool) (r : List Val)
    (h : MergeLists c old fro isPaths false = .ok r) :
    ∃ items, List.Forall₂ (Converted c isPaths) fro items ∧
      (DistinctSingles items →
        r = items.map Prod.fst ++ old.filter (fun y => (y, true) ∉ items)) := by
  unfold MergeLists at h
  cases hl : mergeListLoop c isPaths false fro (MLState.start old) with
  | error e => rw [hl] at h; cases h
  | ok st =>
    rw [hl] at h
    cases h
    obtain ⟨items, h1, rfl⟩ := (mergeListLoop_iff ..).mp hl
    refine ⟨items, h1.imp fun _ _ => mergeItem_converted, fun hd =>
      (prepend_fold old items ?_ hd).1⟩
    intro it hit honce
    obtain ⟨i, hi, rfl⟩ := List.getElem_of_mem hit
    have := h1.get (by rw [h1.length_eq]; exact hi) hi
    apply mergeItem_once (c := c) (isPaths := isPaths)
    have e : items[i] = (items[i].1, true) := by rw [← honce]
    rw [← e]
    exact this

example : MergeLists ⟨[], [], c!"a", c!"b"⟩ [.str c!"x", .str c!"y", .str c!"-f"]
    ([c!"z", c!"y", c!"-f"].map .str) false false =
    .ok [.str c!"z", .str c!"y", .str c!"-f", .str c!"x", .str c!"-f"] := rfl

open Classical in
/-- C21, for strings without repetition: total, and stated without the model's helpers. -/
theorem C21_strings (c : MergeCtx) (old : List Val) (fro : List Str)
    (hn : fro.Nodup) :
    MergeLists c old (fro.map .str) false false =
      .ok (fro.map .str ++ old.filter fun y =>
        ¬ ∃ s ∈ fro, startsWith s c!"-" = false ∧ y = .str s) := by
  unfold MergeLists
  rw [mergeListLoop_strs]
  simp only [Except.map]
  rw [(prepend_fold old _ ?_ ?_).1]
  · congr 1
    rw [List.map_map]
    congr 1
    apply List.filter_congr
    intro y _
    simp only [List.mem_map, Prod.mk.injEq, decide_not]
    congr 1
    apply decide_eq_decide.mpr
    constructor
    · rintro ⟨s, hs, e1, e2⟩
      exact ⟨s, hs, by simpa using e2, e1.symm⟩
    · rintro ⟨s, hs, e1, e2⟩
      exact ⟨s, hs, e2.symm, by simpa using e1⟩
  · intro it hit _
    obtain ⟨s, -, rfl⟩ := List.mem_map.mp hit
    rfl
  · clear c old
    induction fro with
    | nil => trivial
    | cons s fro ih =>
      obtain ⟨h1, h2⟩ := List.nodup_cons.mp hn
      refine ⟨?_, ih h2⟩
      intro it hit _ he
      obtain ⟨t, ht, rfl⟩ := List.mem_map.mp hit
      simp only [Val.str.injEq] at he
      exact h1 (he ▸ ht)

/-- C21 is false when the new list repeats an item: `a` ends up behind the old `x`. -/
theorem C21_repeated_item :
    MergeLists ⟨[], [], c!"f", c!"f"⟩ [.str c!"x"] ([c!"a", c!"b", c!"a"].map .str) false false =
      .ok ([c!"b", c!"x", c!"a"].map .str) := rfl

open Classical in
/-- C21, what holds for every new list of strings, repetitions included: each new string
that is not a flag is there exactly once, the new flags are all there, and the old items
that are not new singletons stay in their order. -/
theorem C21_any_strings (c : MergeCtx) (old : List Val) (fro : List Str) :
    ∃ r, MergeLists c old (fro.map .str) false false = .ok r ∧
      (∀ s ∈ fro, startsWith s c!"-" = false → r.countP (· = .str s) = 1) ∧
      (∀ s, startsWith s c!"-" = true →
        r.countP (· = .str s) = fro.count s + old.countP (· = .str s)) ∧
      (old.filter fun y => ¬ ∃ s ∈ fro, startsWith s c!"-" = false ∧ y = .str s).Sublist r := by
  unfold MergeLists
  rw [mergeListLoop_strs]
  simp only [Except.map, Except.ok.injEq]
  refine ⟨_, rfl, ?_⟩
  induction fro using List.reverseRecOn with
  | nil => simp [MLState.start]
  | append_singleton fro s ih =>
    rw [List.map_append, List.map_singleton, List.foldl_append, List.foldl_cons, List.foldl_nil]
    generalize (fro.map fun s => (Val.str s, !startsWith s ['-'])).foldl
      (fun st it => addItem false it.2 it.1 st) (MLState.start old) = st at ih
    obtain ⟨h1, h2, h3⟩ := ih
    have hins : ∀ (l : List Val) (i : Nat) (p : Val → Bool), (l.take i ++ Val.str s :: l.drop i).countP p =
        l.countP p + if p (.str s) then 1 else 0 := by
      intro l i p
      rw [List.countP_append, List.countP_cons]
      conv_rhs => rw [← List.take_append_drop i l, List.countP_append]
      omega
    have hsub : ∀ (l : List Val) (i : Nat), l.Sublist (l.take i ++ Val.str s :: l.drop i) := by
      intro l i
      conv_lhs => rw [← List.take_append_drop i l]
      exact (List.Sublist.refl _).append (List.sublist_cons_self _ _)
    unfold addItem
    simp only [Bool.false_eq_true, if_false]
    cases hs : startsWith s ['-'] with
    | true =>
      simp only [Bool.not_true, Bool.false_eq_true, if_false]
      refine ⟨?_, ?_, ?_⟩
      · intro t ht hf
        have hne : s ≠ t := fun e => by rw [e, hf] at hs; cases hs
        have ht' : t ∈ fro := by
          rcases List.mem_append.mp ht with h | h
          · exact h
          · exact absurd (List.mem_singleton.mp h).symm hne
        rw [hins, h1 t ht' hf]
        simp [hne]
      · intro t ht
        rw [hins, h2 t ht, List.count_append, List.count_singleton]
        by_cases e : s = t
        · simp [e]; omega
        · simp [e]
      · refine List.Sublist.trans ?_ (hsub _ _)
        refine cast (congrArg (List.Sublist · st.tgt) ?_) h3
        apply List.filter_congr
        intro y _
        congr 1
        simp only [List.mem_append, List.mem_singleton, eq_iff_iff]
        constructor
        · rintro h ⟨t, ht | rfl, hf, e⟩
          · exact h ⟨t, ht, hf, e⟩
          · rw [hs] at hf; cases hf
        · rintro h ⟨t, ht, hf, e⟩
          exact h ⟨t, Or.inl ht, hf, e⟩
    | false =>
      simp only [Bool.not_false, if_true]
      have hp : ∀ t, s ≠ t → (st.tgt.filter fun x => !(Val.str s).scalarEq x).countP (· = .str t) =
          st.tgt.countP (· = .str t) := by
        intro t hne
        rw [List.countP_filter]
        apply List.countP_congr
        intro y _
        simp only [Bool.and_eq_true, decide_eq_true_eq, Bool.not_eq_true', and_iff_left_iff_imp]
        rintro rfl
        simp [Val.scalarEq, hne]
      have hz : (st.tgt.filter fun x => !(Val.str s).scalarEq x).countP (· = .str s) = 0 := by
        rw [List.countP_eq_zero]
        intro y hy
        rw [List.mem_filter] at hy
        intro e
        rw [of_decide_eq_true e] at hy
        simp [Val.scalarEq] at hy
      refine ⟨?_, ?_, ?_⟩
      · intro t ht hf
        by_cases e : s = t
        · subst e
          rw [hins, hz]; simp
        · have ht' : t ∈ fro := by
            rcases List.mem_append.mp ht with h | h
            · exact h
            · exact absurd (List.mem_singleton.mp h).symm e
          rw [hins, hp t e, h1 t ht' hf]
          simp [e]
      · intro t ht
        have e : s ≠ t := fun e => by rw [e, ht] at hs; cases hs
        rw [hins, hp t e, h2 t ht, List.count_append, List.count_singleton]
        simp [e]
      · refine List.Sublist.trans ?_ (hsub _ _)
        refine cast (congrArg (List.Sublist · _) ?_) (h3.filter fun x => !(Val.str s).scalarEq x)
        rw [List.filter_filter]
        apply List.filter_congr
        intro y _
        rw [Bool.eq_iff_iff]
        simp only [Bool.and_eq_true, decide_eq_true_eq, Bool.not_eq_true', List.mem_append,
          List.mem_singleton]
        constructor
        · rintro ⟨h4, h5⟩ ⟨t, ht | rfl, hf, e⟩
          · exact h5 ⟨t, ht, hf, e⟩
          · rw [e] at h4; simp [Val.scalarEq] at h4
        · intro h
          refine ⟨?_, fun ⟨t, ht, hf, e⟩ => h ⟨t, Or.inl ht, hf, e⟩⟩
          cases hb : (Val.str s).scalarEq y
          · rfl
          · exact absurd ⟨s, Or.inr rfl, hs, ((Val.scalarEq_iff rfl).mp hb).symm⟩ h

example : MergeLists ⟨[], [], c!"f", c!"f"⟩ [.str c!"x", .str c!"-v"]
    ([c!"a", c!"-v", c!"a"].map .str) false false =
    .ok ([c!"-v", c!"x", c!"a", c!"-v"].map .str) := rfl

end Gyp
