import Verif.Model.Merge
import Verif.Proofs.Path
import Mathlib.Data.List.Induction
import Mathlib.Data.List.Forall2
/-
Lemmas about `MergeLists`: the loop is a conversion of every item followed by a fold.
-/
namespace Gyp

/-- The loop succeeds exactly when every item converts, and then folds `addItem`. -/
theorem mergeListLoop_iff (c : MergeCtx) (isPaths append : Bool) (fro : List Val) (st st' : MLState) :
    mergeListLoop c isPaths append fro st = .ok st' ↔
      ∃ items, List.Forall₂ (fun v it => mergeItem c isPaths v = .ok it) fro items ∧
        st' = items.foldl (fun st it => addItem append it.2 it.1 st) st := by
  induction fro generalizing st with
  | nil =>
    unfold mergeListLoop
    constructor
    · intro h; cases h; exact ⟨[], .nil, rfl⟩
    · rintro ⟨items, h, rfl⟩
      cases h; rfl
  | cons v fro ih =>
    unfold mergeListLoop
    cases hv : mergeItem c isPaths v with
    | error e =>
      constructor
      · intro h; cases h
      · rintro ⟨items, h, -⟩
        cases h with
        | cons h1 _ => rw [hv] at h1; cases h1
    | ok it =>
      obtain ⟨x, s⟩ := it
      simp only
      rw [ih]
      constructor
      · rintro ⟨items, h1, h2⟩
        exact ⟨(x, s) :: items, .cons hv h1, h2⟩
      · rintro ⟨items, h1, h2⟩
        cases h1 with
        | cons h1 h3 =>
          rw [hv] at h1
          cases h1
          exact ⟨_, h3, h2⟩

/-- An item that may appear only once is a `str` or an `int`. -/
theorem mergeItem_once {c : MergeCtx} {isPaths : Bool} {v x : Val}
    (h : mergeItem c isPaths v = .ok (x, true)) : x.isScalar = true := by
  cases v with
  | str s =>
    unfold mergeItem at h
    simp only [Except.ok.injEq, Prod.mk.injEq] at h
    rw [← h.1]; rfl
  | int i =>
    unfold mergeItem at h
    split at h
    · cases h
    · cases h; rfl
  | dict d => unfold mergeItem at h; split at h <;> cases h
  | list l => unfold mergeItem at h; split at h <;> cases h
  | other => unfold mergeItem at h; cases h

theorem filter_scalar_mem (x : Val) (l : List Val) (h : x.isScalar = true) :
    x ∈ l.filter Val.isScalar ↔ x ∈ l := by simp [h]

/-- `'\\'`-free paths stay so. -/
theorem mem_joinWith {x : Char} {sep : Str} {ws : List Str} (h : x ∈ joinWith sep ws) :
    x ∈ sep ∨ ∃ w ∈ ws, x ∈ w := by
  induction ws with
  | nil => simp [joinWith] at h
  | cons w ws ih =>
    cases ws with
    | nil => exact Or.inr ⟨w, by simp, by simpa [joinWith] using h⟩
    | cons w2 ws =>
      simp only [joinWith, List.mem_append] at h
      rcases h with (h | h) | h
      · exact Or.inr ⟨w, by simp, h⟩
      · exact Or.inl h
      · rcases ih h with h | ⟨u, hu, hx⟩
        · exact Or.inl h
        · exact Or.inr ⟨u, List.mem_cons_of_mem _ hu, hx⟩

theorem mem_of_mem_splitOn {c x : Char} {s w : Str} (hw : w ∈ splitOn c s) (hx : x ∈ w) : x ∈ s := by
  induction s generalizing w with
  | nil =>
    simp [splitOn] at hw
    rw [hw] at hx; simp at hx
  | cons y ys ih =>
    unfold splitOn at hw
    by_cases hy : y = c
    · rw [if_pos hy] at hw
      rcases List.mem_cons.mp hw with rfl | hw
      · simp at hx
      · exact List.mem_cons_of_mem _ (ih hw hx)
    · rw [if_neg hy] at hw
      cases hs : splitOn c ys with
      | nil => exact absurd hs splitOn_ne_nil
      | cons u us =>
        rw [hs] at hw
        rcases List.mem_cons.mp hw with rfl | hw
        · rcases List.mem_cons.mp hx with rfl | hx
          · simp
          · exact List.mem_cons_of_mem _ (ih (by rw [hs]; simp) hx)
        · exact List.mem_cons_of_mem _ (ih (by rw [hs]; simp [hw]) hx)

theorem normFold_mem {abs : Bool} (cs acc : List Str) :
    ∀ x ∈ cs.foldl (normStep abs) acc, x ∈ cs ∨ x ∈ acc := by
  induction cs generalizing acc with
  | nil => intro x hx; exact Or.inr hx
  | cons c cs ih =>
    intro x hx
    rcases ih _ x hx with h | h
    · exact Or.inl (List.mem_cons_of_mem _ h)
    · unfold normStep at h
      split at h
      · exact Or.inr h
      · split at h
        · rcases List.mem_cons.mp h with rfl | h
          · exact Or.inl (by simp)
          · exact Or.inr h
        · exact Or.inr (List.mem_of_mem_tail h)

theorem mem_normpath {x : Char} {p : Str} (h : x ∈ normpath p) : x ∈ p ∨ x = '/' ∨ x = '.' := by
  unfold normpath at h
  split at h
  · exact Or.inr (Or.inr (by simpa [dot] using h))
  · simp only at h
    split at h
    · exact Or.inr (Or.inr (by simpa [dot] using h))
    · rcases List.mem_append.mp h with h | h
      · exact Or.inr (Or.inl (List.eq_of_mem_replicate h))
      · rcases mem_joinWith h with h | ⟨w, hw, hx⟩
        · exact Or.inr (Or.inl (by simpa using h))
        · rcases normFold_mem _ _ w (List.mem_reverse.mp hw) with hw | hw
          · exact Or.inl (mem_of_mem_splitOn hw hx)
          · simp at hw

theorem mem_pathJoin {x : Char} {a b : Str} (h : x ∈ pathJoin a b) : x ∈ a ∨ x ∈ b ∨ x = '/' := by
  unfold pathJoin at h
  split at h
  · exact Or.inr (Or.inl h)
  · split at h
    · rcases List.mem_append.mp h with h | h
      · exact Or.inl h
      · exact Or.inr (Or.inl h)
    · rcases List.mem_append.mp h with h | h
      · exact Or.inl h
      · rcases List.mem_cons.mp h with h | h
        · exact Or.inr (Or.inr h)
        · exact Or.inr (Or.inl h)

theorem mem_pathJoinAll {x : Char} {cs : List Str} (h : x ∈ pathJoinAll cs) :
    x = '/' ∨ ∃ c ∈ cs, x ∈ c := by
  cases cs with
  | nil => simp [pathJoinAll] at h
  | cons c cs =>
    unfold pathJoinAll at h
    have : ∀ (cs : List Str) (c : Str), x ∈ cs.foldl pathJoin c → x = '/' ∨ x ∈ c ∨ ∃ d ∈ cs, x ∈ d := by
      intro cs
      induction cs with
      | nil => intro c h; exact Or.inr (Or.inl h)
      | cons d ds ih =>
        intro c h
        rcases ih _ h with h | h | ⟨e, he, hx⟩
        · exact Or.inl h
        · rcases mem_pathJoin h with h | h | h
          · exact Or.inr (Or.inl h)
          · exact Or.inr (Or.inr ⟨d, by simp, h⟩)
          · exact Or.inl h
        · exact Or.inr (Or.inr ⟨e, by simp [he], hx⟩)
    rcases this cs c h with h | h | ⟨d, hd, hx⟩
    · exact Or.inl h
    · exact Or.inr ⟨c, by simp, h⟩
    · exact Or.inr ⟨d, by simp [hd], hx⟩

theorem mem_abspath {x : Char} {cwd : List Str} {p : Str} (h : x ∈ abspath cwd p) :
    x ∈ p ∨ x = '/' ∨ x = '.' ∨ ∃ c ∈ cwd, x ∈ c := by
  unfold abspath at h
  rcases mem_normpath h with h | h | h
  · rcases mem_pathJoin h with h | h | h
    · unfold cwdStr at h
      rcases List.mem_cons.mp h with h | h
      · exact Or.inr (Or.inl h)
      · rcases mem_joinWith h with h | h
        · exact Or.inr (Or.inl (by simpa using h))
        · exact Or.inr (Or.inr (Or.inr h))
    · exact Or.inl h
    · exact Or.inr (Or.inl h)
  · exact Or.inr (Or.inl h)
  · exact Or.inr (Or.inr (Or.inl h))

theorem mem_RelativePath {x : Char} {cwd : List Str} {p d : Str} (h : x ∈ RelativePath cwd p d) :
    x ∈ p ∨ x = '/' ∨ x = '.' ∨ ∃ c ∈ cwd, x ∈ c := by
  unfold RelativePath at h
  simp only at h
  split at h
  · simp at h
  · rcases mem_pathJoinAll h with h | ⟨c, hc, hx⟩
    · exact Or.inr (Or.inl h)
    · rcases List.mem_append.mp hc with hc | hc
      · rw [List.eq_of_mem_replicate hc] at hx
        exact Or.inr (Or.inr (Or.inl (by simpa [dotdot] using hx)))
      · exact mem_abspath (mem_of_mem_splitOn (List.mem_of_mem_drop hc) hx)

theorem mem_dirname {x : Char} {p : Str} (h : x ∈ dirname p) : x ∈ p := by
  unfold dirname at h
  cases hr : rsplit1 '/' p with
  | none => rw [hr] at h; simp at h
  | some ab =>
    obtain ⟨a, b⟩ := ab
    obtain ⟨rfl, -⟩ := rsplit1_some hr
    rw [hr] at h
    have hmem : x ∈ a ++ ['/'] → x ∈ a ++ '/' :: b := by
      intro h
      rcases List.mem_append.mp h with h | h
      · exact List.mem_append_left _ h
      · rw [List.mem_singleton] at h
        simp [h]
    simp only at h
    split at h
    · exact hmem h
    · rw [List.mem_reverse] at h
      exact hmem (List.mem_reverse.mp ((List.dropWhile_suffix _).subset h))

theorem replaceChar_of_notMem {c : Char} {new s : Str} (h : c ∉ s) : replaceChar c new s = s := by
  unfold replaceChar
  induction s with
  | nil => rfl
  | cons x xs ih =>
    rw [List.mem_cons, not_or] at h
    rw [List.flatMap_cons, ih h.2, if_neg (Ne.symm h.1)]; rfl

theorem normpath_ne_nil (p : Str) : normpath p ≠ [] := by
  unfold normpath
  split
  · simp [dot]
  · simp only
    split
    · simp [dot]
    · assumption

end Gyp
