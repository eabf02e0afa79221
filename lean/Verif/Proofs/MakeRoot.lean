import Verif.Spec.MakeRoot
import Verif.Props.MakeBuild
import Verif.Props.Targets
import Verif.Props.Toposort
/-
For C81: texts and places of the root makefile.
-/
namespace Gyp
open Spec

/-! ### Places -/

/-- The directory of a file with a name in a directory. -/
theorem walk_dirname_join (l : Loc) (a n : Str) (hn : validName n) :
    walk l (dirname (pathJoin a n)) = walk l a := by
  by_cases ha : a = []
  · subst ha
    have : pathJoin [] n = n := by unfold pathJoin; simp
    rw [this]
    unfold dirname
    rw [rsplit1_none_iff.mpr hn.2.1]
  · have habs : isAbs n = false := by
      rw [isAbs_false_iff]
      intro e
      cases n with
      | nil => cases e
      | cons c n =>
        simp only [List.head?_cons, Option.some.injEq] at e
        subst e
        exact hn.2.1 (by simp)
    have hform : ∃ b, pathJoin a n = b ++ '/' :: n := by
      unfold pathJoin
      rw [habs, if_neg (by simp)]
      by_cases h : a = [] ∨ endsWith a ['/'] = true
      · rw [if_pos h]
        obtain ⟨a', rfl⟩ := endsWith_slash (h.resolve_left ha)
        exact ⟨a', by simp⟩
      · rw [if_neg h]
        exact ⟨a, rfl⟩
    obtain ⟨b, hb⟩ := hform
    have h1 := C03_dirname_parent l b n hn
    rw [← hb, walk_join, walk_component hn.2.1, walkStep_valid hn] at h1
    injection h1 with _ h1
    exact h1.symm

theorem validName_long {n : Str} (hs : '/' ∉ n) (hl : 3 ≤ n.length) : validName n := by
  refine ⟨?_, hs, ?_, ?_⟩ <;> · intro e; rw [e] at hl; simp at hl

theorem rootName_valid {r : MakeRun} (hs : '/' ∉ r.suffix) : validName (rootName r) := by
  refine validName_long ?_ (by simp [rootName])
  unfold rootName
  simp only [List.mem_append, not_or]
  exact ⟨by decide, hs⟩

/-- The root makefile is in the directory it says. -/
theorem walk_rootDir {r : MakeRun} (hs : '/' ∉ r.suffix) :
    walk r.cwd.reverse (dirname (rootPath r)) = rootDir r := by
  unfold rootPath rootDir
  split
  · rename_i h
    rw [walk_dirname_join _ _ _ (rootName_valid hs), h, walk_nil]
  · rw [walk_dirname_join _ _ _ (rootName_valid hs), walk_join]

/-- An entry leads to the makefile. -/
theorem walk_entry {r : MakeRun} (hc : ∀ c ∈ r.cwd, validName c) (hs : '/' ∉ r.suffix) (path : Str) :
    walk (rootDir r) (includeEntry r path) = walk r.cwd.reverse path := by
  unfold includeEntry
  rw [← walk_rootDir hs]
  exact walk_RelativePath hc _ _

/-- A path below a directory, followed from elsewhere. -/
theorem walk_below {cwd : List Str} (hc : ∀ c ∈ cwd, validName c) {p d : Str} {ns : Loc}
    (hp : startsWith p c!"//" = false) (hd : startsWith d c!"//" = false) (hroot : walk cwd.reverse d ≠ [])
    (h : walk cwd.reverse p = ns ++ walk cwd.reverse d) (l : Loc) :
    walk l (RelativePath cwd p d) = ns ++ l := by
  have hpr : walk cwd.reverse p ≠ [] := by
    rw [h]; simp [hroot]
  obtain ⟨common, up, down, e1, e2, e3, e4⟩ := RelativePath_text hc hp hd hpr hroot
  rw [h, List.reverse_append, e1, List.append_assoc] at e2
  have e2 := List.append_cancel_left e2
  have hup : up = [] := by
    rcases e3 with e3 | e3 | e3
    · exact e3
    · rw [e3] at e2
      exact (List.append_eq_nil_iff.mp e2).1
    · cases up with
      | nil => rfl
      | cons x up => rw [← e2] at e3; exact absurd rfl e3
  rw [hup, List.nil_append] at e2
  have hv : ∀ c ∈ ns.reverse, validName c := by
    intro c hm
    obtain ⟨-, -, -, -, h2⟩ := abspath_shape hc p
    exact h2 c (by rw [h]; simp at hm; simp [hm])
  rw [e4, hup, ← e2]
  simp only [List.length_nil, List.replicate_zero, List.nil_append]
  have hk : ∀ c ∈ ns.reverse, Kept c := fun c hm => kept_of_valid (hv c hm)
  have := walk_slashes_join hk 0 l
  simp only [List.replicate_zero, List.nil_append] at this
  rw [this]
  simp [foldl_walkStep_valid hv]

/-! ### The condition -/

theorem foundIn_iff (x s : Str) : foundIn x s = true ↔ x <:+: s := by
  induction s with
  | nil => simp [foundIn]
  | cons c s ih =>
    rw [foundIn, Bool.or_eq_true, ih, List.infix_cons_iff, List.isPrefixOf_iff_prefix]

theorem caret_found {p f : Str} (hf : '^' ∉ f) :
    foundIn ('^' :: p) (c!" ^" ++ f) = true ↔ p <+: f := by
  rw [foundIn_iff]
  show '^' :: p <:+: ' ' :: '^' :: f ↔ _
  rw [List.infix_cons_iff, List.infix_cons_iff, List.cons_prefix_cons, List.cons_prefix_cons]
  constructor
  · rintro (h | h | h)
    · exact absurd h.1 (by decide)
    · exact h.2
    · exfalso
      obtain ⟨a, b, e⟩ := h
      apply hf
      rw [← e]
      simp
  · intro h
    exact Or.inr (Or.inl ⟨rfl, h⟩)

theorem stripText_nil_iff (s : Str) : stripText s = [] ↔ ∀ c ∈ s, blankOrLine c = true := by
  unfold stripText
  constructor
  · intro h
    rw [List.reverse_eq_nil_iff, List.dropWhile_eq_nil_iff] at h
    intro c hc
    by_contra hb
    have h1 : c ∈ s.dropWhile blankOrLine := by
      have : s.dropWhile blankOrLine ≠ [] := by
        rw [Ne, List.dropWhile_eq_nil_iff]
        intro h'
        exact hb (h' c hc)
      have hsplit : c ∈ s.takeWhile blankOrLine ++ s.dropWhile blankOrLine := by
        rw [List.takeWhile_append_dropWhile]; exact hc
      rcases List.mem_append.mp hsplit with h2 | h2
      · exact absurd (List.mem_takeWhile_imp h2) hb
      · exact h2
    exact hb (h c (by simpa using h1))
  · intro h
    have : s.dropWhile blankOrLine = [] := by
      rw [List.dropWhile_eq_nil_iff]; exact h
    rw [this]; rfl

theorem mem_joinWith_blank {l : List Str} {c : Char} (h : c ∈ joinWith [' '] l) : c = ' ' ∨ ∃ s ∈ l, c ∈ s := by
  induction l with
  | nil => simp [joinWith] at h
  | cons s l ih =>
    cases l with
    | nil => exact Or.inr ⟨s, by simp, by simpa [joinWith] using h⟩
    | cons t l =>
      rw [joinWith] at h
      simp only [List.mem_append, List.mem_singleton] at h
      · rcases h with (h | h) | h
        · exact Or.inr ⟨s, by simp, h⟩
        · exact Or.inl h
        · rcases ih h with h | ⟨x, hx, hc⟩
          · exact Or.inl h
          · exact Or.inr ⟨x, by simp [hx], hc⟩
      · simp

theorem mem_joinWith_of {l : List Str} {s : Str} {c : Char} (hs : s ∈ l) (hc : c ∈ s) :
    c ∈ joinWith [' '] l := by
  induction l with
  | nil => cases hs
  | cons t l ih =>
    cases l with
    | nil =>
      rw [List.mem_singleton.mp hs] at hc
      simpa [joinWith] using hc
    | cons u l =>
      rw [joinWith]
      · rcases List.mem_cons.mp hs with rfl | hs
        · simp [hc]
        · have := ih hs
          simp [this]
      · simp

theorem noLoad_nil {noLoad f : Str} (hf : '^' ∉ f) :
    noLoadValue noLoad f = [] ↔ ¬ ∃ p ∈ makeWords noLoad, p <+: f := by
  unfold noLoadValue
  rw [stripText_nil_iff]
  constructor
  · rintro h ⟨p, hp, hpre⟩
    have : blankOrLine '^' = true := by
      refine h '^' (mem_joinWith_of (List.mem_map_of_mem hp) ?_)
      rw [if_pos ((caret_found hf).mpr hpre)]
      simp
    revert this
    decide
  · intro h c hc
    rcases mem_joinWith_blank hc with rfl | ⟨s, hs, hc⟩
    · rfl
    · obtain ⟨p, hp, rfl⟩ := List.mem_map.mp hs
      rw [if_neg fun hb => h ⟨p, hp, (caret_found hf).mp hb⟩] at hc
      rw [show c = ' ' by simpa using hc]
      rfl

theorem between_eq (a f b : Str) : between a b (a ++ f ++ b) = some f := by
  unfold between
  have h1 : a.isPrefixOf (a ++ f ++ b) = true := by
    rw [List.isPrefixOf_iff_prefix, List.append_assoc]
    exact List.prefix_append _ _
  have h2 : (a ++ f ++ b).drop a.length = f ++ b := by
    rw [List.append_assoc, List.drop_left]
  rw [h2, if_pos ⟨h1, by rw [List.isSuffixOf_iff_suffix]; exact List.suffix_append _ _⟩]
  have : (a ++ f ++ b).length - a.length - b.length = f.length := by simp
  rw [this, List.take_left]

theorem wordsFrom_name {s : Str} (h : ∀ c ∈ s, blankOrLine c = false) (cur : Str) (hne : cur ++ s ≠ []) :
    wordsFrom cur s = [cur ++ s] := by
  induction s generalizing cur with
  | nil =>
    rw [List.append_nil] at hne ⊢
    rw [wordsFrom, if_neg hne]
  | cons c s ih =>
    rw [wordsFrom, if_neg (by simp [h c (by simp)]), ih (fun x hx => h x (by simp [hx])) _ (by simp)]
    simp

theorem include_word {f : Str} (h : IncludeName f) : makeWords f = [f] := by
  refine wordsFrom_name (fun c hc => ?_) [] h.1
  have := h.2 c hc
  unfold blankOrLine
  simp only [List.mem_cons, not_or] at this
  simp [this]

end Gyp
