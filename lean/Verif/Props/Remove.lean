import Verif.Spec.Remove
import Verif.Proofs.Path
import Verif.Props.Release
import Verif.Props.AnalyzerPaths
/-
C84: `list`, `remove` and `clean`.
-/
namespace Gyp
open Spec

theorem normStep_walkStep {acc : List Str} (h : ∀ x ∈ acc, validName x) (c : Str) :
    normStep true acc c = walkStep acc c := by
  unfold normStep walkStep
  by_cases h1 : c = []
  · simp [h1]
  · by_cases h2 : c = ['.']
    · simp [h2, dot]
    · rw [if_neg (by simp [h1, h2, dot]), if_neg h1, if_neg h2]
      by_cases h3 : c = ['.', '.']
      · rw [if_pos h3, if_neg]
        rintro (x | x | x)
        · exact x h3
        · cases x.1
        · cases acc with
          | nil => simp at x
          | cons a acc =>
            have : a = dotdot := by simpa using x
            exact (h a (by simp)).2.2.2 this
      · rw [if_neg h3, if_pos (.inl h3)]

theorem normFold_walkStep : ∀ (cs : List Str), (∀ c ∈ cs, '/' ∉ c) → ∀ acc : List Str, (∀ x ∈ acc, validName x) →
    cs.foldl (normStep true) acc = cs.foldl walkStep acc
  | [], _, _, _ => rfl
  | c :: cs, h, acc, ha => by
    rw [List.foldl_cons, List.foldl_cons, ← normStep_walkStep ha]
    exact normFold_walkStep cs (fun d hd => h d (by simp [hd])) _ (normStep_abs_valid ha (h c (by simp)))

/-- `path.resolve` finds the place the operating system finds. -/
theorem resolveIn_walk {dir : Str} (h : isAbs dir = true) (p : Str) : resolveIn dir p = walk (walk [] dir) p := by
  have ha : isAbs (pathJoin dir p) = true := by rw [isAbs_pathJoin, h]; simp
  rw [← walk_join, walk_of_isAbs ha]
  exact normFold_walkStep _ mem_splitOn_noSep [] (by simp)

theorem below_iff {p q : Loc} : p.isSuffixOf q = true ↔ Below p q := by
  rw [List.isSuffixOf_iff_suffix]
  exact ⟨fun ⟨n, h⟩ => ⟨n, h.symm⟩, fun ⟨n, h⟩ => ⟨n, h.symm⟩⟩

theorem rm_without (T : DiskTree) (p : Loc) : Without T (T.rm p) p := by
  refine ⟨List.filter_sublist, fun q hq => ?_⟩
  simp only [DiskTree.rm, List.mem_filter, hq, true_and, Bool.not_eq_true', ← below_iff]
  exact Bool.eq_false_iff

theorem given_eq {arg target given : Str} (h : GivenVersion arg target given) :
    (if arg ≠ [] then arg else target) = given := by
  rcases h.2 with ⟨h1, h2⟩ | ⟨h1, h2⟩
  · rw [if_pos h1, h2]
  · rw [if_neg (by simp [h1]), h2]

theorem removeCmd_eq {parse : Str → Option Semver} {devDir arg target given name : Str} (T : DiskTree)
    (hg : GivenVersion arg target given) (hn : NameOf parse given name) :
    removeCmd parse devDir arg target T =
      if T.has (resolveIn devDir name) then .removed (T.rm (resolveIn devDir name)) else .already name := by
  unfold removeCmd
  simp only [given_eq hg, if_neg hg.1]
  rcases hn with ⟨v, h, rfl⟩ | ⟨h, rfl⟩ <;> simp only [h]

/-- **C84** (`list`).  `list` names exactly what is in the directory of the development files, except
`current`. -/
theorem C84_list {devDir : Str} (hd : isAbs devDir = true) {T : DiskTree} (hT : InDirs T) (name : Str) :
    name ∈ listCmd devDir T ↔ name :: walk [] devDir ∈ T ∧ name ≠ c!"current" := by
  unfold listCmd
  rw [resolveIn_walk hd, walk_nil]
  have hr : name ∈ T.readdir (walk [] devDir) ↔ name :: walk [] devDir ∈ T := by
    simp only [DiskTree.readdir, List.mem_filterMap]
    constructor
    · rintro ⟨q, hq, h⟩
      by_cases e : q.tail = walk [] devDir
      · rw [if_pos e] at h
        cases q with
        | nil => cases h
        | cons a q =>
          simp only [List.head?_cons, Option.some.injEq] at h
          simp only [List.tail_cons] at e
          rw [← h, ← e]; exact hq
      · rw [if_neg e] at h; cases h
    · intro h
      exact ⟨_, h, by simp⟩
  by_cases hh : T.has (walk [] devDir) = true
  · simp only [hh, if_true, List.mem_filter, hr]
    simp
  · simp only [hh]
    constructor
    · intro h; simp at h
    · rintro ⟨h, -⟩
      exfalso
      apply hh
      rcases hT _ _ h with h | h <;> simp [DiskTree.has, h]

/-- **C84** (`remove`).  `remove` deletes what is in the directory of the given version below the
directory of the development files, and nothing else; if there is no such directory it deletes
nothing and says so. -/
theorem C84_remove {parse : Str → Option Semver} {devDir arg target given name : Str} (hd : isAbs devDir = true)
    (T : DiskTree) (hg : GivenVersion arg target given) (hn : NameOf parse given name) (hv : validName name) :
    (name :: walk [] devDir ∈ T → ∃ T', removeCmd parse devDir arg target T = .removed T' ∧
      Without T T' (name :: walk [] devDir)) ∧
    (name :: walk [] devDir ∉ T → removeCmd parse devDir arg target T = .already name) := by
  have e : resolveIn devDir name = name :: walk [] devDir := by
    rw [resolveIn_walk hd, walk_component hv.2.1, walkStep_valid hv]
  rw [removeCmd_eq T hg hn, e]
  constructor
  · intro h
    exact ⟨_, if_pos (by simp [DiskTree.has, h]), rm_without _ _⟩
  · intro h
    exact if_neg (by simp [DiskTree.has, h])

/-- **C84** (`none`).  Without a version nothing is deleted. -/
theorem C84_none (parse : Str → Option Semver) (devDir : Str) (T : DiskTree) :
    removeCmd parse devDir [] [] T = .noVersion := rfl

theorem readdir_rm (T : DiskTree) (p : Loc) (name : Str) :
    (T.rm (name :: p)).readdir p = (T.readdir p).filter (· ≠ name) := by
  induction T with
  | nil => rfl
  | cons q T ih =>
    simp only [DiskTree.rm, DiskTree.readdir] at ih ⊢
    rw [List.filterMap_cons]
    by_cases e : q.tail = p
    · cases q with
      | nil =>
        have : ¬ ([] : Loc) = name :: p := by simp
        rw [List.filter_cons, if_pos (by simp [List.isSuffixOf]), List.filterMap_cons]
        simp only [List.tail_nil] at e
        subst e
        simpa using ih
      | cons a q =>
        simp only [List.tail_cons] at e
        subst e
        simp only [List.tail_cons, if_true, List.head?_cons]
        by_cases ha : a = name
        · subst ha
          rw [List.filter_cons, if_neg (by simp [List.isSuffixOf_iff_suffix]), List.filter_cons, if_neg (by simp)]
          exact ih
        · rw [List.filter_cons, if_pos, List.filterMap_cons]
          · simp only [List.tail_cons, if_true, List.head?_cons, ih]
            rw [List.filter_cons, if_pos (by simp [ha])]
          · simp only [Bool.not_eq_true', Bool.eq_false_iff, ne_eq, List.isSuffixOf_iff_suffix]
            intro h
            have := h.eq_of_length (by simp)
            simp only [List.cons.injEq] at this
            exact ha this.1.symm
    · rw [if_neg e]
      rw [List.filter_cons]
      split
      · rw [List.filterMap_cons, if_neg e]; exact ih
      · exact ih

/-- **C84** (`listed`).  After `remove`, `list` shows the same versions in the same order, without the
removed one. -/
theorem C84_listed {parse : Str → Option Semver} {devDir arg target given name : Str} (hd : isAbs devDir = true)
    {T T' : DiskTree} (hg : GivenVersion arg target given) (hn : NameOf parse given name) (hv : validName name)
    (h : removeCmd parse devDir arg target T = .removed T') :
    listCmd devDir T' = (listCmd devDir T).filter (· ≠ name) := by
  have e : resolveIn devDir name = name :: walk [] devDir := by
    rw [resolveIn_walk hd, walk_component hv.2.1, walkStep_valid hv]
  rw [removeCmd_eq T hg hn, e] at h
  by_cases hh : T.has (name :: walk [] devDir) = true
  · rw [if_pos hh] at h
    cases h
    unfold listCmd
    rw [resolveIn_walk hd, walk_nil]
    have k : (T.rm (name :: walk [] devDir)).has (walk [] devDir) = T.has (walk [] devDir) := by
      have : List.isSuffixOf (name :: walk [] devDir) (walk [] devDir) = false := by
        rw [Bool.eq_false_iff, ne_eq, List.isSuffixOf_iff_suffix]
        intro x
        have := x.length_le
        rw [List.length_cons] at this
        omega
      simp [DiskTree.has, DiskTree.rm, this]
    simp only [k, readdir_rm]
    split
    · simp only [List.filter_filter]
      congr 1
      funext x
      exact Bool.and_comm _ _
    · rfl
  · rw [if_neg hh] at h; cases h

/-- **C84** (`others`).  Every name that `list` shows and that is not another spelling of a version can
be removed: it is listed no longer, every other name is, and what is in the other directories is
the same. -/
theorem C84_others {parse : Str → Option Semver} {devDir name : Str} (hd : isAbs devDir = true)
    {T : DiskTree} (hT : InDirs T) (hl : name ∈ listCmd devDir T) (hv : validName name)
    (hs : ∀ v, parse name = some v → v.text = name) (target : Str) :
    ∃ T', removeCmd parse devDir name target T = .removed T' ∧ name ∉ listCmd devDir T' ∧
      (∀ other, other ≠ name → (other ∈ listCmd devDir T' ↔ other ∈ listCmd devDir T)) ∧
      (∀ q, ¬ Below (name :: walk [] devDir) q → (q ∈ T' ↔ q ∈ T)) := by
  have hg : GivenVersion name target name := ⟨hv.1, .inl ⟨hv.1, rfl⟩⟩
  have hn : NameOf parse name name := by
    cases h : parse name with
    | none => exact .inr ⟨h, rfl⟩
    | some v => exact .inl ⟨v, h, (hs v h).symm⟩
  obtain ⟨T', h1, h2⟩ := (C84_remove hd T hg hn hv).1 ((C84_list hd hT name).1 hl).1
  have h3 := C84_listed hd hg hn hv h1
  refine ⟨T', h1, by simp [h3], fun other ho => by simp [h3, ho], fun q hq => ?_⟩
  exact ⟨fun h => h2.1.subset h, fun h => (h2.2 q h).2 hq⟩

/-- **C84** (`again`).  Removing it once more says that it was removed already. -/
theorem C84_again {parse : Str → Option Semver} {devDir arg target given name : Str} (hd : isAbs devDir = true)
    {T T' : DiskTree} (hg : GivenVersion arg target given) (hn : NameOf parse given name) (hv : validName name)
    (h : removeCmd parse devDir arg target T = .removed T') :
    removeCmd parse devDir arg target T' = .already name := by
  apply (C84_remove hd T' hg hn hv).2
  have hin : name :: walk [] devDir ∈ T := by
    by_contra c
    rw [(C84_remove hd T hg hn hv).2 c] at h
    cases h
  obtain ⟨T'', h1, h2⟩ := (C84_remove hd T hg hn hv).1 hin
  rw [h] at h1
  cases h1
  rw [h2.2 _ hin]
  exact fun c => c ⟨[], rfl⟩

/-- **C84** (`spelling`).  Spellings of one version (`v20.1.0` and `20.1.0`) are the same to
`remove`. -/
theorem C84_spelling {parse : Str → Option Semver} {a b : Str} {v : Semver} (ha : parse a = some v)
    (hb : parse b = some v) (na : a ≠ []) (nb : b ≠ []) (devDir target target' : Str) (T : DiskTree) :
    removeCmd parse devDir a target T = removeCmd parse devDir b target' T := by
  rw [removeCmd_eq T ⟨na, .inl ⟨na, rfl⟩⟩ (.inl ⟨v, ha, rfl⟩), removeCmd_eq T ⟨nb, .inl ⟨nb, rfl⟩⟩ (.inl ⟨v, hb, rfl⟩)]

theorem releaseOf_dir (v : Semver) (dr : Option ReleaseInfo) (u : Str) :
    (releaseOf v dr u).versionDir = (if (releaseOf v dr u).name ≠ c!"node" then (releaseOf v dr u).name ++ c!"-" else []) ++
      (releaseOf v dr u).semver.text := by
  unfold releaseOf
  cases dr with
  | none => rfl
  | some d =>
    simp only
    by_cases h : d.headersUrl ≠ [] ∧ u = []
    · simp only [if_pos h]; rfl
    · simp only [if_neg h]; rfl

/-- **C84** (`installed`).  The directory `remove` deletes for a version is the one the development
files of that version of Node.js are installed in. -/
theorem C84_installed {parse : Str → Option Semver} {o : ReleaseOpts} {r : Release}
    (h : processRelease parse o = .ok r) (hname : r.name = c!"node") {given : Str} (hg : parse given = some r.semver) :
    NameOf parse given r.versionDir := by
  left
  refine ⟨_, hg, ?_⟩
  obtain ⟨v, dv, -, -, h⟩ := processRelease_ok h
  have e := releaseOf_dir v (ownRelease v dv o) (overrideUrl o)
  rw [← h, hname] at e
  rw [e]
  simp

/-- **C84** (`clean`).  `clean` deletes the directory `build` in the working directory with all that is
in it, and nothing else. -/
theorem C84_clean {cwd : Str} (hc : isAbs cwd = true) (T : DiskTree) :
    Without T (cleanCmd cwd T) (c!"build" :: walk [] cwd) := by
  have e : resolveIn cwd c!"build" = c!"build" :: walk [] cwd := by
    rw [resolveIn_walk hc, walk_component (by decide), walkStep_valid (by decide)]
  unfold cleanCmd
  rw [e]
  exact rm_without _ _

/-! ### A disk -/

/-- Two versions, one of them of io.js, a link named `current`, and something else beside the
directory of the development files. -/
def testDisk : DiskTree :=
  [[c!"h"], [c!"dev", c!"h"], [c!"20.1.0", c!"dev", c!"h"], [c!"include", c!"20.1.0", c!"dev", c!"h"],
    [c!"iojs-2.0.0", c!"dev", c!"h"], [c!"current", c!"dev", c!"h"], [c!"thesis", c!"h"], [c!"v20.1.0", c!"dev", c!"h"]]

theorem testDisk_dirs : InDirs testDisk := by
  have : ∀ q ∈ testDisk, q.tail = [] ∨ q.tail ∈ testDisk := by decide +kernel
  intro name p h
  simpa using this _ h

example : isAbs c!"/h/dev" = true := by decide

example : walk [] c!"/h/dev" = [c!"dev", c!"h"] := by decide +kernel

example : listCmd c!"/h/dev" testDisk = [c!"20.1.0", c!"iojs-2.0.0", c!"v20.1.0"] := by decide +kernel

example : NameOf exParse c!"v20.1.0" c!"20.1.0" ∧ validName c!"20.1.0" ∧ GivenVersion c!"v20.1.0" [] c!"v20.1.0" :=
  ⟨.inl ⟨_, rfl, by decide +kernel⟩, by decide, by decide, .inl ⟨by decide, rfl⟩⟩

example : removeCmd exParse c!"/h/dev" c!"v20.1.0" [] testDisk =
    .removed [[c!"h"], [c!"dev", c!"h"], [c!"iojs-2.0.0", c!"dev", c!"h"], [c!"current", c!"dev", c!"h"],
      [c!"thesis", c!"h"], [c!"v20.1.0", c!"dev", c!"h"]] := by decide +kernel

/-- A name that is no version is removed as it is listed. -/
example : ∃ T', removeCmd exParse c!"/h/dev" c!"iojs-2.0.0" [] testDisk = .removed T' ∧
    c!"iojs-2.0.0" ∉ listCmd c!"/h/dev" T' := by
  obtain ⟨T', h1, h2, -⟩ := C84_others (parse := exParse) (devDir := c!"/h/dev") (name := c!"iojs-2.0.0") (by decide)
    testDisk_dirs (by decide +kernel) (by decide) (by intro v h; exact absurd (show none = some v from h) (by simp)) []
  exact ⟨T', h1, h2⟩

example : ∃ r, processRelease exParse exOpts = .ok r ∧ r.name = c!"node" ∧ exParse c!"v20.1.0" = some r.semver :=
  ⟨_, rfl, by decide +kernel, by decide +kernel⟩

example : cleanCmd c!"/h/x" [[c!"h"], [c!"x", c!"h"], [c!"build", c!"x", c!"h"], [c!"Release", c!"build", c!"x", c!"h"],
    [c!"build.js", c!"x", c!"h"]] = [[c!"h"], [c!"x", c!"h"], [c!"build.js", c!"x", c!"h"]] := by decide +kernel

/-! ### What `remove` does to other names -/

/-- **C84** (witness).  `remove ..` deletes the parent of the directory of the development files, with
everything in it. -/
theorem C84_parent : removeCmd exParse c!"/h/dev" c!".." [] testDisk = .removed [] := by decide +kernel

/-- **C84** (witness).  A path leads out of the directory of the development files. -/
theorem C84_path : ∃ T', removeCmd exParse c!"/h/dev" c!"../thesis" [] testDisk = .removed T' ∧
    [c!"thesis", c!"h"] ∉ T' ∧ [c!"thesis", c!"h"] ∈ testDisk :=
  ⟨_, rfl, by decide +kernel, by decide +kernel⟩

/-- **C84** (witness).  The development files of io.js are not removed with their version: `remove`
says that they are gone. -/
theorem C84_iojs : ∃ r, processRelease exParse { exOpts with arg := c!"2.0.0" } = .ok r ∧
    r.versionDir = c!"iojs-2.0.0" ∧ r.versionDir ∈ listCmd c!"/h/dev" testDisk ∧
    removeCmd exParse c!"/h/dev" c!"2.0.0" [] testDisk = .already c!"2.0.0" :=
  ⟨_, rfl, by decide +kernel, by decide +kernel, by decide +kernel⟩

/-- **C84** (witness).  A directory named like another spelling of a version is listed and cannot be
removed. -/
theorem C84_other_spelling (T : DiskTree) (h : removeCmd exParse c!"/h/dev" c!"v20.1.0" [] testDisk = .removed T) :
    c!"v20.1.0" ∈ listCmd c!"/h/dev" T := by
  have e : removeCmd exParse c!"/h/dev" c!"v20.1.0" [] testDisk =
    .removed [[c!"h"], [c!"dev", c!"h"], [c!"iojs-2.0.0", c!"dev", c!"h"], [c!"current", c!"dev", c!"h"],
      [c!"thesis", c!"h"], [c!"v20.1.0", c!"dev", c!"h"]] := by decide +kernel
  rw [e] at h
  cases h
  decide +kernel

end Gyp
