import Verif.Proofs.MakeRoot
import Verif.Props.MakeActions
import Verif.Props.MakeBuild
import Verif.Props.Options
import Mathlib.Data.List.Nodup
/-
C81: the root makefile reads the makefile of every target, and is made again when a build file
changes.
-/
namespace Gyp
open Spec

/-! ### The makefiles that are read -/

/-- C81: of the files that are listed, make reads all that do not begin with a word of `NO_LOAD`, in
order. -/
theorem C81_no_load (noLoad : Str) (files : List Str) (h : ∀ f ∈ files, IncludeName f) :
    readIncludes noLoad (files.flatMap includeLines) =
      some (files.filter fun f => !(makeWords noLoad).any fun p => p.isPrefixOf f) := by
  induction files with
  | nil => rfl
  | cons f files ih =>
    have hf := h f (by simp)
    have hcaret : '^' ∉ f := fun hm => hf.2 _ hm (by decide)
    have h1 : between c!"                 $(join ^," c!")))),)" (c!"                 $(join ^," ++ f ++ c!")))),)") =
        some f := between_eq _ _ _
    have h2 : between c!"  include " [] (c!"  include " ++ f) = some f := by
      have := between_eq c!"  include " f []
      rwa [List.append_nil] at this
    rw [List.flatMap_cons]
    simp only [List.cons_append, List.nil_append] at h1 h2
    simp only [includeLines, List.cons_append, List.nil_append, readIncludes, true_and, if_true]
    rw [h1, h2]
    dsimp only
    rw [ih fun g hg => h g (by simp [hg]), Option.map_some, include_word hf, List.filter_cons]
    congr 1
    by_cases hn : noLoadValue noLoad f = []
    · rw [if_pos hn]
      have := (noLoad_nil hcaret).mp hn
      rw [if_pos]
      · rfl
      · simp only [Bool.not_eq_true', List.any_eq_false, List.isPrefixOf_iff_prefix]
        exact fun p hp hpre => this ⟨p, hp, hpre⟩
    · rw [if_neg hn, if_neg]
      · rfl
      · intro hc
        apply hn
        rw [noLoad_nil hcaret]
        rintro ⟨p, hp, hpre⟩
        simp only [Bool.not_eq_true', List.any_eq_false, List.isPrefixOf_iff_prefix] at hc
        exact hc p hp hpre

example : readIncludes c!"lib/ test" ([c!"a.target.mk", c!"lib/b.target.mk", c!"tests.host.mk"].flatMap includeLines) =
    some [c!"a.target.mk"] := by decide +kernel

/-- C81: the list names every makefile once, sorted, by a path that leads to it from the directory of
the root makefile, and nothing else. -/
theorem C81_listed (r : MakeRun) (hc : ∀ c ∈ r.cwd, validName c) (hs : '/' ∉ r.suffix) (paths : List Str) :
    (includeList r paths).Nodup ∧ (includeList r paths).Pairwise (fun a b => strLe a b = true) ∧
    (∀ p ∈ paths, ∃ e ∈ includeList r paths, walk (rootDir r) e = walk r.cwd.reverse p) ∧
    (∀ e ∈ includeList r paths, ∃ p ∈ paths, walk (rootDir r) e = walk r.cwd.reverse p) := by
  have hp := pySorted_perm strLe (uniquer id (paths.map (includeEntry r)))
  have hmem : ∀ e, e ∈ includeList r paths ↔ e ∈ paths.map (includeEntry r) := by
    intro e
    unfold includeList
    rw [hp.mem_iff, mem_uniquer]
  refine ⟨?_, pySorted_pairwise _ strLe_total strLe_trans _, ?_, ?_⟩
  · refine hp.nodup_iff.mpr ?_
    have := (C09_uniquer (id : Str → Str) (paths.map (includeEntry r))).2.1
    simpa using this
  · intro p hp
    exact ⟨includeEntry r p, (hmem _).mpr (List.mem_map_of_mem hp), walk_entry hc hs p⟩
  · intro e he
    obtain ⟨p, hp, rfl⟩ := List.mem_map.mp ((hmem e).mp he)
    exact ⟨p, hp, walk_entry hc hs p⟩

/-- A list without repetitions is kept. -/
theorem uniquer_nodup {l : List Str} (h : l.Nodup) : uniquer id l = l := by
  rw [← once_eq]
  induction l with
  | nil => rfl
  | cons x l ih =>
    rw [List.nodup_cons] at h
    rw [once, ih h.2, List.filter_eq_self.mpr]
    intro y hy
    simp only [ne_eq, decide_not, Bool.not_eq_eq_eq_not, Bool.not_true, decide_eq_false_iff_not]
    rintro rfl
    exact h.1 hy

theorem disk_self {cwd : List Str} {files : List (Str × List MkLine)}
    (hd : (files.map fun f => walk cwd.reverse f.1).Nodup) {f : Str × List MkLine} (hf : f ∈ files) :
    diskAfter cwd files (walk cwd.reverse f.1) = some f.2 := by
  unfold diskAfter
  have : files.filter (fun g => decide (walk cwd.reverse g.1 = walk cwd.reverse f.1)) = [f] := by
    induction files with
    | nil => cases hf
    | cons g files ih =>
      rw [List.map_cons, List.nodup_cons] at hd
      rcases List.mem_cons.mp hf with rfl | hf
      · rw [List.filter_cons, if_pos (by simp), List.filter_eq_nil_iff.mpr]
        intro x hx
        simp only [decide_eq_true_eq]
        intro e
        exact hd.1 (List.mem_map.mpr ⟨x, hx, e⟩)
      · rw [List.filter_cons, if_neg, ih hd.2 hf]
        simp only [decide_eq_true_eq]
        intro e
        exact hd.1 (List.mem_map.mpr ⟨f, hf, e.symm⟩)
  rw [this]
  rfl

/-- C81: what make reads through the root makefile, after all makefiles were written, are the
makefiles of all targets, each once. -/
theorem C81_read (r : MakeRun) (hc : ∀ c ∈ r.cwd, validName c) (hs : '/' ∉ r.suffix)
    (files : List (Str × List MkLine)) (hd : (files.map fun f => walk r.cwd.reverse f.1).Nodup) :
    ∃ order : List (Str × List MkLine), order.Perm files ∧
      contentsRead r (diskAfter r.cwd files) (includeList r (files.map (·.1))) =
        order.map fun f => some f.2 := by
  have hnd : ((files.map (·.1)).map (includeEntry r)).Nodup := by
    have : (files.map fun f => walk r.cwd.reverse f.1) =
        ((files.map (·.1)).map (includeEntry r)).map (walk (rootDir r)) := by
      rw [List.map_map, List.map_map]
      exact List.map_congr_left fun f _ => (walk_entry hc hs f.1).symm
    rw [this] at hd
    exact List.Nodup.of_map _ hd
  have hp : (includeList r (files.map (·.1))).Perm (files.map fun f => includeEntry r f.1) := by
    unfold includeList
    rw [uniquer_nodup hnd, List.map_map]
    exact pySorted_perm _ _
  obtain ⟨order, ho, he⟩ : ∃ order : List (Str × List MkLine), order.Perm files ∧
      includeList r (files.map (·.1)) = order.map fun f => includeEntry r f.1 := by
    clear hd hnd
    generalize includeList r (files.map (·.1)) = l at hp
    induction l generalizing files with
    | nil =>
      have : files = [] := by simpa using hp.symm.eq_nil
      exact ⟨[], by rw [this], rfl⟩
    | cons e l ih =>
      obtain ⟨f, hf, rfl⟩ := List.mem_map.mp (hp.mem_iff.mp List.mem_cons_self)
      obtain ⟨a, b, rfl⟩ := List.append_of_mem hf
      have hmid : ((a ++ f :: b).map fun f => includeEntry r f.1).Perm
          (includeEntry r f.1 :: ((a ++ b).map fun f => includeEntry r f.1)) := by
        rw [← List.map_cons (f := fun f : Str × List MkLine => includeEntry r f.1)]
        exact List.perm_middle.map _
      obtain ⟨o, ho, e⟩ := ih (a ++ b) ((List.perm_cons _).mp (hp.trans hmid))
      exact ⟨f :: o, (List.Perm.cons f ho).trans List.perm_middle.symm, by rw [e]; rfl⟩
  refine ⟨order, ho, ?_⟩
  unfold contentsRead
  rw [he, List.map_map]
  refine List.map_congr_left fun f hf => ?_
  show diskAfter r.cwd files (walk (rootDir r) (includeEntry r f.1)) = _
  rw [walk_entry hc hs, disk_self hd (ho.mem_iff.mp hf)]

/-! ### Files of their own -/

/-- The target is called so. -/
def NamedTarget (q b n s : Str) : Prop := ParseQualifiedTarget q = (some b, n, some s)

/-- Build files in different directories keep different places: makefiles go next to them, or the
build files are below the depth. -/
def OwnPlaces (r : MakeRun) (list : List Str) : Prop :=
  r.generatorOutput = [] ∨
    (startsWith r.depth c!"//" = false ∧ walk r.cwd.reverse r.depth ≠ [] ∧
      ∀ q ∈ list, ∀ b n s, NamedTarget q b n s → startsWith (dirname b) c!"//" = false ∧
        ∃ ns, walk r.cwd.reverse (dirname b) = ns ++ walk r.cwd.reverse r.depth)

theorem writeTargets_paths {r : MakeRun} {needed : List Str} {dicts : List (Str × MkSpec)} {list : List Str}
    {t : MkOutputs} {files : List (Str × List MkLine)} (h : writeTargets r needed dicts list t = some files) :
    List.Forall₂ (fun q (f : Str × List MkLine) => ∃ b n s, NamedTarget q b n s ∧
      f.1 = makefilePath r b (makefileName r n s)) list files := by
  induction list generalizing t files with
  | nil =>
    rw [writeTargets] at h
    cases h
    exact .nil
  | cons q list ih =>
    rw [writeTargets] at h
    split at h
    · rename_i b n s spec h1 h2
      split at h
      · cases h
      · split at h
        · cases h
        · rename_i h3
          cases h
          exact .cons ⟨b, n, s, h1, rfl⟩ (ih h3)
    · cases h

/-- The place of a makefile. -/
theorem walk_makefile_place {r : MakeRun} (hc : ∀ c ∈ r.cwd, validName c) {list : List Str}
    (hp : OwnPlaces r list) (hs : '/' ∉ r.suffix) {q b n s : Str} (hq : q ∈ list) (hn : NamedTarget q b n s)
    (hns : '/' ∉ n ++ s) :
    ∃ d, walk r.cwd.reverse (makefilePath r b (makefileName r n s)) = makefileName r n s :: d ∧
      ∀ q' ∈ list, ∀ b' n' s', NamedTarget q' b' n' s' → '/' ∉ n' ++ s' →
        walk r.cwd.reverse (makefilePath r b' (makefileName r n' s')) = makefileName r n' s' :: d →
        walk r.cwd.reverse (dirname b) = walk r.cwd.reverse (dirname b') := by
  rcases hp with hg | ⟨hd, hroot, hall⟩
  · refine ⟨_, walk_makefile hc hg b n s (by simp only [List.mem_append, not_or] at hns ⊢; exact ⟨hns, hs⟩), ?_⟩
    intro q' hq' b' n' s' hn' hns' h
    rw [walk_makefile hc hg b' n' s' (by simp only [List.mem_append, not_or] at hns' ⊢; exact ⟨hns', hs⟩)] at h
    injection h with _ h
    exact h.symm
  · by_cases hg : r.generatorOutput = []
    · refine ⟨_, walk_makefile hc hg b n s (by simp only [List.mem_append, not_or] at hns ⊢; exact ⟨hns, hs⟩), ?_⟩
      intro q' hq' b' n' s' hn' hns' h
      rw [walk_makefile hc hg b' n' s' (by simp only [List.mem_append, not_or] at hns' ⊢; exact ⟨hns', hs⟩)] at h
      injection h with _ h
      exact h.symm
    · have key : ∀ q ∈ list, ∀ b n s, NamedTarget q b n s → '/' ∉ n ++ s → ∃ ns,
          walk r.cwd.reverse (dirname b) = ns ++ walk r.cwd.reverse r.depth ∧
          walk r.cwd.reverse (makefilePath r b (makefileName r n s)) = makefileName r n s ::
            (ns ++ walk (walk r.cwd.reverse r.depth) r.generatorOutput) := by
        intro q hq b n s hn hns
        obtain ⟨h1, ns, h2⟩ := hall q hq b n s hn
        refine ⟨ns, h2, ?_⟩
        have hv : validName (makefileName r n s) := by
          refine validName_long ?_ (by simp [makefileName]; omega)
          unfold makefileName
          simp only [List.mem_append, not_or] at hns ⊢
          exact ⟨⟨⟨⟨hns.1, by decide⟩, hns.2⟩, hs⟩, by decide⟩
        unfold makefilePath
        dsimp only
        rw [if_neg hg, walk_join, walk_join, walk_join, walk_component hv.2.1, walkStep_valid hv,
          walk_below hc h1 hd hroot h2]
      obtain ⟨ns, h1, h2⟩ := key q hq b n s hn hns
      refine ⟨_, h2, ?_⟩
      intro q' hq' b' n' s' hn' hns' h
      obtain ⟨ns', h1', h2'⟩ := key q' hq' b' n' s' hn' hns'
      rw [h2'] at h
      injection h with _ h
      rw [h1, h1', List.append_cancel_right h]

/-- C81: targets that differ in directory, name or toolset have different makefiles. -/
theorem C81_apart (r : MakeRun) (hc : ∀ c ∈ r.cwd, validName c) (hs : '/' ∉ r.suffix) (needed : List Str)
    (dicts : List (Str × MkSpec)) (list : List Str) (hp : OwnPlaces r list) (t : MkOutputs)
    (files : List (Str × List MkLine)) (h : writeTargets r needed dicts list t = some files)
    (hn : ∀ q ∈ list, ∀ b n s, NamedTarget q b n s → '/' ∉ n ++ s ∧ '.' ∉ s)
    (hd : list.Pairwise fun q q' => ∀ b n s b' n' s', NamedTarget q b n s → NamedTarget q' b' n' s' →
      ¬ (walk r.cwd.reverse (dirname b) = walk r.cwd.reverse (dirname b') ∧ n = n' ∧ s = s')) :
    (files.map fun f => walk r.cwd.reverse f.1).Nodup := by
  have hf := writeTargets_paths h
  have hsub : ∀ q ∈ list, q ∈ list := fun _ hq => hq
  revert hsub
  suffices ∀ l : List Str, (∀ q ∈ l, q ∈ list) → l.Pairwise (fun q q' => ∀ b n s b' n' s',
      NamedTarget q b n s → NamedTarget q' b' n' s' →
        ¬ (walk r.cwd.reverse (dirname b) = walk r.cwd.reverse (dirname b') ∧ n = n' ∧ s = s')) →
      List.Forall₂ (fun q (f : Str × List MkLine) => ∃ b n s, NamedTarget q b n s ∧
        f.1 = makefilePath r b (makefileName r n s)) l files →
      (files.map fun f => walk r.cwd.reverse f.1).Nodup from fun hsub => this list hsub hd hf
  clear hd hf h
  intro l hl hd hf
  induction hf with
  | nil => exact List.nodup_nil
  | @cons q f l files h1 h2 ih =>
    rw [List.pairwise_cons] at hd
    rw [List.map_cons, List.nodup_cons]
    refine ⟨?_, ih (fun q hq => hl q (by simp [hq])) hd.2⟩
    intro hm
    obtain ⟨g, hg, e⟩ := List.mem_map.mp hm
    obtain ⟨b, n, s, hq, hpath⟩ := h1
    obtain ⟨q', hq', b', n', s', hq1, hpath'⟩ : ∃ q' ∈ l, ∃ b n s, NamedTarget q' b n s ∧
        g.1 = makefilePath r b (makefileName r n s) := by
      clear ih hd hl hm
      induction h2 with
      | nil => cases hg
      | cons a _ ih2 =>
        rcases List.mem_cons.mp hg with rfl | hg
        · exact ⟨_, List.mem_cons_self, a⟩
        · obtain ⟨q', hq', h⟩ := ih2 hg
          exact ⟨q', List.mem_cons_of_mem _ hq', h⟩
    obtain ⟨hns, hdot⟩ := hn q (hl q (by simp)) b n s hq
    obtain ⟨hns', hdot'⟩ := hn q' (hl q' (by simp [hq'])) b' n' s' hq1
    obtain ⟨d, hw, hw2⟩ := walk_makefile_place hc hp hs (hl q (by simp)) hq hns
    rw [hpath, hpath', hw] at e
    have hname : makefileName r n' s' = makefileName r n s := by
      obtain ⟨d', hw', -⟩ := walk_makefile_place hc hp hs (hl q' (by simp [hq'])) hq1 hns'
      rw [hw'] at e
      injection e
    have hdir := hw2 q' (hl q' (by simp [hq'])) b' n' s' hq1 hns' (by rw [e, hname])
    unfold makefileName at hname
    rw [List.append_assoc _ r.suffix, List.append_assoc _ r.suffix] at hname
    obtain ⟨rfl, rfl⟩ := dot_inj hdot' hdot (List.append_cancel_right hname)
    exact hd.1 q' hq' b n' s' b' n' s' hq hq1 ⟨hdir, rfl, rfl⟩

/-- C81: the rules that make has read, when it has read the root makefile without `NO_LOAD`, are those
of the makefiles of all targets; what holds for them (C73) holds for the build. -/
theorem C81_rules (r : MakeRun) (hc : ∀ c ∈ r.cwd, validName c) (hs : '/' ∉ r.suffix) (v0 : MakeVars)
    (files : List (Str × List MkLine)) (hd : (files.map fun f => walk r.cwd.reverse f.1).Nodup)
    (hn : ∀ e ∈ includeList r (files.map (·.1)), IncludeName e) :
    ∃ (read : List Str) (contents : List (List MkLine)), readIncludes [] ((includeList r (files.map (·.1))).flatMap includeLines) = some read ∧
      contentsRead r (diskAfter r.cwd files) read = contents.map some ∧
      RulesOf v0 files (rulesFrom v0 contents.flatten) := by
  obtain ⟨order, hp, he⟩ := C81_read r hc hs files hd
  refine ⟨_, order.map (·.2), C81_no_load [] _ hn, ?_, order, hp, ?_⟩
  · rw [List.filter_eq_self.mpr (by intro f _; rfl), he, List.map_map]
    rfl
  · rw [List.flatMap_def]

/-! ### Made again -/

/-- `srcdir` leads from the directory of the root makefile to the top directory. -/
theorem walk_srcdir {r : MakeRun} (hc : ∀ c ∈ r.cwd, validName c)
    (ht : r.generatorOutput = [] ∨ walk r.cwd.reverse r.toplevel = r.cwd.reverse) :
    walk (rootDir r) (rootSrcdir r) = walk r.cwd.reverse r.toplevel := by
  unfold rootDir rootSrcdir
  by_cases hg : r.generatorOutput = []
  · rw [if_pos hg, hg]
    rfl
  · rcases ht with h | h
    · exact absurd h hg
    · rw [if_neg hg, h, walk_RelativePath hc]
      rfl

theorem expand_no_dollar (v : MakeVars) {s : Str} (h : '$' ∉ s) : expand v s = s := expand_plain v h

/-- The names of the build files that the targets come from, and of the files these include. -/
def SourceFile (r : MakeRun) (d : RootData) (list : List Str) (l : Loc) : Prop :=
  ∃ q ∈ list, ∃ b n s, ParseQualifiedTarget q = (some b, n, s) ∧
    (l = walk r.cwd.reverse b ∨ ∃ f ∈ d.included b, l = walk (walk r.cwd.reverse (dirname b)) f)

/-- The files in `build_files` lie where the build files and the included files do. -/
theorem mem_buildFileSet {r : MakeRun} (hc : ∀ c ∈ r.cwd, validName c) (d : RootData)
    (hh : d.home = none ∨ walk r.cwd.reverse r.toplevel = r.cwd.reverse) (list : List Str) (l : Loc) :
    (∃ f ∈ buildFileSet r d list, walk (walk r.cwd.reverse r.toplevel) f = l) ↔ SourceFile r d list l := by
  have hinc : ∀ b f, walk (walk r.cwd.reverse r.toplevel) (includedName r d.home b f) =
      walk (walk r.cwd.reverse (dirname b)) f := by
    intro b f
    have h1 : walk (walk r.cwd.reverse r.toplevel) (RelativePath r.cwd (UnrelativePath f b) r.toplevel) =
        walk (walk r.cwd.reverse (dirname b)) f := by
      rw [walk_RelativePath hc]
      unfold UnrelativePath
      rw [walk_normpath, walk_join]
    unfold includedName
    dsimp only
    split
    · rename_i h e
      split
      · rcases hh with hh | hh
        · rw [hh] at e; cases e
        · rw [walk_abspath hc, ← h1, hh]
      · exact h1
    · exact h1
  have hset : ∀ f, f ∈ buildFileSet r d list ↔ ∃ q ∈ list, ∃ b n s, ParseQualifiedTarget q = (some b, n, s) ∧
      (f = RelativePath r.cwd b r.toplevel ∨ ∃ g ∈ d.included b, f = includedName r d.home b g) := by
    intro f
    unfold buildFileSet
    rw [mem_uniquer, List.mem_flatMap]
    constructor
    · rintro ⟨q, hq, hf⟩
      refine ⟨q, hq, ?_⟩
      split at hf
      · rename_i b n s e
        refine ⟨b, n, s, e, ?_⟩
        rcases List.mem_cons.mp hf with hf | hf
        · exact Or.inl hf
        · obtain ⟨g, hg, e⟩ := List.mem_map.mp hf
          exact Or.inr ⟨g, hg, e.symm⟩
      · cases hf
    · rintro ⟨q, hq, b, n, s, e, hf⟩
      refine ⟨q, hq, ?_⟩
      rw [e]
      rcases hf with rfl | ⟨g, hg, rfl⟩
      · exact List.mem_cons_self
      · exact List.mem_cons_of_mem _ (List.mem_map_of_mem hg)
  constructor
  · rintro ⟨f, hf, rfl⟩
    obtain ⟨q, hq, b, n, s, e, h⟩ := (hset f).mp hf
    refine ⟨q, hq, b, n, s, e, ?_⟩
    rcases h with rfl | ⟨g, hg, rfl⟩
    · exact Or.inl (walk_RelativePath hc _ _)
    · exact Or.inr ⟨g, hg, hinc b g⟩
  · rintro ⟨q, hq, b, n, s, e, h⟩
    rcases h with rfl | ⟨g, hg, rfl⟩
    · exact ⟨_, (hset _).mpr ⟨q, hq, b, n, s, e, Or.inl rfl⟩, walk_RelativePath hc _ _⟩
    · exact ⟨_, (hset _).mpr ⟨q, hq, b, n, s, e, Or.inr ⟨g, hg, rfl⟩⟩, hinc b g⟩

/-- The name of a source before blanks are protected. -/
def rootSourceName (r : MakeRun) (path : Str) : Str :=
  if isAbs path then path else (if r.generatorOutput = [] then [] else c!"$(srcdir)/") ++ path

theorem rootSource_eq (r : MakeRun) {path : Str} (h : '$' ∉ path) :
    rootSource r path = QuoteSpaces (rootSourceName r path) := by
  unfold rootSource rootSourceName
  rw [hasSub_absent (c := '$') (by simp) h]
  simp

/-- A directory, a slash and a path in it. -/
theorem walk_slash {l : Loc} {a b : Str} (ha : a ≠ []) (hb : isAbs b = false) :
    walk l (a ++ c!"/" ++ b) = walk (walk l a) b := by
  rw [walk_rel hb, List.append_assoc]
  show walk l (a ++ '/' :: b) = _
  simp only [walk]
  rw [splitOn_append_sep, head?_append_ne ha]
  simp [List.foldl_append]

/-- A name that can stand in a rule. -/
theorem rootSourceName_rule {r : MakeRun} {path : Str} (h : RuleName path) : RuleName (rootSourceName r path) := by
  unfold rootSourceName
  split
  · exact h
  · split
    · exact h
    · refine ⟨by simp, ?_⟩
      intro c hc
      rcases List.mem_append.mp hc with hc | hc
      · have : ∀ c ∈ c!"$(srcdir)/", c ∉ [':', '|', '#', '\\', '\t', '\n'] := by decide
        exact this c hc
      · exact h.2 c hc

/-- Where a prerequisite of the root makefile lies. -/
theorem walk_rootSource {r : MakeRun} (hc : ∀ c ∈ r.cwd, validName c)
    (ht : r.generatorOutput = [] ∨ walk r.cwd.reverse r.toplevel = r.cwd.reverse)
    (hne : rootSrcdir r ≠ []) {v : MakeVars} (hv : aget v c!"srcdir" = some (rootSrcdir r)) {path : Str}
    (hd : '$' ∉ path) :
    walk (rootDir r) (expand v (rootSourceName r path)) = walk (walk r.cwd.reverse r.toplevel) path := by
  unfold rootSourceName
  by_cases ha : isAbs path = true
  · rw [if_pos ha, expand_plain _ hd]
    exact walk_abs ha _ _
  · rw [if_neg ha]
    by_cases hg : r.generatorOutput = []
    · rw [if_pos hg, List.nil_append, expand_plain _ hd]
      unfold rootDir
      rw [hg]
      rfl
    · rw [if_neg hg]
      have e : expand v (c!"$(srcdir)/" ++ path) = rootSrcdir r ++ c!"/" ++ path := by
        have h1 := expandFrom_ref v c!"srcdir" ('/' :: path) (by decide)
        unfold expand
        show expandFrom v none (c!"$(" ++ c!"srcdir" ++ c!")" ++ '/' :: path) = _
        rw [h1, expandFrom_char v (by decide)]
        have h2 := expand_plain v hd
        unfold expand at h2
        rw [h2]
        unfold refValue
        rw [hv]
        simp
      rw [e, walk_slash hne (by simpa using ha), walk_srcdir hc ht]

/-- What is assumed about the texts of the rule: names that make takes as they are, and arguments
without what make would replace or cut off. -/
structure RegenOk (r : MakeRun) (binary : Str) (flags files buildFiles : List Str) : Prop where
  suffix : ∀ c ∈ r.suffix, c ∉ [':', '|', '#', '\\', '\t', '\n', ' ', '/']
  prereqs : ∀ f ∈ buildFiles, RuleName f ∧ '$' ∉ f
  args : ∀ x ∈ regenBinary r binary :: flags ++ files.map (fun f => RelativePath r.cwd f r.toplevel),
    ∀ c ∈ x, c ∉ ['$', '#', '\n']
  last : ∀ x, (flags ++ files.map fun f => RelativePath r.cwd f r.toplevel).getLast? = some x → x.getLast? ≠ some '\\'

theorem regen_args {r : MakeRun} {binary : Str} {flags files buildFiles : List Str}
    (ok : RegenOk r binary flags files buildFiles) (env : Str → Str) :
    List.Forall₂ (ArgText env)
      ([regenBinary r binary, c!"-fmake"] ++ flags ++ files.map fun f => RelativePath r.cwd f r.toplevel)
      ([regenBinary r binary, c!"-fmake"] ++ flags ++ files.map fun f => RelativePath r.cwd f r.toplevel) := by
  refine List.forall₂_same.mpr fun x hx => argText_lit ?_
  simp only [List.cons_append, List.nil_append, List.mem_cons] at hx
  rcases hx with rfl | rfl | hx
  · exact ok.args _ (by simp)
  · decide
  · exact ok.args _ (by simp only [List.cons_append, List.mem_cons]; exact Or.inr hx)

theorem regen_last {r : MakeRun} {binary : Str} {flags files buildFiles : List Str}
    (ok : RegenOk r binary flags files buildFiles) :
    ∀ x, ([regenBinary r binary, c!"-fmake"] ++ flags ++ files.map fun f => RelativePath r.cwd f r.toplevel).getLast? =
      some x → LastOk x := by
  intro x hx c hc e
  subst e
  rw [List.append_assoc, List.getLast?_append] at hx
  cases h : (flags ++ files.map fun f => RelativePath r.cwd f r.toplevel).getLast? with
  | none =>
    rw [h] at hx
    simp at hx
    subst hx
    revert hc
    decide
  | some y =>
    rw [h] at hx
    simp at hx
    subst hx
    exact ok.last y h hc

theorem encoded_dollar {s : Str} (h : '$' ∉ s) : '$' ∉ EncodePOSIXShellArgument s := by
  have he : '$' ∉ backslashEscape s := by
    intro hc
    unfold backslashEscape at hc
    obtain ⟨c, hc1, hc2⟩ := List.mem_flatMap.mp hc
    split at hc2
    · simp only [List.mem_cons, List.not_mem_nil, or_false] at hc2
      rcases hc2 with e | e
      · cases e
      · subst e; exact h hc1
    · rw [List.mem_singleton] at hc2
      subst hc2; exact h hc1
  unfold EncodePOSIXShellArgument
  split <;> simpa using he

theorem Tok.same {target : Str} {env : Str → Str} {s h x : Str} (a : Tok target env s h x) (hs : '$' ∉ s) :
    h = s ∧ x = s := by
  induction a with
  | nil => exact ⟨rfl, rfl⟩
  | char _ _ ih =>
    obtain ⟨rfl, rfl⟩ := ih fun hm => hs (List.mem_cons_of_mem _ hm)
    exact ⟨rfl, rfl⟩
  | target _ _ => simp at hs
  | ref _ _ _ _ => simp at hs
  | func _ _ _ => simp at hs

theorem regen_dollar {r : MakeRun} {binary : Str} {flags files buildFiles : List Str}
    (ok : RegenOk r binary flags files buildFiles) : '$' ∉ EncodePOSIXShellList
      ([regenBinary r binary, c!"-fmake"] ++ flags ++ files.map fun f => RelativePath r.cwd f r.toplevel) := by
  unfold EncodePOSIXShellList
  intro hm
  rcases mem_joinWith_blank hm with h | ⟨y, hy, h⟩
  · cases h
  · obtain ⟨x, hx, rfl⟩ := List.mem_map.mp hy
    refine encoded_dollar ?_ h
    simp only [List.cons_append, List.nil_append, List.mem_cons] at hx
    rcases hx with rfl | rfl | hx
    · exact fun hm => ok.args _ (by simp) _ hm (by decide)
    · decide
    · exact fun hm => ok.args _ (by simp only [List.cons_append, List.mem_cons]; exact Or.inr hx) _ hm (by decide)

/-- How make reads the rule and the command. -/
theorem regen_read {r : MakeRun} {binary : Str} {flags files buildFiles : List Str}
    (ok : RegenOk r binary flags files buildFiles) :
    readRegen (regenText r binary flags files buildFiles) = some (regenCommand r binary flags files,
      [.rule [rootName r] (buildFiles.map (rootSourceName r)) [] [c!"$(call do_cmd,regen_makefile)"]]) := by
  obtain ⟨h, y, t1, l1, o1, w1⟩ := args_encoded (target := []) (env := fun _ => []) (by simp [LineText]) rfl (regen_args ok _)
  have hh : h = EncodePOSIXShellList ([regenBinary r binary, c!"-fmake"] ++ flags ++
      files.map fun f => RelativePath r.cwd f r.toplevel) := by
    exact (t1.same (regen_dollar ok)).1
  subst hh
  have hname : RuleName (rootName r) := by
    refine ⟨by simp [rootName], ?_⟩
    intro c hc
    rcases List.mem_append.mp hc with hc | hc
    · have : ∀ c ∈ c!"Makefile", c ∉ [':', '|', '#', '\\', '\t', '\n'] := by decide
      exact this c hc
    · have := ok.suffix c hc
      simp only [List.mem_cons, not_or] at this ⊢
      tauto
  have hblank : QuoteSpaces (rootName r) = rootName r := by
    unfold QuoteSpaces
    refine replaceChar_absent ?_
    unfold rootName
    rw [List.mem_append, not_or]
    exact ⟨by decide, fun hm => ok.suffix _ hm (by decide)⟩
  have hpre : ∀ s ∈ buildFiles.map (rootSourceName r), RuleName s := by
    intro s hs
    obtain ⟨f, hf, rfl⟩ := List.mem_map.mp hs
    exact rootSourceName_rule (ok.prereqs f hf).1
  have hmap : buildFiles.map (rootSource r) = (buildFiles.map (rootSourceName r)).map fun s => QuoteSpaces s := by
    rw [List.map_map]
    exact List.map_congr_left fun f hf => rootSource_eq r (ok.prereqs f hf).2
  have hline : rootName r ++ c!": " ++ joinWith [' '] (buildFiles.map (rootSource r)) =
      joinWith [' '] ([rootName r].map fun s => QuoteSpaces s) ++ c!": " ++
        joinWith [' '] ((buildFiles.map (rootSourceName r)).map fun s => QuoteSpaces s) ++
        (if false then c!" FORCE_DO_CMD" else []) := by
    rw [hmap, List.map_cons, List.map_nil, joinWith_one, hblank]
    simp
  have hone := oneLine_rule [rootName r] (buildFiles.map (rootSourceName r)) (by simpa using hname) hpre false c!": "
    (Or.inl rfl)
  rw [← hline] at hone
  have hcmd : '\n' ∉ regenCommand r binary flags files := by
    unfold regenCommand
    rw [List.mem_append, not_or]
    exact ⟨by decide, l1.1⟩
  have htext : regenText r binary flags files buildFiles = writeLines
      [c!"quiet_cmd_regen_makefile = ACTION Regenerating $@",
       c!"cmd_regen_makefile = " ++ regenCommand r binary flags files,
       rootName r ++ c!": " ++ joinWith [' '] (buildFiles.map (rootSource r)),
       c!"\t$(call do_cmd,regen_makefile)", []] := by
    simp [regenText, regenRule, writeLines]
  unfold readRegen
  rw [htext, splitOn_lines _ (by
    intro l hl
    simp only [List.mem_cons, List.not_mem_nil, or_false] at hl
    rcases hl with rfl | rfl | rfl | rfl | rfl
    · decide
    · rw [List.mem_append, not_or]
      exact ⟨by decide, hcmd⟩
    · exact hone.1
    · decide
    · simp)]
  simp only [List.cons_append, List.nil_append]
  have h1 : laterAssignment (c!"cmd_regen_makefile = " ++ regenCommand r binary flags files ++ ['\n']) =
      some (c!"cmd_regen_makefile", regenCommand r binary flags files) := by
    have := later_value (name := c!"cmd_regen_makefile") (x := regenCommand r binary flags files) (by decide) hcmd
      (by
        unfold regenCommand
        rw [List.mem_append, not_or]
        exact ⟨by decide, l1.2⟩)
      (LastOk.append (by unfold LastOk; decide) (o1 (regen_last ok)))
      (by intro c hc; unfold regenCommand at hc; simp at hc; subst hc; decide)
    convert this using 2
    simp [lineText, render, writeLines]
  have h2 : readMakefile (joinWith ['\n'] [rootName r ++ c!": " ++ joinWith [' '] (buildFiles.map (rootSource r)),
      c!"\t$(call do_cmd,regen_makefile)", [], []]) = some [.rule [rootName r] (buildFiles.map (rootSourceName r)) []
        [c!"$(call do_cmd,regen_makefile)"]] := by
    have := readMakefile_lines [rootName r ++ c!": " ++ joinWith [' '] (buildFiles.map (rootSource r)),
      c!"\t$(call do_cmd,regen_makefile)", []] (by
        intro l hl
        simp only [List.mem_cons, List.not_mem_nil, or_false] at hl
        rcases hl with rfl | rfl | rfl
        · exact hone
        · exact ⟨by decide, by decide⟩
        · exact ⟨by decide, by decide⟩) _ (by
        have := readRules_normal _ [rootName r] (buildFiles.map (rootSourceName r)) (by simpa using hname) (by simp)
          hpre false [c!"\t$(call do_cmd,regen_makefile)", [], []] [c!"$(call do_cmd,regen_makefile)"] [] hline rfl
        exact this)
    simp only [forceNames, Bool.false_eq_true, if_false, List.append_nil] at this
    rw [← this]
    congr 1
  simp only [List.cons_append, List.nil_append] at h1 h2 ⊢
  rw [h1, h2]
  rfl

/-- C81: the root makefile is made again when one of the build files of the targets, or a file that
they include, has changed: these are its prerequisites, and there are no others. -/
theorem C81_again (r : MakeRun) (hc : ∀ c ∈ r.cwd, validName c) (d : RootData) (list : List Str) (binary : Str)
    (flags files : List Str) (ok : RegenOk r binary flags files (buildFileSet r d list))
    (ht : walk r.cwd.reverse r.toplevel = r.cwd.reverse ∨ r.generatorOutput = [] ∧ d.home = none)
    (v : MakeVars) (hv : aget v c!"srcdir" = some (rootSrcdir r)) (hne : rootSrcdir r ≠ []) :
    ∃ command prereqs, readRegen (regenText r binary flags files (buildFileSet r d list)) =
        some (command, [.rule [c!"Makefile" ++ r.suffix] prereqs [] [c!"$(call do_cmd,regen_makefile)"]]) ∧
      ∀ l, (∃ p ∈ prereqs, walk (rootDir r) (expand v p) = l) ↔ SourceFile r d list l := by
  refine ⟨_, _, regen_read ok, fun l => ?_⟩
  rw [← mem_buildFileSet hc d (by tauto)]
  constructor
  · rintro ⟨p, hp, rfl⟩
    obtain ⟨f, hf, rfl⟩ := List.mem_map.mp hp
    exact ⟨f, hf, (walk_rootSource hc (by tauto) hne hv (ok.prereqs f hf).2).symm⟩
  · rintro ⟨f, hf, rfl⟩
    exact ⟨_, List.mem_map_of_mem hf, walk_rootSource hc (by tauto) hne hv (ok.prereqs f hf).2⟩

theorem walk_regenBinary {r : MakeRun} (hc : ∀ c ∈ r.cwd, validName c) (binary : Str) :
    walk (walk r.cwd.reverse r.toplevel) (regenBinary r binary) = walk r.cwd.reverse binary := by
  have h : walk (walk r.cwd.reverse r.toplevel) (FixIfRelativePath r.cwd binary r.toplevel) =
      walk r.cwd.reverse binary := by
    unfold FixIfRelativePath
    split
    · rename_i ha
      exact walk_abs ha _ _
    · exact walk_RelativePath hc _ _
  unfold regenBinary
  dsimp only
  split
  · exact h
  · rw [walk_join]
    exact h

/-- C81: the command that makes it again: the shell goes to the top directory and runs the same program
with `-fmake`, the given options and the same build files. -/
theorem C81_command (r : MakeRun) (hc : ∀ c ∈ r.cwd, validName c) (binary : Str)
    (flags files buildFiles : List Str) (ok : RegenOk r binary flags files buildFiles)
    (ht : walk r.cwd.reverse r.toplevel = r.cwd.reverse ∨ r.generatorOutput = [])
    (v : MakeVars) (hv : valueOf v c!"srcdir" = rootSrcdir r) (hp : PlainWord (rootSrcdir r)) (prereqs : List Str) :
    ∃ text items line dir program files', readRegen (regenText r binary flags files buildFiles) = some (text, items) ∧
      commandLine v [] (c!"Makefile" ++ r.suffix) prereqs text = some line ∧
      shellCommands line = some [[c!"cd", dir], program :: c!"-fmake" :: flags ++ files'] ∧
      walk (walk (rootDir r) dir) program = walk r.cwd.reverse binary ∧
      List.Forall₂ (fun f' f => walk (walk (rootDir r) dir) f' = walk r.cwd.reverse f) files' files := by
  obtain ⟨h, y, t1, -, -, w1⟩ := args_encoded (target := []) (env := fun _ => []) (by simp [LineText]) rfl (regen_args ok _)
  obtain ⟨-, rfl⟩ := t1.same (regen_dollar ok)
  refine ⟨_, _, c!"cd " ++ rootSrcdir r ++ c!"; " ++ EncodePOSIXShellList ([regenBinary r binary, c!"-fmake"] ++ flags ++
      files.map fun f => RelativePath r.cwd f r.toplevel), rootSrcdir r, regenBinary r binary,
    files.map fun f => RelativePath r.cwd f r.toplevel, regen_read ok, ?_, ?_, ?_, ?_⟩
  · unfold commandLine regenCommand
    have henv : recipeEnv v [] (c!"Makefile" ++ r.suffix) prereqs c!"srcdir" = rootSrcdir r := by
      rw [← hv]
      rfl
    have h1 := deep_ref (recipeEnv v [] (c!"Makefile" ++ r.suffix) prereqs) (n := c!"srcdir") (by unfold NameText; decide)
    rw [henv] at h1
    exact deep_append (deep_append (deep_append (a := c!"cd ") (deep_plain _ (by decide)) h1) (deep_plain _ (by decide)))
      (deep_plain _ (regen_dollar ok))
  · refine script_cons (ws := [c!"cd", rootSrcdir r]) ?_ (script_one w1)
    exact words_append (a := c!"cd") (words_plain (by unfold PlainWord; decide)) (words_plain hp)
  · rw [walk_srcdir hc (by tauto)]
    exact walk_regenBinary hc binary
  · rw [walk_srcdir hc (by tauto)]
    rw [List.forall₂_map_left_iff]
    exact List.forall₂_same.mpr fun f _ => walk_RelativePath hc f r.toplevel

/-- C81: the program reads the command as it reads the options alone (for which the settings are the
same, C58), for the makefile generator and the build files. -/
theorem C81_options (E : OptEnv) (o : Options) (hr : Regenerable E o) (files : List Str)
    (hf : ∀ f ∈ files, f.head? ≠ some '-') :
    ∃ o', parseArgs gypOptions (RegenerateFlags E o) = .ok (o', []) ∧
      parseArgs gypOptions (c!"-fmake" :: RegenerateFlags E o ++ files) =
        .ok (o'.set c!"formats" (.many [c!"make"]), files) := by
  refine ⟨_, parse_regenerated E o hr, ?_⟩
  have hfiles : ∀ (files : List Str), (∀ f ∈ files, f.head? ≠ some '-') → ∀ s : ParseState, s.pending = none →
      s.stop = false → files.foldlM (parseStep gypOptions) s = .ok { s with extras := s.extras ++ files } := by
    intro files
    induction files with
    | nil => intro _ s _ _; rw [List.append_nil]; rfl
    | cons f files ih =>
      intro hf s hp hs
      have h1 : parseStep gypOptions s f = .ok { s with extras := s.extras ++ [f] } := by
        unfold parseStep
        rw [hs, hp]
        have hne : f ≠ c!"--" := by
          rintro rfl
          exact hf c!"--" (by simp) rfl
        have hpos : classifyArg gypOptions f = .positional := by
          unfold classifyArg
          rw [if_pos (hf f (by simp))]
        simp only [Bool.false_eq_true, if_false, if_neg hne, hpos]
      rw [List.foldlM_cons, h1]
      show files.foldlM (parseStep gypOptions) _ = _
      rw [ih (fun g hg => hf g (by simp [hg])) _ (by exact hp) (by exact hs)]
      simp
  unfold parseArgs RegenerateFlags
  have h0 : parseStep gypOptions ⟨defaultOptions gypOptions, [], none, false⟩ c!"-fmake" =
      .ok ⟨(defaultOptions gypOptions).set c!"formats" (.many [c!"make"]), [], none, false⟩ := by
    unfold parseStep
    have : classifyArg gypOptions c!"-fmake" = .opt
      ⟨c!"formats", [c!"-f", c!"--format"], .append, false, some c!"GYP_GENERATORS", false, .none⟩ (some c!"make") := by
      decide +kernel
    rw [this]
    have h2 : defaultOptions gypOptions c!"formats" = .none := by decide +kernel
    simp [takeValue, h2]
  have h1 : parseStep gypOptions ⟨(defaultOptions gypOptions).set c!"formats" (.many [c!"make"]), [], none, false⟩
      c!"--ignore-environment" = .ok ⟨((defaultOptions gypOptions).set c!"formats" (.many [c!"make"])).set
        c!"use_environment" (.flag false), [], none, false⟩ := by
    unfold parseStep
    have : classifyArg gypOptions c!"--ignore-environment" = .opt
      ⟨c!"use_environment", [c!"--ignore-environment"], .storeFalse, false, none, false, .flag true⟩ none := by
      decide +kernel
    rw [this]
    rfl
  have h2 := specs_flags E o regenSpecs (by decide +kernel) (all_read_back E o hr)
    ⟨((defaultOptions gypOptions).set c!"formats" (.many [c!"make"])).set c!"use_environment" (.flag false), [], none, false⟩
    rfl rfl (by decide +kernel)
  unfold regenSpecs at h2
  have hall := fun o => hfiles files hf ⟨o, [], none, false⟩ rfl rfl
  have h3 := List.foldlM_append (m := Except ParseErr) (f := parseStep gypOptions)
    (b := ⟨((defaultOptions gypOptions).set c!"formats" (.many [c!"make"])).set c!"use_environment" (.flag false), [],
      none, false⟩) (l := (gypOptions.filter (·.regenerate)).flatMap (regenerateOne E o)) (l' := files)
  rw [h2] at h3
  have hb : ∀ (s : ParseState) (g : ParseState → Except ParseErr ParseState), (Except.ok s >>= g) = g s := fun _ _ => rfl
  rw [List.cons_append, List.foldlM_cons, h0, hb, List.cons_append, List.foldlM_cons, h1, hb, h3, hb, hall]
  simp only [List.nil_append, if_true]
  congr 2
  funext d
  unfold regenSpecs Options.set
  by_cases hd : d = c!"formats"
  · subst hd
    have : (gypOptions.filter (·.regenerate)).find? (fun sp => decide (sp.dest = c!"formats")) = none := by decide +kernel
    rw [this]
    simp
  · simp [hd]

/-! ### The makefiles of build files -/

theorem build_file_prefix {q b : Str} (h : BuildFile q = some b) : startsWith q b = true := by
  have : ∃ t, q = b ++ ':' :: t := by
    unfold BuildFile ParseQualifiedTarget at h
    cases e : rsplit1 ':' q with
    | none =>
      rw [e] at h
      dsimp only at h
      split at h <;> cases h
    | some p =>
      obtain ⟨b', t⟩ := p
      rw [e] at h
      dsimp only at h
      refine ⟨t, ?_⟩
      have hb : b' = b := by split at h <;> exact Option.some.inj h
      rw [← hb]
      exact (rsplit1_some e).1
  obtain ⟨t, rfl⟩ := this
  unfold startsWith
  exact List.isPrefixOf_iff_prefix.mpr (List.prefix_append _ _)

/-- C81: the makefile of a build file has the goal `all`, for which make is run in the directory of
the root makefile for the names of the targets of that build file that are needed, if no other build
file has a name that begins the same.  Build files are given relative to the depth. -/
theorem C81_sub (r : MakeRun) (hc : ∀ c ∈ r.cwd, validName c) (hs : '/' ∉ r.suffix)
    (dicts : List (Str × MkSpec)) (list needed : List Str) (builddir : Str) (buildFiles : List Str)
    (path : Str) (lines : List Str) (h : (path, lines) ∈ subMakefiles r dicts list needed builddir buildFiles)
    (hnames : ∀ q spec, aget dicts q = some spec → PlainWord spec.targetName)
    (hroot : RelativePath r.cwd (dirname (rootPath r)) (dirname path) = [] ∨
      PlainWord (RelativePath r.cwd (dirname (rootPath r)) (dirname path)))
    (v : MakeVars) (make : Str) (hmake : valueOf v c!"MAKE" = make) (hplain : PlainWord make) :
    ∃ f ∈ buildFiles, ∃ first rest recipe line opts targets, lines = first :: rest ∧
      walk r.cwd.reverse (subBuildFile r f) = walk (walk r.cwd.reverse r.depth) f ∧
      readMakefile (writeLines rest) = some [.rule [c!".PHONY"] [c!"all"] [] [], .rule [c!"all"] [] [] [recipe]] ∧
      commandLine v [] c!"all" [] recipe = some line ∧ shellWords line = some (make :: opts ++ targets) ∧
      (opts = [] ∧ walk r.cwd.reverse (dirname path) = rootDir r ∨
        ∃ dir, opts = [c!"-C", dir] ∧ walk (walk r.cwd.reverse (dirname path)) dir = rootDir r) ∧
      ((∀ q ∈ list, startsWith q (subBuildFile r f) = true → BuildFile q = some (subBuildFile r f)) →
        ∀ n, n ∈ targets ↔ ∃ q ∈ list, BuildFile q = some (subBuildFile r f) ∧ q ∈ needed ∧
          ∃ spec, aget dicts q = some spec ∧ spec.targetName = n) := by
  unfold subMakefiles at h
  obtain ⟨f, hf, e⟩ := List.mem_filterMap.mp h
  dsimp only at e
  split at e
  · cases e
  rename_i hne
  obtain ⟨rfl, rfl⟩ := Prod.mk.inj (Option.some.inj e)
  generalize hT : subTargets dicts list needed (subBuildFile r f) = targets at hne ⊢
  generalize hR : RelativePath r.cwd (dirname (rootPath r)) (dirname (subPath r (subBuildFile r f))) = root at hroot ⊢
  have hwalk : walk (walk r.cwd.reverse (dirname (subPath r (subBuildFile r f)))) root = rootDir r := by
    rw [← hR, walk_RelativePath hc, walk_rootDir hs]
  have hplains : ∀ t ∈ targets, PlainWord t := by
    intro t ht
    rw [← hT] at ht
    obtain ⟨q, -, e⟩ := List.mem_filterMap.mp ht
    obtain ⟨spec, hspec, rfl⟩ := Option.map_eq_some_iff.mp e
    exact hnames q spec hspec
  have hmem : (∀ q ∈ list, startsWith q (subBuildFile r f) = true → BuildFile q = some (subBuildFile r f)) →
      ∀ n, n ∈ targets ↔ ∃ q ∈ list, BuildFile q = some (subBuildFile r f) ∧ q ∈ needed ∧
          ∃ spec, aget dicts q = some spec ∧ spec.targetName = n := by
    intro hpre n
    rw [← hT]
    unfold subTargets
    simp only [List.mem_filterMap, List.mem_filter, Bool.and_eq_true, decide_eq_true_eq, Option.map_eq_some_iff]
    constructor
    · rintro ⟨q, ⟨hq, h1, h2⟩, spec, h3, h4⟩
      exact ⟨q, hq, hpre q hq h1, h2, spec, h3, h4⟩
    · rintro ⟨q, hq, h1, h2, spec, h3, h4⟩
      exact ⟨q, ⟨hq, build_file_prefix h1, h2⟩, spec, h3, h4⟩
  have htext : ∀ x, PlainWord x → '$' ∉ x ∧ '\n' ∉ x ∧ x.getLast? ≠ some '\\' := by
    intro x hx
    refine ⟨fun hm => ?_, fun hm => ?_, fun hl => ?_⟩
    · exact absurd (hx.2 _ hm).1 (by decide)
    · exact absurd (hx.2 _ hm).1 (by decide)
    · exact (hx.2 _ (List.mem_of_getLast? hl)).2 (by simp)
  have hjoin : ∀ c ∈ ['$', '\n'], c ∉ joinWith [' '] targets := by
    intro c hc hm
    rcases mem_joinWith_blank hm with h | ⟨y, hy, h⟩
    · subst h; revert hc; decide
    · have := htext y (hplains y hy)
      simp only [List.mem_cons, List.not_mem_nil, or_false] at hc
      rcases hc with rfl | rfl
      · exact this.1 h
      · exact this.2.1 h
  have hwords := plain_words hplains
  have hback : '\\' ∉ c!" " ++ joinWith [' '] targets := by
    rw [List.mem_append, not_or]
    refine ⟨by decide, fun hm => ?_⟩
    rcases mem_joinWith_blank hm with h | ⟨y, hy, h⟩
    · cases h
    · exact ((hplains y hy).2 _ h).2 (by simp)
  have hmakeW : recipeEnv v [] c!"all" [] c!"MAKE" = make := by
    rw [← hmake]
    rfl
  have href := deep_ref (recipeEnv v [] c!"all" []) (n := c!"MAKE") (by unfold NameText; decide)
  rw [hmakeW] at href
  have hread : ∀ mid : Str, '\n' ∉ mid → readMakefile (writeLines [c!".PHONY: all", c!"all:",
      c!"\t$(MAKE)" ++ mid ++ c!" " ++ joinWith [' '] targets]) =
      some [.rule [c!".PHONY"] [c!"all"] [] [],
        .rule [c!"all"] [] [] [c!"$(MAKE)" ++ mid ++ c!" " ++ joinWith [' '] targets]] := by
    intro mid hm
    refine readMakefile_lines _ ?_ _ ?_
    · intro l hl
      simp only [List.mem_cons, List.not_mem_nil, or_false] at hl
      rcases hl with rfl | rfl | rfl
      · exact ⟨by decide, by decide⟩
      · exact ⟨by decide, by decide⟩
      · refine ⟨?_, ?_⟩
        · simp only [List.mem_append, not_or]
          exact ⟨⟨⟨by decide, hm⟩, by decide⟩, hjoin _ (by decide)⟩
        · rw [List.append_assoc, List.getLast?_append]
          cases e : (c!" " ++ joinWith [' '] targets).getLast? with
          | none => simp at e
          | some c =>
            rintro e'
            have e2 : some c = some '\\' := e'
            cases e2
            exact hback (List.mem_of_getLast? e)
    · rfl
  have hfile : walk r.cwd.reverse (subBuildFile r f) = walk (walk r.cwd.reverse r.depth) f := by
    unfold subBuildFile
    rw [walk_join]
    have h1 := walk_RelativePath hc r.depth (cwdStr r.cwd)
    rw [walk_cwdStr hc] at h1
    rw [h1]
  rcases hroot with hroot | hroot
  · refine ⟨f, hf, _, _, c!"$(MAKE)" ++ [] ++ c!" " ++ joinWith [' '] targets, make ++ [] ++ c!" " ++ joinWith [' '] targets,
      [], targets, rfl, hfile, ?_, ?_, ?_, Or.inl ⟨rfl, ?_⟩, hmem⟩
    · rw [hR, if_pos hroot]
      exact hread [] (by simp)
    · exact deep_append (deep_append (deep_append href (deep_nil _)) (deep_plain _ (by decide)))
        (deep_plain _ (hjoin _ (by decide)))
    · have := words_append (words_plain hplain) hwords
      simpa using this
    · rw [hroot] at hwalk
      exact hwalk
  · refine ⟨f, hf, _, _, c!"$(MAKE)" ++ (c!" -C " ++ root) ++ c!" " ++ joinWith [' '] targets,
      make ++ (c!" -C " ++ root) ++ c!" " ++ joinWith [' '] targets,
      [c!"-C", root], targets, rfl, hfile, ?_, ?_, ?_, Or.inr ⟨root, rfl, hwalk⟩, hmem⟩
    · rw [hR, if_neg hroot.1]
      refine hread (c!" -C " ++ root) ?_
      rw [List.mem_append, not_or]
      exact ⟨by decide, (htext _ hroot).2.1⟩
    · exact deep_append (deep_append (deep_append href (deep_append (deep_plain _ (by decide))
        (deep_plain _ (htext _ hroot).1))) (deep_plain _ (by decide))) (deep_plain _ (hjoin _ (by decide)))
    · have h1 := words_append (words_plain hplain) (words_append (a := c!"-C") (words_plain (by unfold PlainWord; decide))
        (words_append (words_plain hroot) hwords))
      simpa using h1

/-! ### Examples -/

def exampleRoot : MakeRun :=
  { cwd := [c!"home", c!"p"], flavor := c!"linux", depth := c!".", toplevel := c!".", generatorOutput := c!"build"
    sha1 := fun _ => c!"d1" }

def exampleRootList : List Str := [c!"deps/z.gyp:z#target", c!"binding.gyp:addon#target", c!"binding.gyp:tool#host"]

def exampleRootData : RootData :=
  { included := fun b => if b = c!"binding.gyp" then [c!"../node/common.gypi", c!"build/config.gypi"] else []
    home := some c!"/home/.gyp" }

def exampleRootPaths : List Str :=
  [makefilePath exampleRoot c!"deps/z.gyp" (makefileName exampleRoot c!"z" c!"target"),
   makefilePath exampleRoot c!"binding.gyp" (makefileName exampleRoot c!"addon" c!"target"),
   makefilePath exampleRoot c!"binding.gyp" (makefileName exampleRoot c!"tool" c!"host")]

theorem exampleRoot_valid : ∀ c ∈ exampleRoot.cwd, validName c := by decide

example : includeList exampleRoot exampleRootPaths = [c!"addon.target.mk", c!"deps/z.target.mk", c!"tool.host.mk"] := by
  decide +kernel

example : readIncludes [] ((includeList exampleRoot exampleRootPaths).flatMap includeLines) =
    some [c!"addon.target.mk", c!"deps/z.target.mk", c!"tool.host.mk"] := by decide +kernel

/-- The makefiles of the example are in different places, and are all read. -/
example (a b c : List MkLine) : ∃ order : List (Str × List MkLine),
    order.Perm (exampleRootPaths.zip [a, b, c]) ∧
    contentsRead exampleRoot (diskAfter exampleRoot.cwd (exampleRootPaths.zip [a, b, c]))
      (includeList exampleRoot exampleRootPaths) = order.map fun f => some f.2 := by
  have := C81_read exampleRoot exampleRoot_valid (by decide) (exampleRootPaths.zip [a, b, c])
    (by
      show (exampleRootPaths.map fun p => walk exampleRoot.cwd.reverse p).Nodup
      decide +kernel)
  exact this

/-- Targets of a build file below the depth are apart, with output elsewhere. -/
example : OwnPlaces exampleRoot exampleRootList ∧
    (∀ q ∈ exampleRootList, ∀ b n s, NamedTarget q b n s → '/' ∉ n ++ s ∧ '.' ∉ s) := by
  have h : ∀ q ∈ exampleRootList, ∀ b n s, NamedTarget q b n s →
      (b, n, s) ∈ [(c!"deps/z.gyp", c!"z", c!"target"), (c!"binding.gyp", c!"addon", c!"target"),
        (c!"binding.gyp", c!"tool", c!"host")] := by
    intro q hq b n s h
    simp only [exampleRootList, List.mem_cons, List.not_mem_nil, or_false] at hq
    unfold NamedTarget at h
    rcases hq with rfl | rfl | rfl
    · rw [show ParseQualifiedTarget c!"deps/z.gyp:z#target" = (some c!"deps/z.gyp", c!"z", some c!"target") from rfl] at h
      cases h; decide
    · rw [show ParseQualifiedTarget c!"binding.gyp:addon#target" = (some c!"binding.gyp", c!"addon", some c!"target") from rfl] at h
      cases h; decide
    · rw [show ParseQualifiedTarget c!"binding.gyp:tool#host" = (some c!"binding.gyp", c!"tool", some c!"host") from rfl] at h
      cases h; decide
  refine ⟨Or.inr ⟨by decide, by decide +kernel, ?_⟩, ?_⟩
  · intro q hq b n s hn
    have := h q hq b n s hn
    simp only [List.mem_cons, List.not_mem_nil, or_false, Prod.mk.injEq] at this
    rcases this with ⟨rfl, -⟩ | ⟨rfl, -⟩ | ⟨rfl, -⟩
    · exact ⟨by decide, [c!"deps"], by decide +kernel⟩
    · exact ⟨by decide, [], by decide +kernel⟩
    · exact ⟨by decide, [], by decide +kernel⟩
  · intro q hq b n s hn
    have := h q hq b n s hn
    simp only [List.mem_cons, List.not_mem_nil, or_false, Prod.mk.injEq] at this
    rcases this with ⟨rfl, rfl, rfl⟩ | ⟨rfl, rfl, rfl⟩ | ⟨rfl, rfl, rfl⟩ <;> decide

def exampleRegenFlags : List Str := [c!"--ignore-environment", c!"-Dname=a b", c!"--depth=."]

theorem exampleRegen : RegenOk exampleRoot c!"gyp/gyp_main.py" exampleRegenFlags [c!"binding.gyp"]
    (buildFileSet exampleRoot exampleRootData exampleRootList) where
  suffix := by decide
  prereqs := by unfold RuleName; decide +kernel
  args := by decide +kernel
  last := by
    have : (exampleRegenFlags ++ [c!"binding.gyp"].map fun f => RelativePath exampleRoot.cwd f exampleRoot.toplevel).getLast? =
        some c!"binding.gyp" := by decide +kernel
    intro x hx
    rw [this] at hx
    cases hx
    decide

example : ∃ command prereqs, readRegen (regenText exampleRoot c!"gyp/gyp_main.py" exampleRegenFlags [c!"binding.gyp"]
      (buildFileSet exampleRoot exampleRootData exampleRootList)) =
        some (command, [.rule [c!"Makefile"] prereqs [] [c!"$(call do_cmd,regen_makefile)"]]) ∧
      ∀ l, (∃ p ∈ prereqs, walk (rootDir exampleRoot) (expand [(c!"srcdir", c!"..")] p) = l) ↔
        SourceFile exampleRoot exampleRootData exampleRootList l :=
  C81_again exampleRoot exampleRoot_valid exampleRootData exampleRootList _ _ _ exampleRegen
    (Or.inl (by decide +kernel)) [(c!"srcdir", c!"..")] (by decide +kernel) (by decide +kernel)

example : regenText exampleRoot c!"gyp/gyp_main.py" exampleRegenFlags [c!"binding.gyp"]
      (buildFileSet exampleRoot exampleRootData exampleRootList) =
    c!"quiet_cmd_regen_makefile = ACTION Regenerating $@\n" ++
    c!"cmd_regen_makefile = cd $(srcdir); ./gyp/gyp_main.py -fmake --ignore-environment \"-Dname=a b\" \"--depth=.\" binding.gyp\n" ++
    c!"Makefile: $(srcdir)/deps/z.gyp $(srcdir)/binding.gyp $(srcdir)/../node/common.gypi $(srcdir)/build/config.gypi\n" ++
    c!"\t$(call do_cmd,regen_makefile)\n\n" := by decide +kernel

example (prereqs : List Str) : ∃ text items line dir program files', readRegen (regenText exampleRoot c!"gyp/gyp_main.py"
        exampleRegenFlags [c!"binding.gyp"] (buildFileSet exampleRoot exampleRootData exampleRootList)) = some (text, items) ∧
      commandLine [(c!"srcdir", c!"..")] [] c!"Makefile" prereqs text = some line ∧
      shellCommands line = some [[c!"cd", dir], program :: c!"-fmake" :: exampleRegenFlags ++ files'] ∧
      walk (walk (rootDir exampleRoot) dir) program = walk exampleRoot.cwd.reverse c!"gyp/gyp_main.py" ∧
      List.Forall₂ (fun f' f => walk (walk (rootDir exampleRoot) dir) f' = walk exampleRoot.cwd.reverse f) files'
        [c!"binding.gyp"] :=
  C81_command exampleRoot exampleRoot_valid _ _ _ _ exampleRegen (Or.inl (by decide +kernel)) [(c!"srcdir", c!"..")]
    (by decide +kernel) (by unfold PlainWord; decide +kernel) prereqs

def exampleSubDicts : List (Str × MkSpec) :=
  [(c!"./a.gyp:x#target", utilSpec), (c!"./a.gyp:y#target", utilSpec), (c!"./a.gyp2:z#target", { utilSpec with targetName := c!"z" })]

example : subMakefiles { exampleRoot with generatorOutput := [] } [(c!"binding.gyp:util#target", utilSpec)]
      [c!"binding.gyp:util#target"] [c!"binding.gyp:util#target"] c!"out" [c!"binding.gyp"] =
    [(c!"./binding.Makefile", [c!"export builddir_name ?= ./out", c!".PHONY: all", c!"all:", c!"\t$(MAKE) util"])] := by
  decide +kernel

/-! ### What the code does not do -/

/-- C81, what the code does not do: if the output goes to the top directory itself, `srcdir` is empty:
the root makefile waits for a file in the root directory of the disk, and is made again in the home
directory. -/
theorem C81_same_directory : ∃ (r : MakeRun) (line : Str), rootDir r = r.cwd.reverse ∧ rootSrcdir r = [] ∧
    regenRule r [c!"binding.gyp"] = c!"Makefile: $(srcdir)/binding.gyp\n\t$(call do_cmd,regen_makefile)\n\n" ∧
    expand [(c!"srcdir", rootSrcdir r)] c!"$(srcdir)/binding.gyp" = c!"/binding.gyp" ∧
    commandLine [(c!"srcdir", rootSrcdir r)] [] c!"Makefile" [] (regenCommand r c!"gyp.py" [] [c!"binding.gyp"]) = some line ∧
    shellCommands line = some [[c!"cd"], [c!"./gyp.py", c!"-fmake", c!"binding.gyp"]] :=
  ⟨{ exampleRoot with generatorOutput := c!"." }, c!"cd ; ./gyp.py -fmake binding.gyp", by decide +kernel, by decide +kernel,
    by decide +kernel, by decide +kernel, by decide +kernel, by decide +kernel⟩

/-- C81, what the code does not do: an option with `#` ends the command. -/
theorem C81_number_sign : ∃ items, readRegen (regenText exampleRoot c!"gyp.py" [c!"-Dcolor=#fff"] [c!"binding.gyp"]
      [c!"binding.gyp"]) = some (c!"cd $(srcdir); ./gyp.py -fmake \"-Dcolor=", items) := by
  refine ⟨[.rule [c!"Makefile"] [c!"$(srcdir)/binding.gyp"] [] [c!"$(call do_cmd,regen_makefile)"]], ?_⟩
  decide +kernel

/-- C81, what the code does not do: a makefile whose path has a blank is not read, but two other
files. -/
theorem C81_blank : readIncludes [] (includeLines c!"my lib/a.target.mk") = some [c!"my", c!"lib/a.target.mk"] := by
  decide +kernel

/-- C81, what the code does not do: the makefile of a build file also makes the targets of others
whose name begins the same. -/
theorem C81_prefix : subTargets exampleSubDicts [c!"./a.gyp:x#target", c!"./a.gyp2:z#target"]
      [c!"./a.gyp:x#target", c!"./a.gyp2:z#target"] c!"./a.gyp" = [c!"util", c!"z"] ∧
    BuildFile c!"./a.gyp2:z#target" ≠ some c!"./a.gyp" := by decide +kernel

end Gyp
