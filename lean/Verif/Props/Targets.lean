import Verif.Model.Targets
import Verif.Spec.Targets
import Verif.Spec.Path
import Verif.Proofs.Path
/-
C01, C02, C03: target names and relative paths.
-/
namespace Gyp
open Gyp.Spec

/-! ## C01 -/

/-- C01: a qualified name parses back into the parts it was built from. -/
theorem C01_qualified_roundtrip (buildFile target toolset : Str)
    (ht : ':' ∉ target) (hs : ':' ∉ toolset) (hh : '#' ∉ toolset) (hne : toolset ≠ []) :
    ParseQualifiedTarget (QualifiedTarget buildFile target (some toolset)) =
      (some buildFile, target, some toolset) := by
  unfold ParseQualifiedTarget QualifiedTarget
  simp only [if_neg hne]
  have h1 : ':' ∉ target ++ '#' :: toolset := by simp [ht, hs]
  rw [show buildFile ++ ':' :: target ++ '#' :: toolset =
    buildFile ++ ':' :: (target ++ '#' :: toolset) by simp]
  rw [rsplit1_append h1]
  simp only
  rw [rsplit1_append hh]

example : ParseQualifiedTarget (QualifiedTarget c!"C:/a#b/x.gyp" c!"t#1" (some c!"host")) =
    (some c!"C:/a#b/x.gyp", c!"t#1", some c!"host") :=
  C01_qualified_roundtrip _ _ _ (by decide) (by decide) (by decide) (by decide)

/-- C01 without a toolset (`None` or the empty string). -/
theorem C01_qualified_roundtrip_no_toolset (buildFile target : Str) (toolset : Option Str)
    (hts : toolset = none ∨ toolset = some []) (ht : ':' ∉ target) (hh : '#' ∉ target) :
    ParseQualifiedTarget (QualifiedTarget buildFile target toolset) =
      (some buildFile, target, none) := by
  have : QualifiedTarget buildFile target toolset = buildFile ++ ':' :: target := by
    rcases hts with rfl | rfl <;> simp [QualifiedTarget]
  rw [this]
  unfold ParseQualifiedTarget
  rw [rsplit1_append ht]
  simp only
  rw [rsplit1_none_iff.mpr hh]

example : ParseQualifiedTarget (QualifiedTarget c!"a:b.gyp" c!"t" none) =
    (some c!"a:b.gyp", c!"t", none) :=
  C01_qualified_roundtrip_no_toolset _ _ _ (Or.inl rfl) (by decide) (by decide)

/-- C01: different (build file, target, toolset) triples never share a name. -/
theorem C01_qualified_injective (b t s b' t' s' : Str)
    (ht : ':' ∉ t) (hs : ':' ∉ s) (hh : '#' ∉ s) (hne : s ≠ [])
    (ht' : ':' ∉ t') (hs' : ':' ∉ s') (hh' : '#' ∉ s') (hne' : s' ≠ [])
    (he : QualifiedTarget b t (some s) = QualifiedTarget b' t' (some s')) :
    b = b' ∧ t = t' ∧ s = s' := by
  have h1 := C01_qualified_roundtrip b t s ht hs hh hne
  have h2 := C01_qualified_roundtrip b' t' s' ht' hs' hh' hne'
  rw [he, h2] at h1
  simp only [Prod.mk.injEq, Option.some.injEq] at h1
  exact ⟨h1.1.symm, h1.2.1.symm, h1.2.2.symm⟩

example : QualifiedTarget c!"a" c!"b" (some c!"c") ≠ QualifiedTarget c!"a" c!"b" (some c!"d") :=
  fun h => absurd (C01_qualified_injective _ _ _ _ _ _ (by decide) (by decide) (by decide)
    (by decide) (by decide) (by decide) (by decide) (by decide) h).2.2 (by decide)

/-- C01: parsing any unambiguous written reference yields its parts. -/
theorem C01_parse_text (r : Ref) (h : r.wf) :
    ParseQualifiedTarget r.text = (r.file, r.target, r.toolset) := by
  obtain ⟨file, target, toolset⟩ := r
  obtain ⟨ht, hs⟩ := h
  simp only at ht hs
  cases toolset with
  | none =>
    simp only at hs
    cases file with
    | none =>
      simp [Ref.text, ParseQualifiedTarget, rsplit1_none_iff.mpr ht, rsplit1_none_iff.mpr hs]
    | some f =>
      simp [Ref.text, ParseQualifiedTarget, rsplit1_append ht, rsplit1_none_iff.mpr hs]
  | some ts =>
    simp only at hs
    have h1 : ':' ∉ target ++ '#' :: ts := by simp [ht, hs.2]
    cases file with
    | none =>
      simp [Ref.text, ParseQualifiedTarget, rsplit1_none_iff.mpr h1, rsplit1_append hs.1]
    | some f =>
      simp [Ref.text, ParseQualifiedTarget, rsplit1_append h1, rsplit1_append hs.1]

/-- C01: every string is the written form of what it parses into; nothing is
lost. -/
theorem C01_text_parse (s : Str) :
    let r := ParseQualifiedTarget s
    (Ref.mk r.1 r.2.1 r.2.2).text = s ∧ (Ref.mk r.1 r.2.1 r.2.2).wf := by
  unfold ParseQualifiedTarget
  cases h1 : rsplit1 ':' s with
  | none =>
    simp only
    have hs := rsplit1_none_iff.mp h1
    cases h2 : rsplit1 '#' s with
    | none => simp [Ref.text, Ref.wf, hs, rsplit1_none_iff.mp h2]
    | some p =>
      obtain ⟨a, b⟩ := p
      obtain ⟨h3, h4⟩ := rsplit1_some h2
      have : ':' ∉ a ∧ ':' ∉ b := by
        rw [h3] at hs; simp at hs; exact hs
      simp [Ref.text, Ref.wf, h3, h4, this]
  | some q =>
    obtain ⟨f, t⟩ := q
    obtain ⟨h5, h6⟩ := rsplit1_some h1
    simp only
    cases h2 : rsplit1 '#' t with
    | none => simp [Ref.text, Ref.wf, h5, h6, rsplit1_none_iff.mp h2]
    | some p =>
      obtain ⟨a, b⟩ := p
      obtain ⟨h3, h4⟩ := rsplit1_some h2
      have : ':' ∉ a ∧ ':' ∉ b := by
        rw [h3] at h6; simp at h6; exact h6
      simp [Ref.text, Ref.wf, h5, h3, h4, this]

/-! ## C03 -/

/-- C03: seen from directory `dir`, the computed relative path denotes `path`.
`cwd` is the current directory; `walk` is the operating system's reading of a
path. -/
theorem C03_relative_path_denotes (cwd : List Str) (hc : ∀ c ∈ cwd, validName c)
    (path dir : Str) :
    let here := cwd.reverse
    walk here (pathJoin dir (RelativePath cwd path dir)) = walk here path := by
  intro here
  rw [walk_join]
  exact walk_RelativePath hc path dir

example : walk [] (pathJoin c!"/a/b/c" (RelativePath [] c!"/a/x/../d" c!"/a/b/c")) =
    [c!"d", c!"a"] :=
  (C03_relative_path_denotes [] (by simp) c!"/a/x/../d" c!"/a/b/c").trans (by decide)

/-- C03: the relative path is empty exactly when both denote the same place
(for paths not written with a double slash in front, which POSIX leaves
implementation-defined). -/
theorem C03_relative_path_empty_iff (cwd : List Str) (hc : ∀ c ∈ cwd, validName c)
    (path dir : Str) (hp : startsWith path c!"//" = false) (hd : startsWith dir c!"//" = false) :
    let here := cwd.reverse
    RelativePath cwd path dir = [] ↔ walk here path = walk here dir := by
  intro here
  constructor
  · intro h
    have := walk_RelativePath hc path dir
    rw [h, walk_nil] at this
    exact this.symm
  · intro h
    exact RelativePath_same (abspath_congr hc hp hd h)

/-- C03: the relative path climbs exactly to the deepest common ancestor and
then descends, as text, when neither place is the root. -/
theorem C03_relative_path_minimal (cwd : List Str) (hc : ∀ c ∈ cwd, validName c)
    (path dir : Str) (hp : startsWith path c!"//" = false) (hd : startsWith dir c!"//" = false)
    (hpr : walk cwd.reverse path ≠ []) (hdr : walk cwd.reverse dir ≠ []) :
    ∃ common up down,
      (walk cwd.reverse dir).reverse = common ++ up ∧
      (walk cwd.reverse path).reverse = common ++ down ∧
      (up = [] ∨ down = [] ∨ up.head? ≠ down.head?) ∧
      RelativePath cwd path dir =
        joinWith c!"/" (List.replicate up.length c!".." ++ down) :=
  RelativePath_text hc hp hd hpr hdr

example : RelativePath [c!"home"] c!"a/b" c!"/home/c" = c!"../a/b" := by decide

/-- The root is the exception to minimality: one superfluous `..`. -/
theorem C03_root_not_minimal : RelativePath [] c!"/a" c!"/" = c!"../a" := by decide

/-- C03: `InvertRelativePath` leads back from `toplevel/path` to `toplevel`. -/
theorem C03_invert_relative_path (cwd : List Str) (hc : ∀ c ∈ cwd, validName c)
    (path : Str) (toplevel : Option Str) (hne : path ≠ []) :
    let here := cwd.reverse
    let top := toplevel.getD c!"."
    walk (walk here (pathJoin top path)) (InvertRelativePath cwd path toplevel) =
      walk here top := by
  intro here top
  unfold InvertRelativePath
  rw [if_neg hne]
  cases toplevel <;> exact walk_RelativePath hc top (pathJoin top path)

example : InvertRelativePath [c!"r"] c!"out/Debug" none = c!"../.." := by decide

/-- C03: `dirname` of a path ending in a name is its parent directory. -/
theorem C03_dirname_parent (l : Loc) (a b : Str) (hb : validName b) :
    walk l (a ++ '/' :: b) = b :: walk l (dirname (a ++ '/' :: b)) := by
  have h1 : rsplit1 '/' (a ++ '/' :: b) = some (a, b) := rsplit1_append hb.2.1
  have hsplitb : splitOn '/' b = [b] := splitOn_noSep hb.2.1
  have hl : walk l (a ++ '/' :: b) = b :: walk l (a ++ ['/']) := by
    simp only [walk]
    rw [splitOn_append_sep, splitOn_append_sep, hsplitb]
    have : (a ++ '/' :: b).head? = (a ++ ['/']).head? := by cases a <;> simp
    rw [this]
    simp [List.foldl_append, splitOn, walkStep_valid hb]
  rw [hl]
  congr 1
  unfold dirname
  rw [h1]
  simp only
  split
  · rfl
  · rename_i hall
    -- stripping trailing slashes only removes empty components
    have key : ∀ (n : Nat) (x : Str), (∃ c ∈ x, c ≠ '/') →
        walk l (x ++ List.replicate n '/') = walk l x := by
      intro n
      induction n with
      | zero => intro x _; simp
      | succ n ih =>
        intro x hx
        rw [List.replicate_succ']
        rw [← List.append_assoc]
        have hx' : ∃ c ∈ x ++ List.replicate n '/', c ≠ '/' := by
          obtain ⟨c, h1, h2⟩ := hx
          exact ⟨c, by simp [h1], h2⟩
        rw [← ih x hx]
        generalize x ++ List.replicate n '/' = y at hx'
        obtain ⟨c, h1, h2⟩ := hx'
        have hy : y ≠ [] := fun e => by simp [e] at h1
        simp only [walk]
        rw [splitOn_append_sep, head?_append_ne hy]
        simp [List.foldl_append, splitOn]
    have hdecomp : ∃ n, a ++ ['/'] =
        ((a ++ ['/']).reverse.dropWhile (· = '/')).reverse ++ List.replicate n '/' := by
      refine ⟨((a ++ ['/']).reverse.takeWhile (· = '/')).length, ?_⟩
      have h2 : (a ++ ['/']).reverse =
          (a ++ ['/']).reverse.takeWhile (· = '/') ++ (a ++ ['/']).reverse.dropWhile (· = '/') :=
        (List.takeWhile_append_dropWhile).symm
      have h3 : (a ++ ['/']).reverse.takeWhile (· = '/') =
          List.replicate ((a ++ ['/']).reverse.takeWhile (· = '/')).length '/' := by
        rw [List.eq_replicate_iff]
        refine ⟨rfl, fun c hc => ?_⟩
        have := List.all_eq_true.mp List.all_takeWhile c hc
        simpa using this
      have h4 := congrArg List.reverse h2
      rw [List.reverse_reverse, List.reverse_append] at h4
      rw [h3, List.reverse_replicate] at h4
      exact h4
    obtain ⟨n, hn⟩ := hdecomp
    have hex : ∃ c ∈ ((a ++ ['/']).reverse.dropWhile (· = '/')).reverse, c ≠ '/' := by
      have : ∃ c ∈ a ++ ['/'], c ≠ '/' := by
        simp only [List.all_eq_true, decide_eq_true_eq] at hall
        exact Classical.byContradiction fun h => hall fun c hc =>
          Classical.byContradiction fun h2 => h ⟨c, hc, h2⟩
      obtain ⟨c, h1, h2⟩ := this
      rw [hn] at h1
      simp only [List.mem_append, List.mem_replicate] at h1
      rcases h1 with h1 | h1
      · exact ⟨c, h1, h2⟩
      · exact absurd h1.2 h2
    conv => lhs; rw [hn]
    exact key n _ hex

theorem C03_dirname_no_slash (p : Str) (h : '/' ∉ p) : dirname p = [] := by
  unfold dirname
  rw [rsplit1_none_iff.mpr h]

/-- C03: `UnrelativePath path build_file` denotes what `path` denotes in the
directory of `build_file`. -/
theorem C03_unrelative_path (l : Loc) (path relativeTo : Str) :
    walk l (UnrelativePath path relativeTo) = walk (walk l (dirname relativeTo)) path := by
  unfold UnrelativePath
  rw [walk_normpath, walk_join]

example : UnrelativePath c!"../x.c" c!"a/b/f.gyp" = c!"a/x.c" := by decide

/-! ## C02 -/

/-- C02: the target part is the reference's; the toolset is the reference's if
it gives a non-empty one, else the inherited one. -/
theorem C02_target_and_toolset (cwd : List Str) (buildFile : Str) (r : Ref) (h : r.wf)
    (inherited : Option Str) :
    (ResolveTarget cwd buildFile r.text inherited).2 =
      (r.target, match r.toolset with
        | some (c :: cs) => some (c :: cs)
        | _ => inherited) := by
  unfold ResolveTarget
  rw [C01_parse_text r h]
  cases r.toolset with
  | none => rfl
  | some ts => cases ts <;> rfl

/-- C02: without a file part the referring build file is meant. -/
theorem C02_own_file (cwd : List Str) (buildFile : Str) (r : Ref) (h : r.wf)
    (inherited : Option Str) (hf : r.file = none ∨ r.file = some []) :
    (ResolveTarget cwd buildFile r.text inherited).1 = buildFile := by
  unfold ResolveTarget
  rw [C01_parse_text r h]
  rcases hf with hf | hf <;> simp [hf]

/-- C02: with a file part, the resolved build file denotes the place the file
part denotes in the directory of the referring build file. -/
theorem C02_file_denotes (cwd : List Str) (hc : ∀ c ∈ cwd, validName c)
    (buildFile : Str) (hb : buildFile ≠ []) (r : Ref) (h : r.wf) (f : Str) (hf : r.file = some f)
    (hne : f ≠ []) (inherited : Option Str) :
    let here := cwd.reverse
    walk here (ResolveTarget cwd buildFile r.text inherited).1 =
      walk (walk here (dirname buildFile)) f := by
  intro here
  unfold ResolveTarget
  rw [C01_parse_text r h, hf]
  simp only [if_neg hne, ne_eq, hb, not_false_eq_true, if_true]
  split
  · have := walk_RelativePath hc (normpath (pathJoin (dirname buildFile) f)) dot
    have hd : walk here dot = here := rfl
    rw [hd] at this
    rw [this, walk_normpath, walk_join]
  · rw [walk_normpath, walk_join]

/-- C02: an unset referring build file leaves the written file as it is. -/
theorem C02_no_referrer (cwd : List Str) (r : Ref) (h : r.wf) (f : Str) (hf : r.file = some f)
    (inherited : Option Str) : (ResolveTarget cwd [] r.text inherited).1 = f := by
  unfold ResolveTarget
  rw [C01_parse_text r h, hf]
  by_cases hne : f = [] <;> simp [hne]

theorem walk_isAbs_normpath (p : Str) : isAbs (normpath p) = isAbs p := by
  by_cases ha : isAbs p = true
  · obtain ⟨h1, _⟩ := normpath_abs ha []
    have := initialSlashes_pos.mp ha
    rw [ha, h1, isAbs_iff]
    cases hn : initialSlashes p with
    | zero => omega
    | succ n => simp [List.replicate_succ]
  · have ha' : isAbs p = false := by simpa using ha
    have h0 : initialSlashes p = 0 := by
      have : ¬ 0 < initialSlashes p := fun h => ha (initialSlashes_pos.mpr h)
      omega
    rw [ha']
    unfold normpath
    split
    · decide
    · have h2 := (normFold_walk (abs := isAbs p) (l := []) (fun _ => rfl) (splitOn '/' p)
        (fun c hc => mem_splitOn hc) [] (by simp)).2
      simp only
      split
      · decide
      · rw [h0, isAbs_false_iff]
        simp only [List.replicate_zero, List.nil_append]
        exact head_joinWith_kept (fun x hx => h2 x (List.mem_reverse.mp hx))

/-- C02: the resolved name is canonical: two relative references, from two
relatively named build files, that denote the same place get the same text. -/
theorem C02_canonical (cwd : List Str) (hc : ∀ c ∈ cwd, validName c)
    (bf bf' : Str) (hb : bf ≠ []) (hb' : bf' ≠ []) (r r' : Ref) (h : r.wf) (h' : r'.wf)
    (f f' : Str) (hf : r.file = some f) (hf' : r'.file = some f') (hne : f ≠ []) (hne' : f' ≠ [])
    (hrel : isAbs f = false ∧ isAbs (dirname bf) = false)
    (hrel' : isAbs f' = false ∧ isAbs (dirname bf') = false)
    (inh inh' : Option Str)
    (same : walk (walk cwd.reverse (dirname bf)) f = walk (walk cwd.reverse (dirname bf')) f') :
    (ResolveTarget cwd bf r.text inh).1 = (ResolveTarget cwd bf' r'.text inh').1 := by
  unfold ResolveTarget
  rw [C01_parse_text r h, hf, C01_parse_text r' h', hf']
  simp only [if_neg hne, if_neg hne', ne_eq, hb, hb', not_false_eq_true, if_true]
  have ha : isAbs (normpath (pathJoin (dirname bf) f)) = false := by
    rw [walk_isAbs_normpath, isAbs_pathJoin, hrel.1, hrel.2]; rfl
  have ha' : isAbs (normpath (pathJoin (dirname bf') f')) = false := by
    rw [walk_isAbs_normpath, isAbs_pathJoin, hrel'.1, hrel'.2]; rfl
  rw [ha, ha']
  simp only [Bool.not_false, if_true]
  have hs : ∀ p, isAbs p = false → startsWith p c!"//" = false := by
    intro p hp
    have := isAbs_false_iff.mp hp
    cases p with
    | nil => rfl
    | cons x xs =>
      simp at this
      have hx : ¬ '/' = x := fun e => this e.symm
      simp [startsWith, List.isPrefixOf, hx]
  apply RelativePath_congr _ rfl
  apply abspath_congr hc (hs _ ha) (hs _ ha')
  rw [walk_normpath, walk_join, walk_normpath, walk_join, same]

/-- A concrete case: `../b/x.gyp:t#host` referred to from `a/a.gyp`. -/
example : ResolveTarget [c!"src"] c!"a/a.gyp" c!"../b/x.gyp:t#host" (some c!"target") =
    (c!"b/x.gyp", c!"t", some c!"host") := by decide

example : (Ref.mk (some c!"../b/x.gyp") c!"t" (some c!"host")).wf := by decide

end Gyp
