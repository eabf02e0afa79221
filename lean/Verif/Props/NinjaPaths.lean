import Verif.Model.NinjaPaths
import Verif.Model.MakeGen
import Verif.Spec.NinjaPaths
import Verif.Proofs.SlnFacts
import Verif.Props.MsvsCygwin
import Verif.Props.Ninja
import Verif.Props.XcodeLink
import Verif.Proofs.MakePaths
import Verif.Proofs.MakeValues
import Verif.Proofs.MergeLists
/-
C99: paths and names in ninja files.
-/
namespace Gyp
open Spec

/-! ### Directories -/

/-- C99: from the directory of the build the directory of the build file is found, and the other way round. -/
theorem C99_directories (cwd : List Str) (hc : ∀ c ∈ cwd, validName c)
    (top baseDir buildDir name toolset config hash : Str) :
    let x := ninjaCtx cwd top baseDir buildDir name toolset config hash
    let build := walk (walk cwd.reverse top) buildDir
    let base := walk (walk cwd.reverse top) baseDir
    walk build x.buildToBase = base ∧ walk base x.baseToBuild = build := by
  have key : ∀ d, walk (walk (walk cwd.reverse top) d) (InvertRelativePath cwd d (some top)) = walk cwd.reverse top := by
    intro d
    unfold InvertRelativePath
    split
    · rename_i h; subst h; rfl
    · rw [← walk_join _ top d]; exact walk_RelativePath hc top (pathJoin top d)
  constructor
  · simp only [ninjaCtx]; rw [walk_join, key]
  · simp only [ninjaCtx]; rw [walk_join, key]

example : (ninjaCtx [c!"r"] c!"." c!"src/lib" c!"out/Debug" c!"t" c!"target" c!"Debug" c!"h").buildToBase =
    c!"../../src/lib" := by decide +kernel

/-- C99: the path of a file in a ninja file, which is read from the directory of the build, is the file that the
path in the build file, read from the directory of the build file, is. -/
theorem C99_path (cwd : List Str) (hc : ∀ c ∈ cwd, validName c)
    (top baseDir buildDir name toolset config hash path : Str) (hp : '$' ∉ path) :
    ∃ r, gypPathToNinja (ninjaCtx cwd top baseDir buildDir name toolset config hash) path = some r ∧
      walk (walk (walk cwd.reverse top) buildDir) r = walk (walk (walk cwd.reverse top) baseDir) path := by
  have h1 : startsWith path c!"$!" = false := by
    cases path with
    | nil => rfl
    | cons a s =>
      simp only [List.mem_cons, not_or] at hp
      simp [startsWith, List.isPrefixOf, hp.1]
  have h2 : hasSub c!"$|" path = false := hasSub_absent (c := '$') (by decide) hp
  refine ⟨_, by unfold gypPathToNinja; rw [if_neg (by simp [h1])]; simp only [h2, Bool.false_eq_true, if_false]; rw [if_neg hp], ?_⟩
  rw [walk_normpath, walk_join, (C99_directories cwd hc top baseDir buildDir name toolset config hash).1]

example : gypPathToNinja (ninjaCtx [c!"r"] c!"." c!"src/lib" c!"out/Debug" c!"t" c!"target" c!"Debug" c!"h") c!"../a.cc" =
    some c!"../../src/a.cc" := by decide +kernel

/-! ### Names that are replaced -/

theorem mem_uniquePlace {x : NinjaCtx} {p : Str} {q : Bool} {c : Char} (h : c ∈ uniquePlace x p q) :
    c ∈ c!"obj./" ∨ c ∈ x.name ∨ c ∈ x.toolset ∨ c ∈ x.baseDir ∨ c ∈ p := by
  unfold uniquePlace at h
  rcases mem_normpath h with h | h | h
  · rcases mem_pathJoinAll h with h | ⟨w, hw, h⟩
    · subst h; exact Or.inl (by decide)
    · simp only [List.mem_cons, List.not_mem_nil, or_false] at hw
      rcases hw with rfl | rfl | rfl | rfl
      · unfold ninjaObj at h
        split at h
        · refine Or.inl ?_
          revert h
          simp
          rintro (h | h | h) <;> simp [h]
        · rcases List.mem_append.mp h with h | h
          · refine Or.inl ?_
            revert h
            simp
            rintro (h | h | h | h) <;> simp [h]
          · exact Or.inr (Or.inr (Or.inl h))
      · exact Or.inr (Or.inr (Or.inr (Or.inl h)))
      · exact Or.inr (Or.inr (Or.inr (Or.inr (mem_dirname h))))
      · split at h
        · rcases List.mem_append.mp h with h | h
          · exact Or.inr (Or.inl h)
          · rcases List.mem_cons.mp h with h | h
            · subst h; exact Or.inl (by decide)
            · exact Or.inr (Or.inr (Or.inr (Or.inr (mem_basename h))))
        · exact Or.inr (Or.inr (Or.inr (Or.inr (mem_basename h))))
  · subst h; exact Or.inl (by decide)
  · subst h; exact Or.inl (by decide)

theorem uniquePlace_dollar {x : NinjaCtx} {p : Str} {q : Bool} (h1 : '$' ∉ x.name) (h2 : '$' ∉ x.toolset)
    (h3 : '$' ∉ x.baseDir) (hp : '$' ∉ p) : '$' ∉ uniquePlace x p q := by
  intro h
  rcases mem_uniquePlace h with h | h | h | h | h
  · exact absurd h (by decide)
  · exact h1 h
  · exact h2 h
  · exact h3 h
  · exact hp h

theorem pathJoin_dollar {a b : Str} (ha : '$' ∉ a) (hb : '$' ∉ b) : '$' ∉ pathJoin a b := by
  intro h
  rcases mem_pathJoin h with h | h | h
  · exact ha h
  · exact hb h
  · exact absurd h (by decide)

theorem expandSpecial_pieces (x : NinjaCtx) (productDir : Str) (hd : productDir ≠ []) (pieces : List NinjaPiece)
    (hplain : ∀ p ∈ pieces, p.plain) (h0 : '$' ∉ productDir)
    (h1 : '$' ∉ x.name) (h2 : '$' ∉ x.toolset) (h3 : '$' ∉ x.baseDir) :
    expandSpecial x productDir (pieces.flatMap NinjaPiece.written) =
      pieces.flatMap (NinjaPiece.meant productDir (pathJoin productDir (uniquePlace x c!"gen" true)) x.config) := by
  have hi : '$' ∉ pathJoin productDir (uniquePlace x c!"gen" true) :=
    pathJoin_dollar h0 (uniquePlace_dollar h1 h2 h3 (by decide))
  unfold expandSpecial
  rw [if_neg hd]
  have e1 : replaceStr c!"$!PRODUCT_DIR" productDir (pieces.flatMap NinjaPiece.written) =
      pieces.flatMap (NinjaPiece.meant productDir c!"$!INTERMEDIATE_DIR" c!"$|CONFIGURATION_NAME") := by
    apply replaceStr_pieces
    intro p hp r
    cases p with
    | text s => exact replaceStr_skip rfl (hplain _ hp) r
    | product => exact replaceStr_here (by decide)
    | intermediate => exact replaceStr_other rfl (by decide) rfl
    | config => exact replaceStr_other rfl (by decide) rfl
  have e2 : replaceStr c!"$!INTERMEDIATE_DIR" (pathJoin productDir (uniquePlace x c!"gen" true))
      (pieces.flatMap (NinjaPiece.meant productDir c!"$!INTERMEDIATE_DIR" c!"$|CONFIGURATION_NAME")) =
      pieces.flatMap (NinjaPiece.meant productDir (pathJoin productDir (uniquePlace x c!"gen" true))
        c!"$|CONFIGURATION_NAME") := by
    apply replaceStr_pieces
    intro p hp r
    cases p with
    | text s => exact replaceStr_skip rfl (hplain _ hp) r
    | product => exact replaceStr_skip rfl h0 r
    | intermediate => exact replaceStr_here (by decide)
    | config => exact replaceStr_other rfl (by decide) rfl
  have e3 : replaceStr c!"$|CONFIGURATION_NAME" x.config
      (pieces.flatMap (NinjaPiece.meant productDir (pathJoin productDir (uniquePlace x c!"gen" true))
        c!"$|CONFIGURATION_NAME")) =
      pieces.flatMap (NinjaPiece.meant productDir (pathJoin productDir (uniquePlace x c!"gen" true)) x.config) := by
    apply replaceStr_pieces
    intro p hp r
    cases p with
    | text s => exact replaceStr_skip rfl (hplain _ hp) r
    | product => exact replaceStr_skip rfl h0 r
    | intermediate => exact replaceStr_skip rfl hi r
    | config => exact replaceStr_here (by decide)
  simp only
  rw [e1, e2, e3]

example : expandSpecial (ninjaCtx [c!"r"] c!"." c!"src" c!"out/Debug" c!"t" c!"target" c!"Debug" c!"h") c!"../out/Debug"
      ([.text c!"-o", .intermediate, .text c!"/x-", .config].flatMap NinjaPiece.written) =
    c!"-o../out/Debug/obj/src/t.gen/x-Debug" := by decide +kernel

theorem replaceStr_dollar {old new s : Str} (ho : old.head? = some '$') (hs : '$' ∉ s) : replaceStr old new s = s := by
  cases old with
  | nil => simp at ho
  | cons c cs =>
    simp only [List.head?_cons, Option.some.injEq] at ho
    subst ho
    exact replaceStr_absent _ _ _ _ _ rfl hs

theorem normpath_not_nil (p : Str) : normpath p ≠ [] := by
  unfold normpath
  split
  · exact fun h => nomatch h
  · simp only
    split
    · exact fun h => nomatch h
    · assumption

theorem expandSpecial_plain {x : NinjaCtx} {d p : Str} (hp : '$' ∉ p) : expandSpecial x d p = p := by
  unfold expandSpecial
  split
  · rw [replaceStr_dollar (s := p) rfl hp, replaceStr_dollar (s := p) rfl hp, replaceStr_dollar (s := p) rfl hp]
    simp only
    rw [replaceStr_dollar (s := p) rfl hp, replaceStr_dollar (s := p) rfl hp]
  · rw [replaceStr_dollar (s := p) rfl hp]
    simp only
    rw [replaceStr_dollar (s := p) rfl hp, replaceStr_dollar (s := p) rfl hp]

theorem unique_gen (x : NinjaCtx) : gypPathToUniqueOutput x c!"gen" true = some (uniquePlace x c!"gen" true) := by
  unfold gypPathToUniqueOutput
  simp only
  rw [expandSpecial_plain (by decide)]
  rfl

/-- C99: in an argument of a command, which runs in the directory of the build file, the names of the directory of
products, of the directory for intermediate files of the target and of the configuration are replaced, each where it
is, and nothing else is. -/
theorem C99_arguments (x : NinjaCtx) (productDir gen : Str) (hd : productDir ≠ []) (pieces : List NinjaPiece)
    (hplain : ∀ p ∈ pieces, p.plain) (h0 : '$' ∉ productDir)
    (h1 : '$' ∉ x.name) (h2 : '$' ∉ x.toolset) (h3 : '$' ∉ x.baseDir)
    (hgen : gypPathToUniqueOutput x c!"gen" true = some gen) :
    expandSpecial x productDir (pieces.flatMap NinjaPiece.written) =
      pieces.flatMap (NinjaPiece.meant productDir (pathJoin productDir gen) x.config) := by
  rw [unique_gen] at hgen
  cases hgen
  exact expandSpecial_pieces x productDir hd pieces hplain h0 h1 h2 h3

/-- C99: a path below the directory of products is written without the name of that directory. -/
theorem C99_product_path (x : NinjaCtx) (rest : Str) (h : '$' ∉ rest) :
    gypPathToNinja x (c!"$!PRODUCT_DIR/" ++ rest) = some rest ∧ gypPathToNinja x c!"$!PRODUCT_DIR" = some c!"." := by
  constructor
  · have hs : startsWith (c!"$!PRODUCT_DIR/" ++ rest) c!"$!" = true := rfl
    unfold gypPathToNinja
    rw [if_pos hs]
    unfold expandSpecial
    rw [if_pos rfl, replaceStr_here (by decide), List.nil_append, replaceStr_dollar rfl h, replaceStr_dollar rfl h,
      replaceStr_dollar rfl h]
    simp only
    rw [replaceStr_dollar rfl h, replaceStr_dollar rfl h]
  · have hs : startsWith c!"$!PRODUCT_DIR" c!"$!" = true := rfl
    unfold gypPathToNinja
    rw [if_pos hs]
    unfold expandSpecial
    have e1 : replaceStr c!"$!PRODUCT_DIR/" [] c!"$!PRODUCT_DIR" = c!"$!PRODUCT_DIR" := by decide +kernel
    have e2 : replaceStr c!"$!PRODUCT_DIR\\" [] c!"$!PRODUCT_DIR" = c!"$!PRODUCT_DIR" := by decide +kernel
    have e3 : replaceStr c!"$!PRODUCT_DIR" c!"." c!"$!PRODUCT_DIR" = c!"." := by decide +kernel
    rw [if_pos rfl, e1, e2, e3]
    simp only
    rw [replaceStr_dollar (s := c!".") rfl (by decide), replaceStr_dollar (s := c!".") rfl (by decide)]

theorem ninja_intermediate (x : NinjaCtx) (rest : Str) (h : '$' ∉ rest)
    (h1 : '$' ∉ x.name) (h2 : '$' ∉ x.toolset) (h3 : '$' ∉ x.baseDir) :
    gypPathToNinja x (c!"$!INTERMEDIATE_DIR" ++ rest) = some (uniquePlace x c!"gen" true ++ rest) := by
  have hs : startsWith (c!"$!INTERMEDIATE_DIR" ++ rest) c!"$!" = true := rfl
  have hu := uniquePlace_dollar (q := true) h1 h2 h3 (p := c!"gen") (by decide)
  unfold gypPathToNinja
  rw [if_pos hs]
  unfold expandSpecial
  have e0 : ∀ {old new s : Str}, old.head? = some '$' → '$' ∉ s → replaceStr old new s = s := by
    intro old new s ho hs
    cases old with
    | nil => simp at ho
    | cons c cs =>
      simp only [List.head?_cons, Option.some.injEq] at ho
      subst ho
      exact replaceStr_absent _ _ _ _ _ rfl hs
  have e : ∀ {old new : Str}, old.head? = some '$' → old.isPrefixOf (c!"$!INTERMEDIATE_DIR" ++ rest) = false →
      replaceStr old new (c!"$!INTERMEDIATE_DIR" ++ rest) = c!"$!INTERMEDIATE_DIR" ++ rest := by
    intro old new ho hn
    have := replaceStr_other (v := new) (m := c!"!INTERMEDIATE_DIR") (r := rest) ho (by decide) hn
    rw [e0 ho h] at this
    exact this
  rw [if_pos rfl, e rfl rfl, e rfl rfl, e rfl rfl]
  simp only
  rw [replaceStr_here (by decide), e0 rfl h]
  have e4 : pathJoin [] (uniquePlace x c!"gen" true) = uniquePlace x c!"gen" true := by
    unfold pathJoin
    split <;> simp
  rw [e4, e0 rfl]
  intro hm
  rcases List.mem_append.mp hm with hm | hm
  · exact hu hm
  · exact h hm

/-- C99: a path below the directory for intermediate files of the target, which is `gen` with the name of the target
in front, beside the objects. -/
theorem C99_intermediate_path (x : NinjaCtx) (gen rest : Str) (h : '$' ∉ rest)
    (h1 : '$' ∉ x.name) (h2 : '$' ∉ x.toolset) (h3 : '$' ∉ x.baseDir)
    (hgen : gypPathToUniqueOutput x c!"gen" true = some gen) :
    gypPathToNinja x (c!"$!INTERMEDIATE_DIR" ++ rest) = some (gen ++ rest) := by
  rw [unique_gen] at hgen
  cases hgen
  exact ninja_intermediate x rest h h1 h2 h3

example : gypPathToUniqueOutput (ninjaCtx [c!"r"] c!"." c!"src" c!"out/Debug" c!"t" c!"target" c!"Debug" c!"h") c!"gen" true =
    some c!"obj/src/t.gen" := by decide +kernel

theorem walk_slash_rel {a b : Str} (ha : a ≠ []) (hb : b.head? ≠ some '/') (l : Loc) :
    walk l (a ++ '/' :: b) = walk (walk l a) b := by
  unfold walk
  simp only
  rw [if_neg hb, splitOn_append_sep, List.foldl_append, head?_append_ne ha]

/-- C99: a file that is named in the outputs of an action and in its command is the same file in both, though ninja
reads the first from the directory of the build and the command runs in the directory of the build file. -/
theorem C99_same_file (cwd : List Str) (hc : ∀ c ∈ cwd, validName c ∧ '$' ∉ c)
    (top baseDir buildDir name toolset config hash rest path : Str)
    (ht : '$' ∉ top) (hb : '$' ∉ baseDir) (hd : '$' ∉ buildDir) (hn : '$' ∉ name) (hs : '$' ∉ toolset)
    (hdn : buildDir ≠ []) (hrest : '$' ∉ rest ∧ rest.head? ≠ some '/')
    (hpath : path = rest ∨ path = c!"$!PRODUCT_DIR/" ++ rest ∨ path = c!"$!INTERMEDIATE_DIR/" ++ rest) :
    let x := ninjaCtx cwd top baseDir buildDir name toolset config hash
    let build := walk (walk cwd.reverse top) buildDir
    let base := walk (walk cwd.reverse top) baseDir
    ∃ r, gypPathToNinja x path = some r ∧ walk build r = walk base (expandSpecial x x.baseToBuild path) := by
  intro x build base
  have hdir := C99_directories cwd (fun c h => (hc c h).1) top baseDir buildDir name toolset config hash
  have hne : x.baseToBuild ≠ [] := by
    show pathJoin _ _ ≠ []
    unfold pathJoin
    split
    · exact hdn
    · split <;> simp [hdn]
  have hno : '$' ∉ x.baseToBuild := by
    refine pathJoin_dollar ?_ hd
    unfold InvertRelativePath
    split
    · rename_i h; rw [h]; simp
    · intro h
      rcases mem_RelativePath h with h | h | h | ⟨c, hc', h⟩
      · exact ht h
      · exact absurd h (by decide)
      · exact absurd h (by decide)
      · exact (hc c hc').2 h
  have hu : '$' ∉ uniquePlace x c!"gen" true := uniquePlace_dollar hn hs hb (by decide)
  rcases hpath with rfl | rfl | rfl
  · obtain ⟨r, h1, h2⟩ := C99_path cwd (fun c h => (hc c h).1) top baseDir buildDir name toolset config hash path hrest.1
    exact ⟨r, h1, by rw [expandSpecial_plain hrest.1]; exact h2⟩
  · refine ⟨rest, (C99_product_path x rest hrest.1).1, ?_⟩
    have e := expandSpecial_pieces x x.baseToBuild hne [.product, .text (c!"/" ++ rest)]
      (by intro p hp
          simp only [List.mem_cons, List.not_mem_nil, or_false] at hp
          rcases hp with rfl | rfl
          · trivial
          · show '$' ∉ c!"/" ++ rest
            simp [hrest.1]) hno hn hs hb
    have e' : [NinjaPiece.product, .text (c!"/" ++ rest)].flatMap NinjaPiece.written = c!"$!PRODUCT_DIR/" ++ rest := by
      simp [NinjaPiece.written]
    have e2 : [NinjaPiece.product, .text (c!"/" ++ rest)].flatMap
        (NinjaPiece.meant x.baseToBuild (pathJoin x.baseToBuild (uniquePlace x c!"gen" true)) x.config) =
        x.baseToBuild ++ '/' :: rest := by simp [NinjaPiece.meant]
    rw [e', e2] at e
    rw [e, walk_slash_rel hne hrest.2, hdir.2]
  · refine ⟨_, by
      have : c!"$!INTERMEDIATE_DIR/" ++ rest = c!"$!INTERMEDIATE_DIR" ++ ('/' :: rest) := by simp
      rw [this]
      exact ninja_intermediate x ('/' :: rest) (by simp [hrest.1]) hn hs hb, ?_⟩
    have e := expandSpecial_pieces x x.baseToBuild hne [.intermediate, .text (c!"/" ++ rest)]
      (by intro p hp
          simp only [List.mem_cons, List.not_mem_nil, or_false] at hp
          rcases hp with rfl | rfl
          · trivial
          · show '$' ∉ c!"/" ++ rest
            simp [hrest.1]) hno hn hs hb
    have e' : [NinjaPiece.intermediate, .text (c!"/" ++ rest)].flatMap NinjaPiece.written =
        c!"$!INTERMEDIATE_DIR/" ++ rest := by
      simp [NinjaPiece.written]
    have e2 : [NinjaPiece.intermediate, .text (c!"/" ++ rest)].flatMap
        (NinjaPiece.meant x.baseToBuild (pathJoin x.baseToBuild (uniquePlace x c!"gen" true)) x.config) =
        pathJoin x.baseToBuild (uniquePlace x c!"gen" true) ++ '/' :: rest := by simp [NinjaPiece.meant]
    rw [e', e2] at e
    have hun : uniquePlace x c!"gen" true ≠ [] := normpath_not_nil _
    have hpn : pathJoin x.baseToBuild (uniquePlace x c!"gen" true) ≠ [] := by
      unfold pathJoin
      split
      · exact hun
      · split <;> simp [hne]
    rw [e, walk_slash_rel hun hrest.2, walk_slash_rel hpn hrest.2, walk_join, hdir.2]

example : let x := ninjaCtx [c!"r"] c!"." c!"src" c!"out/Debug" c!"t" c!"target" c!"Debug" c!"h"
    gypPathToNinja x c!"$!PRODUCT_DIR/a.txt" = some c!"a.txt" ∧
      expandSpecial x x.baseToBuild c!"$!PRODUCT_DIR/a.txt" = c!"../out/Debug/a.txt" := by decide +kernel

/-! ### Objects -/

theorem isAbs_dirname {p : Str} (h : p.head? ≠ some '/') : isAbs (dirname p) = false := by
  rw [isAbs_false_iff]
  unfold dirname
  cases hr : rsplit1 '/' p with
  | none => simp
  | some ab =>
    obtain ⟨a, b⟩ := ab
    have hp := rsplit1_some hr
    simp only
    cases a with
    | nil => rw [hp.1] at h; simp at h
    | cons y ys =>
      have hy : y ≠ '/' := by
        intro e
        apply h
        rw [hp.1, e]
        rfl
      rw [if_neg (by simp [hy])]
      have : (List.dropWhile (fun c => decide (c = '/')) (y :: ys ++ ['/']).reverse).reverse.head? = some y := by
        have : ∀ (zs : Str), (List.dropWhile (fun c => decide (c = '/')) (zs ++ [y])).getLast? = some y := by
          intro zs
          induction zs with
          | nil => simp [List.dropWhile, hy]
          | cons z zs ih =>
            rw [List.cons_append, List.dropWhile]
            split
            · exact ih
            · rw [List.getLast?_cons]
              simp
        rw [List.head?_reverse]
        have e := this ('/' :: ys.reverse)
        simpa using e
      rw [this]
      simp [hy]

/-- C99: where an object goes: below `obj` (or `obj.` and the name of the toolset), in the directory of the build
file and then of the source, with the name of the target in front. -/
theorem C99_object (x : NinjaCtx) (path : Str) (hd : '$' ∉ path) (ha : path.head? ≠ some '/')
    (hn : x.name ≠ [] ∧ '/' ∉ x.name) (ht : '/' ∉ x.toolset) (hb : basename path ≠ []) :
    ∃ r, gypPathToUniqueOutput x path true = some r ∧
      ∀ l, walk l r = (x.name ++ '.' :: basename path) ::
        walk (walk ((if x.toolset = c!"target" then c!"obj" else c!"obj." ++ x.toolset) :: l) x.baseDir) (dirname path) := by
  refine ⟨uniquePlace x path true, ?_, ?_⟩
  · unfold gypPathToUniqueOutput
    simp only
    rw [expandSpecial_plain hd]
    rw [if_neg, isAbs_dirname ha]
    · simp
    · cases path with
      | nil => simp [startsWith]
      | cons c cs =>
        simp only [List.mem_cons, not_or] at hd
        simp [startsWith, List.isPrefixOf, hd.1]
  · intro l
    have hv : validName (x.name ++ '.' :: basename path) := by
      refine ⟨by simp, ?_, ?_, ?_⟩
      · intro h
        rcases List.mem_append.mp h with h | h
        · exact hn.2 h
        · rcases List.mem_cons.mp h with h | h
          · exact absurd h (by decide)
          · exact basename_noSep path h
      · intro h
        have e := congrArg List.length h
        have h1 := List.length_pos_iff.mpr hn.1
        simp at e
        omega
      · intro h
        have e := congrArg List.length h
        have h1 := List.length_pos_iff.mpr hn.1
        have h2 := List.length_pos_iff.mpr hb
        simp at e
        omega
    have ho : validName (ninjaObj x.toolset) := by
      unfold ninjaObj
      split
      · decide
      · refine ⟨by simp, ?_, by simp, by simp⟩
        simp [ht]
    unfold uniquePlace
    rw [walk_normpath]
    simp only [pathJoinAll, List.foldl_cons, List.foldl_nil, if_true]
    rw [walk_join, walk_join, walk_join, walk_component hv.2.1, walkStep_valid hv, walk_component ho.2.1, walkStep_valid ho]
    rfl

example : gypPathToUniqueOutput (ninjaCtx [c!"r"] c!"." c!"src" c!"out/Debug" c!"t" c!"host" c!"Debug" c!"h") c!"lib/a.o" true =
    some c!"obj.host/src/lib/t.a.o" := by decide +kernel

/-- C99: a source with an absolute path stops the generator. -/
theorem C99_absolute (x : NinjaCtx) (path : Str) (hd : '$' ∉ path) (ha : path.head? = some '/') (q : Bool) :
    gypPathToUniqueOutput x path q = none := by
  unfold gypPathToUniqueOutput
  simp only
  rw [expandSpecial_plain hd]
  split
  · rfl
  · rw [if_pos]
    rw [isAbs_iff]
    unfold dirname
    cases path with
    | nil => simp at ha
    | cons c cs =>
      simp only [List.head?_cons, Option.some.injEq] at ha
      subst ha
      cases hr : rsplit1 '/' ('/' :: cs) with
      | none => exact absurd ((rsplit1_none_iff).mp hr) (by simp)
      | some ab =>
        obtain ⟨a, b⟩ := ab
        have hp := (rsplit1_some hr).1
        simp only
        cases a with
        | nil => simp
        | cons y ys =>
          have hy : y = '/' := by
            have := congrArg List.head? hp
            simpa using this.symm
          subst hy
          split
          · simp
          · rename_i hall
            have : ∀ (zs : Str), (∃ z ∈ zs, z ≠ '/') →
                (List.dropWhile (fun c => decide (c = '/')) (zs ++ ['/'])).getLast? = some '/' := by
              intro zs
              induction zs with
              | nil => simp
              | cons z zs ih =>
                rintro ⟨w, hw, hne⟩
                rw [List.cons_append, List.dropWhile]
                split
                · rename_i hz
                  apply ih
                  rcases List.mem_cons.mp hw with rfl | hw
                  · simp at hz; exact absurd hz hne
                  · exact ⟨w, hw, hne⟩
                · rw [List.getLast?_cons]; simp
            rw [List.head?_reverse]
            have e := this ('/' :: ys.reverse) (by
              simp only [List.cons_append, List.all_cons, List.all_append, List.all_nil] at hall
              simp only [decide_true, Bool.true_and, Bool.and_true, Bool.not_eq_true] at hall
              rw [List.all_eq_false] at hall
              obtain ⟨z, hz, hne⟩ := hall
              exact ⟨z, by simp [hz], by simpa using hne⟩)
            simpa using e

example : gypPathToUniqueOutput (ninjaCtx [c!"r"] c!"." c!"src" c!"out/Debug" c!"t" c!"host" c!"Debug" c!"h") c!"/a.o" true =
    none := by decide +kernel

/-- C99: the objects of two sources of a target are one file exactly when the sources are in the same directory
and their names differ at most in the extension. -/
theorem C99_objects_apart (x : NinjaCtx) (p q r s : Str) (l : Loc)
    (hp : '$' ∉ p ∧ p.head? ≠ some '/' ∧ basename (splitext p).1 ≠ [])
    (hq : '$' ∉ q ∧ q.head? ≠ some '/' ∧ basename (splitext q).1 ≠ [])
    (hn : x.name ≠ [] ∧ '/' ∉ x.name) (ht : '/' ∉ x.toolset)
    (hr : gypPathToUniqueOutput x ((splitext p).1 ++ c!".o") true = some r)
    (hs : gypPathToUniqueOutput x ((splitext q).1 ++ c!".o") true = some s) :
    walk l r = walk l s ↔
      (let here := walk ((if x.toolset = c!"target" then c!"obj" else c!"obj." ++ x.toolset) :: l) x.baseDir
       walk here (dirname p) = walk here (dirname q) ∧ basename (splitext p).1 = basename (splitext q).1) := by
  have key : ∀ p r, ('$' ∉ p ∧ p.head? ≠ some '/' ∧ basename (splitext p).1 ≠ []) →
      gypPathToUniqueOutput x ((splitext p).1 ++ c!".o") true = some r →
      walk l r = (x.name ++ '.' :: (basename (splitext p).1 ++ c!".o")) ::
        walk (walk ((if x.toolset = c!"target" then c!"obj" else c!"obj." ++ x.toolset) :: l) x.baseDir) (dirname p) := by
    intro p r hp hr
    obtain ⟨e, he, hse⟩ := splitext_root p
    have hd : '$' ∉ (splitext p).1 ++ c!".o" := by
      intro h
      rcases List.mem_append.mp h with h | h
      · exact hp.1 (by rw [he]; simp [h])
      · exact absurd h (by decide)
    have hne : (splitext p).1 ≠ [] := by
      intro h
      rw [h] at hp
      exact hp.2.2 rfl
    have ha : ((splitext p).1 ++ c!".o").head? ≠ some '/' := by
      rw [head?_append_ne hne]
      intro h
      apply hp.2.1
      rw [he, head?_append_ne hne, h]
    obtain ⟨r', h1, h2⟩ := C99_object x _ hd ha hn ht (by rw [basename_append _ _ (by decide)]; simp)
    rw [hr] at h1
    cases h1
    rw [h2 l, basename_append _ _ (by decide), dirname_append _ _ (by decide)]
    have hdp : dirname ((splitext p).1 ++ e) = dirname (splitext p).1 := dirname_append _ _ hse
    rw [← he] at hdp
    rw [hdp]
  rw [key p r hp hr, key q s hq hs]
  simp only [List.cons.injEq, List.append_cancel_left_eq, true_and, List.append_left_inj]
  exact and_comm

/-- C99: objects of targets with different names without a `.` are different files, wherever the targets are. -/
theorem C99_targets_apart (x y : NinjaCtx) (p q r s : Str) (l : Loc) (hne : x.name ≠ y.name)
    (hp : '$' ∉ p ∧ p.head? ≠ some '/' ∧ basename p ≠ []) (hq : '$' ∉ q ∧ q.head? ≠ some '/' ∧ basename q ≠ [])
    (hx : x.name ≠ [] ∧ '/' ∉ x.name ∧ '.' ∉ x.name) (hy : y.name ≠ [] ∧ '/' ∉ y.name ∧ '.' ∉ y.name)
    (htx : '/' ∉ x.toolset) (hty : '/' ∉ y.toolset)
    (hr : gypPathToUniqueOutput x p true = some r) (hs : gypPathToUniqueOutput y q true = some s) :
    walk l r ≠ walk l s := by
  obtain ⟨r', h1, h2⟩ := C99_object x p hp.1 hp.2.1 ⟨hx.1, hx.2.1⟩ htx hp.2.2
  obtain ⟨s', h3, h4⟩ := C99_object y q hq.1 hq.2.1 ⟨hy.1, hy.2.1⟩ hty hq.2.2
  rw [hr] at h1; rw [hs] at h3
  cases h1; cases h3
  rw [h2 l, h4 l]
  intro h
  have h := (List.cons.inj h).1
  have e1 : split1 '.' (x.name ++ '.' :: basename p) = some (x.name, basename p) := split1_append hx.2.2
  have e2 : split1 '.' (y.name ++ '.' :: basename q) = some (y.name, basename q) := split1_append hy.2.2
  rw [h, e2] at e1
  exact hne (Prod.mk.inj (Option.some.inj e1)).1.symm

example : let ctx := fun name => ninjaCtx [c!"r"] c!"." c!"src" c!"out" name c!"target" c!"Debug" c!"h"
    gypPathToUniqueOutput (ctx c!"a") ((splitext c!"lib/x.cc").1 ++ c!".o") true = some c!"obj/src/lib/a.x.o" ∧
      gypPathToUniqueOutput (ctx c!"b") ((splitext c!"lib/x.cc").1 ++ c!".o") true = some c!"obj/src/lib/b.x.o" := by
  refine ⟨?_, ?_⟩ <;> decide +kernel

theorem staysFrom_walk {cs : List Str} {ds : Loc} {s : Loc} (h : staysFrom ds.length cs = true) :
    ∃ es, cs.foldl walkStep (ds ++ s) = es ++ s := by
  induction cs generalizing ds with
  | nil => exact ⟨ds, rfl⟩
  | cons c cs ih =>
    rw [List.foldl_cons]
    unfold staysFrom at h
    unfold walkStep
    by_cases h1 : c = []
    · rw [if_pos h1]; rw [if_pos (Or.inl h1)] at h; exact ih h
    · rw [if_neg h1]
      by_cases h2 : c = ['.']
      · rw [if_pos h2]; rw [if_pos (Or.inr h2)] at h; exact ih h
      · rw [if_neg h2]
        rw [if_neg (by simp [h1, h2])] at h
        by_cases h3 : c = ['.', '.']
        · rw [if_pos h3]; rw [if_pos h3] at h
          cases ds with
          | nil => simp at h
          | cons d ds => exact ih h
        · rw [if_neg h3]; rw [if_neg h3] at h
          exact ih (ds := c :: ds) h

theorem staysInside_walk {p : Str} (h : StaysInside p) (l : Loc) : ∃ es, walk l p = es ++ l := by
  unfold walk
  simp only
  rw [if_neg h.1]
  exact staysFrom_walk (ds := []) h.2

/-- C99: objects for different toolsets are different files, for sources below the top directory. -/
theorem C99_toolsets_apart (x y : NinjaCtx) (p q r s : Str) (l : Loc) (hne : x.toolset ≠ y.toolset)
    (hp : '$' ∉ p ∧ p.head? ≠ some '/' ∧ basename p ≠ []) (hq : '$' ∉ q ∧ q.head? ≠ some '/' ∧ basename q ≠ [])
    (hx : x.name ≠ [] ∧ '/' ∉ x.name) (hy : y.name ≠ [] ∧ '/' ∉ y.name)
    (htx : '/' ∉ x.toolset) (hty : '/' ∉ y.toolset)
    (hpi : StaysInside (pathJoin x.baseDir (dirname p))) (hqi : StaysInside (pathJoin y.baseDir (dirname q)))
    (hr : gypPathToUniqueOutput x p true = some r) (hs : gypPathToUniqueOutput y q true = some s) :
    walk l r ≠ walk l s := by
  obtain ⟨r', h1, h2⟩ := C99_object x p hp.1 hp.2.1 hx htx hp.2.2
  obtain ⟨s', h3, h4⟩ := C99_object y q hq.1 hq.2.1 hy hty hq.2.2
  rw [hr] at h1; rw [hs] at h3
  cases h1; cases h3
  rw [h2 l, h4 l, ← walk_join, ← walk_join]
  obtain ⟨es, he⟩ := staysInside_walk hpi ((if x.toolset = c!"target" then c!"obj" else c!"obj." ++ x.toolset) :: l)
  obtain ⟨fs, hf⟩ := staysInside_walk hqi ((if y.toolset = c!"target" then c!"obj" else c!"obj." ++ y.toolset) :: l)
  rw [he, hf]
  intro h
  have h := (List.cons.inj h).2
  have h := (List.append_inj' h (by simp)).2
  have h := (List.cons.inj h).1
  by_cases e1 : x.toolset = c!"target"
  · rw [if_pos e1] at h
    by_cases e2 : y.toolset = c!"target"
    · exact hne (e1.trans e2.symm)
    · rw [if_neg e2] at h; simp at h
  · rw [if_neg e1] at h
    by_cases e2 : y.toolset = c!"target"
    · rw [if_pos e2] at h; simp at h
    · rw [if_neg e2] at h
      exact hne (List.append_cancel_left h)

example : StaysInside (pathJoin c!"src" (dirname c!"../b/a.o")) ∧ ¬ StaysInside (pathJoin c!"src" (dirname c!"../../a.o")) := by
  decide

/-- C99: outside of these conditions objects can be one file: names with a `.`, the same name in two directories, and
sources above the top directory for two toolsets. -/
theorem C99_object_witness :
    let ctx := fun base name toolset => ninjaCtx [c!"r"] c!"." base c!"out" name toolset c!"Debug" c!"h"
    gypPathToUniqueOutput (ctx c!"src" c!"a" c!"target") c!"b.c.o" true =
        gypPathToUniqueOutput (ctx c!"src" c!"a.b" c!"target") c!"c.o" true ∧
      gypPathToUniqueOutput (ctx c!"src" c!"a" c!"target") c!"lib/c.o" true =
        gypPathToUniqueOutput (ctx c!"src/lib" c!"a" c!"target") c!"c.o" true ∧
      gypPathToUniqueOutput (ctx c!"src" c!"a" c!"target") c!"../../c.o" true =
        gypPathToUniqueOutput (ctx c!"src" c!"a" c!"host") c!"../../c.o" true := by
  refine ⟨?_, ?_, ?_⟩ <;> decide +kernel

/-! ### Names of rules -/

/-- C99: a name of a rule has letters, digits and `_` only. -/
theorem C99_rule_letters (x : NinjaCtx) (name : Str) : ∀ c ∈ ninjaRuleName x name, c.isAlphanum = true ∨ c = '_' := by
  intro c hc
  unfold ninjaRuleName at hc
  obtain ⟨d, -, rfl⟩ := List.mem_map.mp hc
  by_cases h : (d.isAlphanum || decide (d = '_')) = true
  · rw [if_pos h]; simpa using h
  · rw [if_neg h]; simp

theorem map_word {s : Str} (h : ∀ c ∈ s, c.isAlphanum = true ∨ c = '_') :
    (s.map fun c => if c.isAlphanum || c = '_' then c else '_') = s := by
  conv => rhs; rw [← List.map_id s]
  apply List.map_congr_left
  intro c hc
  rw [if_pos]
  · rfl
  · simpa using h c hc

/-- C99: rules of targets with different hashes have different names; rules of one target have different names when
the names of the actions have letters, digits and `_` only. -/
theorem C99_rules_apart (x y : NinjaCtx) (a b : Str)
    (hx : ∀ c ∈ x.hash, c.isAlphanum = true ∨ c = '_') (hy : ∀ c ∈ y.hash, c.isAlphanum = true ∨ c = '_')
    (hl : x.hash.length = y.hash.length) :
    (x.hash ≠ y.hash → ninjaRuleName x a ≠ ninjaRuleName y b) ∧
      ((∀ c ∈ a, c.isAlphanum = true ∨ c = '_') → (∀ c ∈ b, c.isAlphanum = true ∨ c = '_') → a ≠ b →
        ninjaRuleName x a ≠ ninjaRuleName x b) := by
  constructor
  · intro hne h
    unfold ninjaRuleName at h
    have e : ∀ (s u : Str), s ++ '.' :: (u ++ '_' :: x.hash) = (s ++ '.' :: (u ++ ['_'])) ++ x.hash := by simp
    have e' : ∀ (s u : Str), s ++ '.' :: (u ++ '_' :: y.hash) = (s ++ '.' :: (u ++ ['_'])) ++ y.hash := by simp
    rw [e, e', List.map_append, List.map_append (l₂ := y.hash), map_word hx, map_word hy] at h
    exact hne (List.append_inj' h hl).2
  · intro ha hb hne h
    unfold ninjaRuleName at h
    rw [List.map_append (l₂ := '.' :: (a ++ '_' :: x.hash)), List.map_append (l₂ := '.' :: (b ++ '_' :: x.hash))] at h
    have h := List.append_cancel_left h
    simp only [List.map_cons, List.map_append] at h
    have h := (List.cons.inj h).2
    rw [map_word ha, map_word hb] at h
    exact hne (List.append_cancel_right h)

example : ninjaRuleName (ninjaCtx [c!"r"] c!"." c!"src" c!"out" c!"my-tool" c!"target" c!"Debug" c!"4f") c!"gen" =
    c!"my_tool_target_gen_4f" := by decide +kernel

/-- C99: names that differ in other characters can be one rule, which ninja refuses. -/
theorem C99_rule_witness (x : NinjaCtx) : ninjaRuleName x c!"a-b" = ninjaRuleName x c!"a_b" := by
  unfold ninjaRuleName
  simp only [List.map_append, List.map_cons]
  rfl

/-! ### Products -/

/-- C99: the file name of a product. -/
theorem C99_file_name (target prefix' name extension : Str) (hlib : startsWith target c!"lib" = false)
    (hext : extension ≠ []) (type : Str) (htype : type ∈ [c!"static_library", c!"loadable_module", c!"shared_library", c!"executable"]) :
    ninjaFileName { type := c!"executable", targetName := target } = some target ∧
      ninjaFileName { type := c!"static_library", targetName := target } = some (c!"lib" ++ target ++ c!".a") ∧
      ninjaFileName { type := c!"shared_library", targetName := target } = some (c!"lib" ++ target ++ c!".so") ∧
      ninjaFileName { type := c!"loadable_module", targetName := target } = some (c!"lib" ++ target ++ c!".so") ∧
      ninjaFileName { type := c!"shared_library", targetName := c!"lib" ++ target } = some (c!"lib" ++ target ++ c!".so") ∧
      ninjaFileName { type := type, targetName := target, productPrefix := some prefix', productName := some name,
                      productExtension := extension } = some (prefix' ++ name ++ c!"." ++ extension) := by
  have h1 : startsWith (c!"lib" ++ target) c!"lib" = true := rfl
  refine ⟨?_, ?_, ?_, ?_, ?_, ?_⟩
  · simp [ninjaFileName, ninjaPrefix, ninjaExtension]
  · simp [ninjaFileName, ninjaPrefix, ninjaExtension, hlib]
  · simp [ninjaFileName, ninjaPrefix, ninjaExtension, hlib]
  · simp [ninjaFileName, ninjaPrefix, ninjaExtension, hlib]
  · have : ninjaFileName { type := c!"shared_library", targetName := c!"lib" ++ target } =
        some (c!"lib" ++ (c!"lib" ++ target).drop 3 ++ c!".so") := by
      unfold ninjaFileName
      simp only [ninjaPrefix, ninjaExtension, h1]
      rfl
    rw [this]
    rfl
  · unfold ninjaFileName
    simp only [Option.getD_some]
    rw [if_pos hext, if_pos htype]
    simp

/-- C99: for a target without `product_prefix` the makefile and the ninja file give the product the same name. -/
theorem C99_same_as_make (p : NinjaProduct) (m : MkSelf) (hf : m.flavor = c!"linux")
    (h1 : m.spec.type = p.type) (h2 : m.spec.targetName = p.targetName) (h3 : m.spec.productPrefix = p.productPrefix)
    (h4 : m.spec.productName = p.productName) (h5 : m.spec.productExtension = p.productExtension)
    (hp : p.productPrefix = none)
    (ht : p.type ∈ [c!"static_library", c!"loadable_module", c!"shared_library", c!"executable"]) :
    ninjaFileName p = some (ComputeOutputBasename m) := by
  unfold ninjaFileName ComputeOutputBasename
  simp only
  rw [if_pos ht, h1, h2, h3, h4, h5, hf, hp]
  simp only [List.mem_cons, List.not_mem_nil, or_false] at ht
  rcases ht with e | e | e | e <;> rw [e] <;> simp [ninjaPrefix, ninjaExtension, dropLib] <;>
    cases p.productName <;> by_cases he : p.productExtension = [] <;> simp [he]

/-- C99: with a `product_prefix` they may differ: one drops `lib` from the name of the target, the other does not. -/
theorem C99_make_witness :
    ninjaFileName { type := c!"shared_library", targetName := c!"libfoo", productPrefix := some [] } = some c!"libfoo.so" ∧
      ∃ m : MkSelf, m.spec.type = c!"shared_library" ∧ m.spec.targetName = c!"libfoo" ∧ m.spec.productPrefix = some [] ∧
        m.flavor = c!"linux" ∧ ComputeOutputBasename m = c!"foo.so" :=
  ⟨by decide, { flavor := c!"linux", srcdirPrefix := [], sha1 := id, qualified := [], path := [],
                spec := { targetName := c!"libfoo", type := c!"shared_library", toolset := c!"target", productPrefix := some [] } },
    rfl, rfl, rfl, rfl, by decide⟩

/-- C99: where a product goes: executables and modules in the directory of the build, shared libraries in `lib`,
static libraries beside the objects unless they are standalone, anything elsewhere if it says so. -/
theorem C99_product_place (x : NinjaCtx) (p : NinjaProduct) (file dir : Str) (hfile : ninjaFileName p = some file)
    (hv : validName file) (hd : '$' ∉ file) (htv : validName x.toolset) (hdir : '$' ∉ dir) :
    (p.productDir = none → p.type ∈ [c!"executable", c!"loadable_module"] → ninjaComputeOutput x p = some file) ∧
      (p.productDir = none → p.type = c!"shared_library" → p.standalone = false →
        ∃ r, ninjaComputeOutput x p = some r ∧ ∀ l, walk l r =
          file :: ((if x.toolset = c!"target" then [] else [x.toolset]) ++ c!"lib" :: l)) ∧
      (p.productDir = none → p.type = c!"static_library" → p.standalone = true → ninjaComputeOutput x p = some file) ∧
      (p.productDir = none → p.type = c!"static_library" → p.standalone = false →
        ∃ r, ninjaComputeOutput x p = some r ∧ ∀ l, walk l r =
          file :: walk ((if x.toolset = c!"target" then c!"obj" else c!"obj." ++ x.toolset) :: l) x.baseDir) ∧
      (p.productDir = some (c!"$!PRODUCT_DIR/" ++ dir) →
        ∃ r, ninjaComputeOutput x p = some r ∧ (dir ≠ [] → dir.head? ≠ some '/' → ∀ l, walk l r = file :: walk l dir)) := by
  have ht := htv.2.1
  have hbf : basename file = file := by
    unfold basename
    rw [rsplit1_none_iff.mpr hv.2.1]
  have hdf : dirname file = [] := by
    unfold dirname
    rw [rsplit1_none_iff.mpr hv.2.1]
  have ha : isAbs file = false := by
    rw [isAbs_false_iff]
    intro h
    apply hv.2.1
    cases file with
    | nil => simp at h
    | cons c cs => simp at h; simp [h]
  refine ⟨?_, ?_, ?_, ?_, ?_⟩
  · intro h1 h2
    unfold ninjaComputeOutput
    rw [hfile]
    simp only [h1]
    rw [if_pos (Or.inl h2)]
  · intro h1 h2 h3
    unfold ninjaComputeOutput
    rw [hfile]
    simp only [h1, h2, h3]
    refine ⟨_, rfl, ?_⟩
    intro l
    rw [walk_join, walk_component hv.2.1, walkStep_valid hv]
    split
    · rfl
    · rw [walk_join, walk_component ht, walkStep_valid htv]
      rfl
  · intro h1 h2 h3
    unfold ninjaComputeOutput
    rw [hfile]
    simp only [h1]
    rw [if_pos (Or.inr h3)]
  · intro h1 h2 h3
    unfold ninjaComputeOutput
    rw [hfile]
    simp only [h1, h2, h3]
    have : gypPathToUniqueOutput x file false = some (uniquePlace x file false) := by
      unfold gypPathToUniqueOutput
      simp only
      rw [expandSpecial_plain hd, hdf]
      rw [if_neg]
      · rfl
      · cases file with
        | nil => simp [startsWith]
        | cons c cs =>
          simp only [List.mem_cons, not_or] at hd
          simp [startsWith, List.isPrefixOf, hd.1]
    refine ⟨_, by simpa using this, ?_⟩
    intro l
    have ho : validName (ninjaObj x.toolset) := by
      unfold ninjaObj
      split
      · decide
      · refine ⟨by simp, ?_, by simp, by simp⟩
        simp [ht]
    unfold uniquePlace
    rw [walk_normpath]
    simp only [pathJoinAll, List.foldl_cons, List.foldl_nil, hbf, hdf]
    rw [walk_join, walk_join, walk_join]
    simp only [Bool.false_eq_true, if_false]
    rw [walk_component hv.2.1, walkStep_valid hv, walk_component ho.2.1, walkStep_valid ho]
    rfl
  · intro h1
    unfold ninjaComputeOutput
    rw [hfile]
    simp only [h1]
    refine ⟨_, rfl, ?_⟩
    intro hne hnd l
    have hj : pathJoin (c!"$!PRODUCT_DIR/" ++ dir) file = c!"$!PRODUCT_DIR/" ++ pathJoin dir file := by
      unfold pathJoin
      rw [ha]
      simp only [Bool.false_eq_true, if_false]
      have : endsWith (c!"$!PRODUCT_DIR/" ++ dir) ['/'] = endsWith dir ['/'] := by
        rw [Bool.eq_iff_iff, endsWith_iff, endsWith_iff]
        obtain ⟨d0, d1, rfl⟩ : ∃ d0 d1, dir = d0 ++ [d1] := by
          rcases List.eq_nil_or_concat dir with h | ⟨a, b, h⟩
          · exact absurd h hne
          · exact ⟨a, b, by rw [h, List.concat_eq_append]⟩
        rw [← List.append_assoc]
        constructor
        · rintro ⟨u, hu⟩
          have := (List.append_inj' hu rfl).2
          exact ⟨d0, by rw [this]⟩
        · rintro ⟨u, hu⟩
          have := (List.append_inj' hu rfl).2
          exact ⟨_, by rw [this]⟩
      rw [this]
      by_cases he : endsWith dir ['/'] = true
      · rw [if_pos (Or.inr he), if_pos (Or.inr he)]; simp
      · rw [if_neg (by simp [he]), if_neg (by simp [he, hne])]; simp
    have hpd : '$' ∉ pathJoin dir file := pathJoin_dollar hdir hd
    have e := (C99_product_path x (pathJoin dir file) hpd).1
    unfold gypPathToNinja at e
    rw [if_pos (show startsWith (c!"$!PRODUCT_DIR/" ++ pathJoin dir file) c!"$!" = true from rfl)] at e
    rw [hj, Option.some.inj e, walk_join, walk_component hv.2.1, walkStep_valid hv]

example : ninjaFileName { type := c!"static_library", targetName := c!"z" } = some c!"libz.a" ∧ validName c!"libz.a" ∧
    ninjaComputeOutput (ninjaCtx [c!"r"] c!"." c!"src" c!"out" c!"z" c!"host" c!"Debug" c!"h")
      { type := c!"static_library", targetName := c!"z" } = some c!"obj.host/src/libz.a" ∧
    ninjaComputeOutput (ninjaCtx [c!"r"] c!"." c!"src" c!"out" c!"z" c!"host" c!"Debug" c!"h")
      { type := c!"shared_library", targetName := c!"z", productDir := some c!"$!PRODUCT_DIR/bin" } = some c!"bin/libz.so" := by
  refine ⟨?_, ?_, ?_, ?_⟩ <;> decide +kernel

/-- C99: executables of one name for two toolsets are one file. -/
theorem C99_toolset_witness :
    let ctx := fun toolset => ninjaCtx [c!"r"] c!"." c!"src" c!"out" c!"tool" toolset c!"Debug" c!"h"
    ninjaComputeOutput (ctx c!"host") { type := c!"executable", targetName := c!"tool" } =
      ninjaComputeOutput (ctx c!"target") { type := c!"executable", targetName := c!"tool" } := by
  decide +kernel

end Gyp
