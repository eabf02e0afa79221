import Verif.Proofs.MakePatterns
import Verif.Props.MakeWritten
/-
C71: every source of a target is compiled, with the right compiler, to an object of its own.
-/
namespace Gyp
open Spec

variable {m : MkSelf} {t t' : MkOutputs} {v0 : MakeVars} {lines : List MkLine}

/-! ### Extensions -/

theorem compilable_iff (flavor s : Str) : Compilable flavor s = true ↔
    (compiledExts flavor).any (fun e => (c!"." ++ e).isSuffixOf s) = true := by
  unfold Compilable compilableExtensions compiledExts endsWith
  by_cases h : flavor = c!"zos" <;> simp [h]

theorem compiledSources_eq (m : MkSelf) :
    compiledSources m = (m.spec.sources ++ extraSources m.spec).filter (Compilable m.flavor) := by
  unfold compiledSources
  rw [allSources_eq]
  refine List.filter_congr fun s _ => ?_
  rw [Bool.eq_iff_iff]
  exact (compilable_iff _ _).symm

theorem compiledBy_mem {flavor e cmd : Str} (h : CompiledBy flavor e cmd) :
    e ∈ compiledExts flavor ∧ aget (compilableExtensions flavor) (c!"." ++ e) = some cmd := by
  cases h with
  | pli h => subst h; exact ⟨by decide, by decide⟩
  | _ =>
    constructor
    · exact List.mem_append_left _ (by decide)
    · unfold compilableExtensions
      simp [aget]

theorem compiledBy_of {flavor e cmd : Str} (h : aget (compilableExtensions flavor) e = some cmd) :
    ∃ x, e = c!"." ++ x ∧ CompiledBy flavor x cmd := by
  have := mem_of_aget h
  unfold compilableExtensions at this
  rcases List.mem_append.mp this with h | h
  · simp only [List.mem_cons, List.not_mem_nil, or_false, Prod.mk.injEq] at h
    rcases h with ⟨rfl, rfl⟩ | ⟨rfl, rfl⟩ | ⟨rfl, rfl⟩ | ⟨rfl, rfl⟩ | ⟨rfl, rfl⟩ | ⟨rfl, rfl⟩
    · exact ⟨_, rfl, .c⟩
    · exact ⟨_, rfl, .cc⟩
    · exact ⟨_, rfl, .cpp⟩
    · exact ⟨_, rfl, .cxx⟩
    · exact ⟨_, rfl, .s⟩
    · exact ⟨_, rfl, .S⟩
  · split at h
    · rename_i hz
      simp only [List.mem_cons, List.not_mem_nil, or_false, Prod.mk.injEq] at h
      obtain ⟨rfl, rfl⟩ := h
      exact ⟨_, rfl, .pli hz⟩
    · cases h

theorem dotted_suffix {s e : Str} (h : Dotted s e) : c!"." ++ e <:+ s := by
  obtain ⟨d, n, rfl, -⟩ := h
  exact ⟨d ++ n, by simp⟩

theorem compiled_of {s e cmd : Str} (hs : s ∈ allSources m.spec) (hd : Dotted s e)
    (hc : CompiledBy m.flavor e cmd) :
    s ∈ (m.spec.sources ++ extraSources m.spec).filter (Compilable m.flavor) := by
  rw [allSources_eq] at hs
  refine List.mem_filter.mpr ⟨hs, (compilable_iff _ _).mpr ?_⟩
  exact List.any_eq_true.mpr ⟨e, (compiledBy_mem hc).1,
    List.isSuffixOf_iff_suffix.mpr (dotted_suffix hd)⟩

/-! ### Names of objects -/

theorem expand_objectDir (ok : TargetOk m t) :
    expand (ownVars m.spec) (c!"$(obj)." ++ m.spec.toolset ++ c!"/$(TARGET)/") = objectDir m := by
  have h1 : RefText localVars (c!"$(obj)." ++ m.spec.toolset) :=
    RefText.append (.ref (n := c!"obj") (s := c!".") (by simp [localVars, headerVars]) (by decide)
        (.char (by decide) .nil)) (.plain ok.toolset.2.2)
  rw [expand_append _ h1,
    expand_append _ (R := localVars) (a := c!"$(obj).")
      (.ref (n := c!"obj") (s := c!".") (by simp [localVars, headerVars]) (by decide)
        (.char (by decide) .nil)), expand_plain _ ok.toolset.2.2,
    show c!"/$(TARGET)/" = c!"/" ++ (c!"$(TARGET)" ++ c!"/") from rfl,
    expand_append _ (R := localVars) (a := c!"/") (.char (by decide) .nil),
    expand_append _ (R := localVars) (a := c!"$(TARGET)")
      (.ref (n := c!"TARGET") (s := []) (by simp [localVars]) (by decide) .nil)]
  have e1 : expand (ownVars m.spec) c!"$(obj)." = c!"$(obj)." := rfl
  have e2 : expand (ownVars m.spec) c!"$(TARGET)" = m.spec.targetName := by
    show m.spec.targetName ++ [] = _
    simp
  have e3 : expand (ownVars m.spec) c!"/" = c!"/" := rfl
  rw [e1, e2, e3]
  simp [objectDir]

theorem dotted_name {name e : Str} (hn : '/' ∉ name) (he : '/' ∉ e) (hd : ∃ c ∈ name, c ≠ '.') :
    validName (name ++ c!"." ++ e) := by
  obtain ⟨c, hc, hne⟩ := hd
  have : c ∈ name ++ c!"." ++ e := by simp [hc]
  refine ⟨by simp, by simp [hn, he], ?_, ?_⟩
  · intro h
    rw [h] at this
    simp at this
    exact hne this
  · intro h
    rw [h] at this
    simp at this
    exact hne this

theorem noRef {s sub : Str} (h : '$' ∉ s) : hasSub ('$' :: sub) s = false := by
  cases e : hasSub ('$' :: sub) s
  · rfl
  · obtain ⟨a, b, rfl⟩ := (hasSub_iff _ _).mp e
    exact absurd (by simp) h

theorem object_plain (ok : TargetOk m t) {s stem ext : Str} (hd : Dotted s ext) (h : '$' ∉ s)
    (habs : isAbs s = false) (hf : fileName m s = stem ++ c!"." ++ ext) :
    objectFile m s = objectDir m ++ stem ++ c!".o" := by
  obtain ⟨root, hr, hsp⟩ := dotted_split hd
  obtain ⟨d, n, rfl, hdir, hn, he, hdot, hc⟩ := hd
  have hroot : root = d ++ n := by
    have : root ++ '.' :: ext = (d ++ n) ++ '.' :: ext := by rw [← hr]; simp
    exact List.append_cancel_right this
  subst hroot
  have hda : isAbs d = false := by
    rw [isAbs_false_iff] at habs ⊢
    cases d with
    | nil => simp
    | cons x d => simpa using habs
  obtain ⟨N, hN⟩ := normpath_join_last ok.path_rel hdir hda
  have h1 := hN _ (dotted_name hn he hc)
  have h2 := hN _ (dotted_name hn (e := c!"o") (by decide) hc)
  unfold fileName at hf
  rw [if_neg h, show d ++ n ++ c!"." ++ ext = d ++ (n ++ c!"." ++ ext) by simp, h1] at hf
  have hstem : stem = N ++ n := by
    have : stem ++ (c!"." ++ ext) = (N ++ n) ++ (c!"." ++ ext) := by
      simpa using hf.symm
    exact List.append_cancel_right this
  have hobj : objTarget (d ++ n ++ c!"." ++ ext) = d ++ (n ++ c!"." ++ c!"o") := by
    unfold objTarget
    rw [hsp]; simp
  have hno : '$' ∉ d ++ (n ++ c!"." ++ c!"o") := by
    simp only [List.mem_append, not_or] at h ⊢
    exact ⟨h.1.1.1, ⟨h.1.1.2, by decide⟩, by decide⟩
  have hx : Absolutify m (objTarget (d ++ n ++ c!"." ++ ext)) = stem ++ c!".o" := by
    rw [hobj]
    unfold Absolutify
    rw [noRef hno, if_neg (by simp), h2, hstem]
    simp
  have hns : '$' ∉ stem ++ c!".o" := by
    rw [← hx, hobj]
    intro hm
    unfold Absolutify at hm
    rw [noRef hno, if_neg (by simp)] at hm
    rcases mem_normpath hm with hm | hm | hm
    · rcases mem_pathJoin hm with hm | hm | hm
      · exact ok.path.2 hm
      · exact hno hm
      · exact absurd hm (by decide)
    · exact absurd hm (by decide)
    · exact absurd hm (by decide)
  unfold objectFile objectOf
  rw [hx]
  have hob : Objectify m (stem ++ c!".o") =
      c!"$(obj)." ++ m.spec.toolset ++ c!"/$(TARGET)/" ++ (stem ++ c!".o") := by
    obtain ⟨y, hy, ho⟩ := Objectify_cases m (stem ++ c!".o")
    rw [noRef hns] at hy
    rcases hy with ⟨-, rfl⟩ | ⟨h, -⟩
    · rw [noRef hns] at ho
      rcases ho with ⟨h, -⟩ | ⟨-, ho⟩
      · cases h
      · exact ho
    · cases h
  rw [hob, expand_append _ (objDir_ref ok).1, expand_objectDir ok, expand_plain _ hns]
  simp

theorem dotted_after {d s e : Str} (hd : Dotted s e) : Dotted (d ++ c!"/" ++ s) e := by
  obtain ⟨dir, n, rfl, hdir, hn, he, hdot, hc⟩ := hd
  refine ⟨d ++ c!"/" ++ dir, n, by simp, Or.inr ?_, hn, he, hdot, hc⟩
  rcases hdir with rfl | ⟨x, rfl⟩
  · exact ⟨d, by simp⟩
  · exact ⟨d ++ c!"/" ++ x, by simp⟩

theorem dotted_object {s stem e : Str} (hs : s = stem ++ c!"." ++ e) (hd : Dotted s e) :
    objTarget s = stem ++ c!".o" := by
  obtain ⟨root, hr, hsp⟩ := dotted_split hd
  unfold objTarget
  rw [hsp]
  have : root ++ '.' :: e = stem ++ '.' :: e := by rw [← hr, hs]; simp
  rw [List.append_cancel_right this]

theorem rstrip_object (x : Str) : rstripSlash (x ++ c!".o") = x ++ c!".o" := by
  unfold rstripSlash
  rw [List.reverse_append, show (c!".o").reverse = ['o', '.'] from rfl, List.cons_append,
    List.dropWhile_cons_of_neg (by decide)]
  simp

theorem hasSub_mid (a s b : Str) : hasSub s (a ++ s ++ b) = true :=
  (hasSub_iff _ _).mpr ⟨a, b, rfl⟩

theorem Objectify_found {x y : Str} (h1 : hasSub c!"$(" x = true)
    (hy : replaceStr c!"$(obj)/" (c!"$(obj)." ++ m.spec.toolset ++ c!"/$(TARGET)/") x = y)
    (h2 : hasSub c!"$(obj)" y = true) : Objectify m x = y := by
  obtain ⟨z, hz, ho⟩ := Objectify_cases m x
  rw [h1] at hz
  rcases hz with ⟨h, -⟩ | ⟨-, rfl⟩
  · cases h
  · rw [hy, h2] at ho
    rcases ho with ⟨-, ho⟩ | ⟨h, -⟩
    · exact ho
    · cases h

theorem object_shared (ok : TargetOk m t) {stem ext : Str} (hd : Dotted (stem ++ c!"." ++ ext) ext)
    (h : '$' ∉ stem ++ ext) :
    objectFile m (c!"$(obj)/" ++ stem ++ c!"." ++ ext) = objectDir m ++ stem ++ c!".o" := by
  have hst : '$' ∉ stem ++ c!".o" := by
    simp only [List.mem_append, not_or] at h ⊢
    exact ⟨h.1, by decide⟩
  have hd' : Dotted (c!"$(obj)/" ++ stem ++ c!"." ++ ext) ext := by
    have := dotted_after (d := c!"$(obj)") hd
    simpa using this
  have hx : Absolutify m (objTarget (c!"$(obj)/" ++ stem ++ c!"." ++ ext)) =
      c!"$(obj)/" ++ (stem ++ c!".o") := by
    rw [dotted_object rfl hd']
    unfold Absolutify
    rw [if_pos, rstrip_object, List.append_assoc]
    exact (hasSub_iff _ _).mpr ⟨[], c!"obj)/" ++ stem ++ c!".o", rfl⟩
  unfold objectFile objectOf
  rw [hx, Objectify_found (y := c!"$(obj)." ++ m.spec.toolset ++ c!"/$(TARGET)/" ++ (stem ++ c!".o"))]
  · rw [expand_append _ (objDir_ref ok).1, expand_objectDir ok, expand_plain _ hst]
    simp
  · exact (hasSub_iff _ _).mpr ⟨[], c!"obj)/" ++ (stem ++ c!".o"), rfl⟩
  · rw [replaceStr_here (by decide), replaceStr_absent _ _ _ '$' c!"(obj)/" rfl hst]
  · exact (hasSub_iff _ _).mpr ⟨[], c!"." ++ m.spec.toolset ++ c!"/$(TARGET)/" ++ (stem ++ c!".o"),
      by simp⟩

theorem own_text (v rest : Str) :
    replaceStr c!"$(obj)/" v (c!"$(obj).$(TOOLSET)/$(TARGET)/" ++ rest) =
      c!"$(obj).$(TOOLSET)/$(TARGET)/" ++ replaceStr c!"$(obj)/" v rest := by
  have step : ∀ (w r : Str), (c!"$(obj)/").isPrefixOf ('$' :: (w ++ r)) = false → '$' ∉ w →
      replaceStr c!"$(obj)/" v ('$' :: (w ++ r)) = '$' :: (w ++ replaceStr c!"$(obj)/" v r) := by
    intro w r hp hw
    rw [replaceStr, if_neg (by rw [hp]; simp), replaceStr_skip rfl hw]
  have e1 := step c!"(obj)." (c!"$(TOOLSET)/$(TARGET)/" ++ rest) rfl (by decide)
  have e2 := step c!"(TOOLSET)/" (c!"$(TARGET)/" ++ rest) rfl (by decide)
  have e3 := step c!"(TARGET)/" rest rfl (by decide)
  show replaceStr c!"$(obj)/" v ('$' :: (c!"(obj)." ++ (c!"$(TOOLSET)/$(TARGET)/" ++ rest))) = _
  rw [e1]
  show '$' :: (c!"(obj)." ++ replaceStr c!"$(obj)/" v
    ('$' :: (c!"(TOOLSET)/" ++ (c!"$(TARGET)/" ++ rest)))) = _
  rw [e2]
  show '$' :: (c!"(obj)." ++ ('$' :: (c!"(TOOLSET)/" ++ replaceStr c!"$(obj)/" v
    ('$' :: (c!"(TARGET)/" ++ rest))))) = _
  rw [e3]
  rfl

theorem own_ref : RefText localVars c!"$(obj).$(TOOLSET)/$(TARGET)/" :=
  .ref (n := c!"obj") (s := c!".$(TOOLSET)/$(TARGET)/") (by decide) (by decide)
    (.char (by decide) (.ref (n := c!"TOOLSET") (s := c!"/$(TARGET)/") (by decide) (by decide)
      (.char (by decide) (.ref (n := c!"TARGET") (s := c!"/") (by decide) (by decide)
        (.char (by decide) .nil)))))

theorem expand_own_dir (s : MkSpec) :
    expand (ownVars s) c!"$(obj).$(TOOLSET)/$(TARGET)/" =
      c!"$(obj)." ++ s.toolset ++ c!"/" ++ s.targetName ++ c!"/" := by
  show c!"$(obj)." ++ (s.toolset ++ (c!"/" ++ (s.targetName ++ c!"/"))) = _
  simp

theorem object_own {stem ext : Str} (hd : Dotted (stem ++ c!"." ++ ext) ext)
    (h : '$' ∉ stem ++ ext) :
    objectFile m (c!"$(obj).$(TOOLSET)/$(TARGET)/" ++ stem ++ c!"." ++ ext) =
      objectDir m ++ stem ++ c!".o" := by
  have hst : '$' ∉ stem ++ c!".o" := by
    simp only [List.mem_append, not_or] at h ⊢
    exact ⟨h.1, by decide⟩
  have hd' : Dotted (c!"$(obj).$(TOOLSET)/$(TARGET)/" ++ stem ++ c!"." ++ ext) ext := by
    have := dotted_after (d := c!"$(obj).$(TOOLSET)/$(TARGET)") hd
    simpa using this
  have hx : Absolutify m (objTarget (c!"$(obj).$(TOOLSET)/$(TARGET)/" ++ stem ++ c!"." ++ ext)) =
      c!"$(obj).$(TOOLSET)/$(TARGET)/" ++ (stem ++ c!".o") := by
    rw [dotted_object rfl hd']
    unfold Absolutify
    rw [if_pos, rstrip_object, List.append_assoc]
    exact (hasSub_iff _ _).mpr ⟨[], c!"obj).$(TOOLSET)/$(TARGET)/" ++ stem ++ c!".o", rfl⟩
  unfold objectFile objectOf
  rw [hx, Objectify_found (y := c!"$(obj).$(TOOLSET)/$(TARGET)/" ++ (stem ++ c!".o"))]
  · rw [expand_append _ own_ref, expand_own_dir, expand_plain _ hst]
    simp [objectDir]
  · exact (hasSub_iff _ _).mpr ⟨[], c!"obj).$(TOOLSET)/$(TARGET)/" ++ (stem ++ c!".o"), rfl⟩
  · rw [own_text, replaceStr_absent _ _ _ '$' c!"(obj)/" rfl hst]
  · exact (hasSub_iff _ _).mpr ⟨[], c!".$(TOOLSET)/$(TARGET)/" ++ (stem ++ c!".o"), rfl⟩

theorem objectOf_file (ok : TargetOk m t) {s obj : Str} (h : ObjectOf m s obj) :
    objectFile m s = obj := by
  cases h with
  | plain hd h ha hf => exact object_plain ok hd h ha hf
  | shared hd h => exact object_shared ok hd h
  | own hd h => exact object_own hd h

theorem objectOf_dotted {s obj : Str} (h : ObjectOf m s obj) : ∃ ext, Dotted s ext := by
  cases h with
  | plain hd => exact ⟨_, hd⟩
  | shared hd h =>
    have := dotted_after (d := c!"$(obj)") hd
    exact ⟨_, by simpa using this⟩
  | own hd h =>
    have := dotted_after (d := c!"$(obj).$(TOOLSET)/$(TARGET)") hd
    exact ⟨_, by simpa using this⟩

/-! ### An example -/

theorem example_sources : allSources exampleTarget.spec = [c!"main.cc", c!"../common/x.c", c!"$(obj)/gen/y.cc",
          c!"$(obj).$(TOOLSET)/$(TARGET)/geni/z.c", c!"extra.o", c!"readme.txt", c!"gen/a.cc", c!"gen/b.cc"] := by
  have e : (exampleRule.sources.flatMap fun src => (ruleOutputs exampleRule src).getD []) =
      [c!"gen/a.cc", c!"gen/b.cc"] := by
    show [c!"a.proto", c!"b.proto"].flatMap _ = _
    rw [List.flatMap_cons, List.flatMap_cons, example_outputs _ (by decide), example_outputs _ (by decide)]
    rfl
  unfold allSources
  show _ ++ _ ++ [exampleRule].flatMap (fun r => r.sources.flatMap fun src => (ruleOutputs r src).getD []) = _
  rw [List.flatMap_cons, e]
  rfl

theorem dotted_of {s ext : Str} (dir name : Str) (h : s = dir ++ name ++ c!"." ++ ext)
    (hd : dir = [] ∨ dir.getLast? = some '/') (h1 : '/' ∉ name ∧ '/' ∉ ext ∧ '.' ∉ ext)
    (h2 : ∃ c ∈ name, c ≠ '.') : Dotted s ext := by
  refine ⟨dir, name, h, ?_, h1.1, h1.2.1, h1.2.2, h2⟩
  rcases hd with hd | hd
  · exact Or.inl hd
  · exact Or.inr (List.getLast?_eq_some_iff.mp hd)

theorem example_objects : List.Forall₂ (ObjectOf exampleTarget) (compiledSources exampleTarget)
    [c!"$(obj).target/prog/lib/main.o", c!"$(obj).target/prog/common/x.o", c!"$(obj).target/prog/gen/y.o",
      c!"$(obj).target/prog/geni/z.o", c!"$(obj).target/prog/lib/gen/a.o", c!"$(obj).target/prog/lib/gen/b.o"] := by
  have e : compiledSources exampleTarget = [c!"main.cc", c!"../common/x.c", c!"$(obj)/gen/y.cc",
          c!"$(obj).$(TOOLSET)/$(TARGET)/geni/z.c", c!"gen/a.cc", c!"gen/b.cc"] := by
    unfold compiledSources
    rw [example_sources]
    decide
  rw [e]
  refine .cons ?_ (.cons ?_ (.cons ?_ (.cons ?_ (.cons ?_ (.cons ?_ .nil)))))
  · exact .plain (stem := c!"lib/main") (dotted_of [] c!"main" rfl (by simp) (by decide) (by decide)) (by decide) (by decide) (by decide)
  · exact .plain (stem := c!"common/x") (dotted_of c!"../common/" c!"x" rfl (by simp) (by decide) (by decide)) (by decide) (by decide) (by decide)
  · exact .shared (stem := c!"gen/y") (ext := c!"cc") (dotted_of c!"gen/" c!"y" rfl (by simp) (by decide) (by decide)) (by decide)
  · exact .own (stem := c!"geni/z") (ext := c!"c") (dotted_of c!"geni/" c!"z" rfl (by simp) (by decide) (by decide)) (by decide)
  · exact .plain (stem := c!"lib/gen/a") (dotted_of c!"gen/" c!"a" rfl (by simp) (by decide) (by decide)) (by decide) (by decide) (by decide)
  · exact .plain (stem := c!"lib/gen/b") (dotted_of c!"gen/" c!"b" rfl (by simp) (by decide) (by decide)) (by decide) (by decide) (by decide)

theorem forall₂_left {α β : Type} {R : α → β → Prop} {l : List α} {l' : List β}
    (h : List.Forall₂ R l l') {x : α} (hx : x ∈ l) : ∃ y ∈ l', R x y := by
  induction h with
  | nil => cases hx
  | @cons a b l l' hr _ ih =>
    rcases List.mem_cons.mp hx with rfl | hx
    · exact ⟨b, by simp, hr⟩
    · obtain ⟨y, hy, h⟩ := ih hx
      exact ⟨y, by simp [hy], h⟩

/-! ### C71 -/

/-- C71: the objects of a target are those of the sources that are compiled, one for each, in
their order. -/
theorem C71_objects (h : writeMakefile m t = some (lines, t')) (ok : TargetOk m t) (hf : Fresh v0)
    (hne : allSources m.spec ≠ [])
    (hu : ∀ s ∈ compiledSources m, ∃ obj, ObjectOf m s obj) :
    List.Forall₂ (ObjectOf m) (compiledSources m) (listValue (varsAfter v0 lines) c!"OBJS") := by
  obtain ⟨p, rfl, -⟩ := writeMakefile_parts h
  have ok' := TargetOk.withOutput ok
  have hne' := hne
  rw [allSources_eq] at hne'
  rw [(objs_value p ok' hf hne').1]
  have he : ((withOutput m).spec.sources ++ extraSources (withOutput m).spec).filter
      (Compilable (withOutput m).flavor) = compiledSources m := (compiledSources_eq m).symm
  rw [he]
  generalize compiledSources m = l at hu
  induction l with
  | nil => exact .nil
  | cons s l ih =>
    refine .cons ?_ (ih fun x hx => hu x (List.mem_cons_of_mem _ hx))
    obtain ⟨obj, ho⟩ := hu s (List.mem_cons_self ..)
    have : objectFile m s = obj := objectOf_file ok ho
    show ObjectOf m s (objectFile m s)
    rw [this]; exact ho

example : ∃ lines t', writeMakefile exampleTarget exampleMade = some (lines, t') ∧
    List.Forall₂ (ObjectOf exampleTarget) (compiledSources exampleTarget)
      (listValue (varsAfter [] lines) c!"OBJS") := by
  obtain ⟨lines, t', h⟩ := example_written
  refine ⟨lines, t', h, C71_objects h example_ok fresh_nil (by rw [example_sources]; simp) ?_⟩
  intro s hs
  obtain ⟨y, -, hy⟩ := forall₂_left example_objects hs
  exact ⟨y, hy⟩

theorem suffix_mem {dir ext cmd : Str} {exts : List Str} (he : ext ∈ exts)
    (hc : aget (compilableExtensions m.flavor) ext = some cmd) :
    .pattern c!"$(obj).$(TOOLSET)/$(TARGET)/" dir ext cmd ∈ suffixRules m dir exts := by
  refine List.mem_flatMap.mpr ⟨ext, he, ?_⟩
  rw [hc]
  exact List.mem_cons_self ..

theorem target_suffix {srcs : List Str} {s ext cmd : Str} (hs : s ∈ srcs.filter (Compilable m.flavor))
    (hd : Dotted s ext) (hc : CompiledBy m.flavor ext cmd) :
    (∀ dir ∈ [c!"$(srcdir)/", c!"$(obj)/"],
      .pattern c!"$(obj).$(TOOLSET)/$(TARGET)/" dir (c!"." ++ ext) cmd ∈
        targetSuffixRules m srcs) := by
  intro dir hdir
  unfold targetSuffixRules
  dsimp only
  rw [if_neg (List.ne_nil_of_mem hs)]
  have hm : c!"." ++ ext ∈ Unify ((srcs.filter (Compilable m.flavor)).map fun s => (splitext s).2) := by
    have h1 : c!"." ++ ext ∈ (srcs.filter (Compilable m.flavor)).map fun s => (splitext s).2 := by
      refine List.mem_map.mpr ⟨s, hs, ?_⟩
      obtain ⟨root, -, hsp⟩ := dotted_split hd
      rw [hsp]; rfl
    rw [Unify_eq]
    obtain ⟨y, hy, he⟩ := mem_firsts id _ _ h1
    have : y = c!"." ++ ext := he
    exact this ▸ hy
  have := fun d => suffix_mem (dir := d) hm (compiledBy_mem hc).2
  simp only [List.mem_cons, List.not_mem_nil, or_false] at hdir
  simp only [List.mem_append]
  rcases hdir with rfl | rfl
  · exact Or.inl (Or.inl (Or.inl (Or.inl (Or.inr (this _)))))
  · exact Or.inl (Or.inr (this _))

theorem rstrip_noslash {a b : Str} (hb : '/' ∉ b) (hne : b ≠ []) : rstripSlash (a ++ b) = a ++ b := by
  unfold rstripSlash
  obtain ⟨b', x, rfl⟩ : ∃ b' x, b = b' ++ [x] := ⟨b.dropLast, b.getLast hne, (List.dropLast_append_getLast hne).symm⟩
  have hx : x ≠ '/' := by
    rintro rfl
    exact hb (by simp)
  rw [← List.append_assoc, List.reverse_append, List.reverse_singleton, List.singleton_append,
    List.dropWhile_cons_of_neg (by simpa using hx)]
  simp

theorem dotted_noslash {s e : Str} (h : Dotted s e) : '/' ∉ e := by
  obtain ⟨_, _, -, -, -, he, -⟩ := h
  exact he

theorem dot_noDollar {a b : Str} (h : '$' ∉ a ++ b) : '$' ∉ a ++ (c!"." ++ b) := by
  simp only [List.mem_append, not_or] at h ⊢
  exact ⟨h.1, by decide, h.2⟩

theorem root_pattern (toolset : Str) {flavor ext cmd : Str} (hc : CompiledBy flavor ext cmd) :
    (⟨c!"$(obj)." ++ toolset ++ c!"/", c!"$(obj)." ++ toolset ++ c!"/", c!"." ++ ext, cmd⟩ :
      PatternRule) ∈ patternsFrom (rootVars toolset) (rootSuffixRules flavor) := by
  have hl : .pattern c!"$(obj).$(TOOLSET)/" c!"$(obj).$(TOOLSET)/" (c!"." ++ ext) cmd ∈
      rootSuffixRules flavor := by
    refine List.mem_flatMap.mpr ⟨c!"$(obj).$(TOOLSET)/", by decide, List.mem_map.mpr ⟨(c!"." ++ ext, cmd),
      mem_of_aget (compiledBy_mem hc).2, rfl⟩⟩
  obtain ⟨pre, hpre, hin⟩ := line_pattern (v := rootVars toolset) hl
  have hno : ∀ n, ¬ Sets (rootSuffixRules flavor) n := by
    rintro n ⟨l, hl, he⟩
    obtain ⟨d, -, hl⟩ := List.mem_flatMap.mp hl
    obtain ⟨e, -, rfl⟩ := List.mem_map.mp hl
    cases he
  have hr : RefText localVars c!"$(obj).$(TOOLSET)/" :=
    .ref (n := c!"obj") (s := c!".$(TOOLSET)/") (by decide) (by decide)
      (.char (by decide) (.ref (n := c!"TOOLSET") (s := c!"/") (by decide) (by decide)
        (.char (by decide) .nil)))
  have he : expand (varsAfter (rootVars toolset) pre) c!"$(obj).$(TOOLSET)/" =
      c!"$(obj)." ++ toolset ++ c!"/" := by
    rw [expand_congr (v' := rootVars toolset) (fun n _ => not_sets_aget (hpre n (hno n))) hr]
    show c!"$(obj)." ++ (toolset ++ c!"/") = _
    simp
  rw [he] at hin
  exact hin

/-- C71: every source of a target is compiled to its object, with the compiler for its
extension. -/
theorem C71_compiled (h : writeMakefile m t = some (lines, t')) (ok : TargetOk m t) (hf : Fresh v0)
    (s : Str) (hs : s ∈ allSources m.spec) (ext cmd : Str) (hd : Dotted s ext)
    (hc : CompiledBy m.flavor ext cmd) (obj : Str) (ho : ObjectOf m s obj) :
    obj ∈ listValue (varsAfter v0 lines) c!"OBJS" ∧
      MadeByPattern (allPatterns m v0 lines) obj (sourceFile m s) cmd := by
  obtain ⟨p, rfl, -⟩ := writeMakefile_parts h
  have ok' := TargetOk.withOutput ok
  have hsrc := compiled_of hs hd hc
  have hne : m.spec.sources ++ extraSources m.spec ≠ [] :=
    List.ne_nil_of_mem (List.mem_filter.mp hsrc).1
  have hobj := objectOf_file ok ho
  constructor
  · rw [(objs_value p ok' hf hne).1]
    refine List.mem_map.mpr ⟨s, hsrc, ?_⟩
    exact hobj
  · have hfound : ∀ dir ∈ [c!"$(srcdir)/", c!"$(obj)/"],
        (⟨objectDir m, dir, c!"." ++ ext, cmd⟩ : PatternRule) ∈ patternsFrom v0 p.lines := by
      intro dir hdir
      have hpat := target_suffix (m := m) hsrc hd hc dir hdir
      obtain ⟨pre, hpre, hin⟩ := line_pattern (v := varsAfter (p.before v0) p.sources) hpat
      have hlive : Live m.spec (varsAfter (varsAfter (p.before v0) p.sources) pre) := by
        have h1 := (parts_before p ok' hf).1.sets (parts_sources_local p)
        exact h1.sets fun n _ => hpre n targetSuffixRules_sets
      rw [hlive.expand own_ref, expand_own_dir,
        hlive.header (x := dir) (by
          simp only [List.mem_cons, List.not_mem_nil, or_false] at hdir
          rcases hdir with rfl | rfl
          · exact .ref (n := c!"srcdir") (s := c!"/") (by decide) (by decide) (.char (by decide) .nil)
          · exact .ref (n := c!"obj") (s := c!"/") (by decide) (by decide) (.char (by decide) .nil))]
        at hin
      rw [parts_lines, patternsFrom_append, patternsFrom_append]
      refine List.mem_append_left _ (List.mem_append_right _ ?_)
      rw [patternsFrom_append]
      exact List.mem_append_right _ hin
    have hext : ∀ {e x : Str}, Dotted s e → e = ext := by
      intro e _ hd'
      obtain ⟨r1, -, h1⟩ := dotted_split hd
      obtain ⟨r2, -, h2⟩ := dotted_split hd'
      rw [h1] at h2
      injection h2 with _ h2
      injection h2 with _ h2
      exact h2.symm
    cases ho with
    | @plain _ stem e hd' hno habs hfile =>
      have : e = ext := hext (x := []) hd'
      subst this
      refine ⟨_, List.mem_append_left _ (hfound c!"$(srcdir)/" (by simp)), stem, rfl, ?_, rfl⟩
      unfold sourceFile
      rw [if_neg hno, hfile]
      simp
    | @shared stem e hd' hno =>
      have : e = ext := hext (x := []) (by
        have := dotted_after (d := c!"$(obj)") hd'
        simpa using this)
      subst this
      refine ⟨_, List.mem_append_left _ (hfound c!"$(obj)/" (by simp)), stem, rfl, ?_, rfl⟩
      unfold sourceFile fileName
      rw [if_pos (by simp), if_pos (by simp), List.append_assoc _ c!"." e,
        rstrip_noslash (by simp [dotted_noslash hd']) (by simp),
        show c!"$(obj)/" ++ stem ++ (c!"." ++ e) = c!"$(obj)/" ++ (stem ++ (c!"." ++ e)) by simp,
        expand_append _ (R := localVars) (a := c!"$(obj)/") (.ref (n := c!"obj") (s := c!"/")
          (by decide) (by decide) (.char (by decide) .nil)), expand_plain _ (dot_noDollar hno)]
      show c!"$(obj)/" ++ _ = _
      simp
    | @own stem e hd' hno =>
      have : e = ext := hext (x := []) (by
        have := dotted_after (d := c!"$(obj).$(TOOLSET)/$(TARGET)") hd'
        simpa using this)
      subst this
      refine ⟨⟨c!"$(obj)." ++ m.spec.toolset ++ c!"/", c!"$(obj)." ++ m.spec.toolset ++ c!"/",
        c!"." ++ e, cmd⟩, List.mem_append_right _ (root_pattern _ hc),
        m.spec.targetName ++ c!"/" ++ stem, by simp [objectDir], ?_, rfl⟩
      unfold sourceFile fileName
      rw [if_pos (by simp), if_pos (by simp), List.append_assoc _ c!"." e,
        rstrip_noslash (by simp [dotted_noslash hd']) (by simp),
        show c!"$(obj).$(TOOLSET)/$(TARGET)/" ++ stem ++ (c!"." ++ e) =
          c!"$(obj).$(TOOLSET)/$(TARGET)/" ++ (stem ++ (c!"." ++ e)) by simp,
        expand_append _ own_ref, expand_plain _ (dot_noDollar hno), expand_own_dir]
      simp

example : ∃ lines t', writeMakefile exampleTarget exampleMade = some (lines, t') ∧
    MadeByPattern (allPatterns exampleTarget [] lines) c!"$(obj).target/prog/common/x.o"
      c!"$(srcdir)/common/x.c" c!"cc" ∧
    MadeByPattern (allPatterns exampleTarget [] lines) c!"$(obj).target/prog/gen/y.o"
      c!"$(obj)/gen/y.cc" c!"cxx" ∧
    MadeByPattern (allPatterns exampleTarget [] lines) c!"$(obj).target/prog/geni/z.o"
      c!"$(obj).target/prog/geni/z.c" c!"cc" := by
  obtain ⟨lines, t', h⟩ := example_written
  refine ⟨lines, t', h, ?_, ?_, ?_⟩
  · exact (C71_compiled h example_ok fresh_nil c!"../common/x.c" (by rw [example_sources]; decide)
      c!"c" _ (dotted_of c!"../common/" c!"x" rfl (by simp) (by decide) (by decide)) .c _
      (.plain (stem := c!"common/x")
        (dotted_of c!"../common/" c!"x" rfl (by simp) (by decide) (by decide)) (by decide) (by decide)
        (by decide))).2
  · exact (C71_compiled h example_ok fresh_nil c!"$(obj)/gen/y.cc" (by rw [example_sources]; decide)
      c!"cc" _ (dotted_of c!"$(obj)/gen/" c!"y" rfl (by simp) (by decide) (by decide)) .cc _
      (.shared (stem := c!"gen/y") (ext := c!"cc")
        (dotted_of c!"gen/" c!"y" rfl (by simp) (by decide) (by decide)) (by decide))).2
  · exact (C71_compiled h example_ok fresh_nil c!"$(obj).$(TOOLSET)/$(TARGET)/geni/z.c"
      (by rw [example_sources]; decide)
      c!"c" _ (dotted_of c!"$(obj).$(TOOLSET)/$(TARGET)/geni/" c!"z" rfl (by simp) (by decide)
        (by decide)) .c _
      (.own (stem := c!"geni/z") (ext := c!"c")
        (dotted_of c!"geni/" c!"z" rfl (by simp) (by decide) (by decide)) (by decide))).2

/-- C71: no pattern rule compiles a file with another compiler than that for its extension. -/
theorem C71_compiler (h : writeMakefile m t = some (lines, t')) (x : PatternRule)
    (hx : x ∈ allPatterns m v0 lines) :
    ∃ ext, x.ext = c!"." ++ ext ∧ CompiledBy m.flavor ext x.cmd := by
  obtain ⟨p, rfl, -⟩ := writeMakefile_parts h
  rcases List.mem_append.mp hx with hx | hx
  · obtain ⟨a, b, hl⟩ := patternsFrom_line hx
    have hl := parts_pattern p hl rfl
    have key : ∀ dir exts, .pattern a b x.ext x.cmd ∈ suffixRules (withOutput m) dir exts →
        ∃ ext, x.ext = c!"." ++ ext ∧ CompiledBy m.flavor ext x.cmd := by
      intro dir exts hin
      obtain ⟨e, -, hin⟩ := List.mem_flatMap.mp hin
      split at hin
      · rename_i cmd hc
        simp only [List.mem_cons, MkLine.pattern.injEq, reduceCtorEq, List.not_mem_nil,
          or_false] at hin
        obtain ⟨-, -, e1, e2⟩ := hin
        rw [e1, e2]
        exact compiledBy_of hc
      · cases hin
    unfold targetSuffixRules at hl
    dsimp only at hl
    split at hl
    · cases hl
    · simp only [List.mem_append, List.mem_cons, reduceCtorEq, List.not_mem_nil, or_false,
        false_or] at hl
      rcases hl with (hl | hl) | hl <;> exact key _ _ hl
  · obtain ⟨a, b, hl⟩ := patternsFrom_line hx
    obtain ⟨dir, -, hl⟩ := List.mem_flatMap.mp hl
    obtain ⟨e, he, hl⟩ := List.mem_map.mp hl
    injection hl with _ _ h3 h4
    have : aget (compilableExtensions m.flavor) e.1 = some e.2 := by
      unfold compilableExtensions at he ⊢
      by_cases hz : m.flavor = c!"zos"
      · rw [if_pos hz] at he ⊢
        simp only [List.cons_append, List.nil_append, List.mem_cons, List.not_mem_nil, or_false] at he
        rcases he with rfl | rfl | rfl | rfl | rfl | rfl | rfl <;> rfl
      · rw [if_neg hz] at he ⊢
        simp only [List.append_nil, List.mem_cons, List.not_mem_nil, or_false] at he
        rcases he with rfl | rfl | rfl | rfl | rfl | rfl <;> rfl
    rw [← h3, ← h4]
    exact compiledBy_of this

example : ∃ lines t', writeMakefile exampleTarget exampleMade = some (lines, t') ∧
    ∃ x ∈ allPatterns exampleTarget [] lines, x.ext = c!".cc" ∧ x.cmd = c!"cxx" := by
  obtain ⟨lines, t', h⟩ := example_written
  exact ⟨lines, t', h, ⟨c!"$(obj).target/", c!"$(srcdir)/", c!".cc", c!"cxx"⟩,
    List.mem_append_right _ (by decide), rfl, rfl⟩

theorem patternsFrom_source {v : MakeVars} {ls : List MkLine} {x : PatternRule}
    (h : x ∈ patternsFrom v ls) : ∃ pre post a b, ls = pre ++ .pattern a b x.ext x.cmd :: post ∧
      x.source = expand (varsAfter v pre) b := by
  induction ls generalizing v with
  | nil => cases h
  | cons l ls ih =>
    have rest : ∀ l', (l = l') → x ∈ patternsFrom (addVar v l') ls →
        ∃ pre post a b, l :: ls = pre ++ .pattern a b x.ext x.cmd :: post ∧
          x.source = expand (varsAfter v pre) b := by
      rintro l' rfl hx
      obtain ⟨pre, post, a, b, rfl, hb⟩ := ih hx
      exact ⟨l :: pre, post, a, b, rfl, hb⟩
    cases l with
    | pattern a b e c =>
      rcases List.mem_cons.mp h with rfl | h
      · exact ⟨[], ls, a, b, rfl, rfl⟩
      · exact rest _ rfl h
    | _ => exact rest _ rfl h

/-- C71, what the code does not do: a source that is named by an absolute path is never compiled
from that path; every pattern rule looks below the source directory or the directories of
generated files. -/
theorem C71_absolute (h : writeMakefile m t = some (lines, t')) (hf : Fresh v0)
    (obj source cmd : Str) (hx : MadeByPattern (allPatterns m v0 lines) obj source cmd) :
    ∃ dir rest, dir ∈ [c!"$(srcdir)/", c!"$(obj)/", c!"$(obj)."] ∧ source = dir ++ rest := by
  obtain ⟨x, hx, stem, -, rfl, -⟩ := hx
  have key : ∀ (v : MakeVars) (b : Str), Fresh v →
      b ∈ [c!"$(srcdir)/", c!"$(obj).$(TOOLSET)/", c!"$(obj)/"] →
      ∃ dir rest, dir ∈ [c!"$(srcdir)/", c!"$(obj)/", c!"$(obj)."] ∧
        expand v b ++ stem ++ x.ext = dir ++ rest := by
    intro v b hv hb
    have hst : ∀ {s}, RefText headerVars s → expand v s = s := fun hs => expand_stable v hv hs
    simp only [List.mem_cons, List.not_mem_nil, or_false] at hb
    rcases hb with rfl | rfl | rfl
    · rw [hst (s := c!"$(srcdir)/") (.ref (n := c!"srcdir") (s := c!"/") (by decide) (by decide) (.plain (by decide)))]
      exact ⟨c!"$(srcdir)/", stem ++ x.ext, by simp, by simp⟩
    · rw [show c!"$(obj).$(TOOLSET)/" = c!"$(obj)." ++ c!"$(TOOLSET)/" from rfl,
        expand_append v (R := headerVars) (a := c!"$(obj).")
          (.ref (n := c!"obj") (s := c!".") (by decide) (by decide) (.plain (by decide))),
        hst (s := c!"$(obj).") (.ref (n := c!"obj") (s := c!".") (by decide) (by decide) (.plain (by decide)))]
      exact ⟨c!"$(obj).", expand v c!"$(TOOLSET)/" ++ stem ++ x.ext, by simp, by simp⟩
    · rw [hst (s := c!"$(obj)/") (.ref (n := c!"obj") (s := c!"/") (by decide) (by decide) (.plain (by decide)))]
      exact ⟨c!"$(obj)/", stem ++ x.ext, by simp, by simp⟩
  rcases List.mem_append.mp hx with hx | hx
  · obtain ⟨pre, post, a, b, hl, hb⟩ := patternsFrom_source hx
    rw [hb]
    obtain ⟨p, rfl, -⟩ := writeMakefile_parts h
    refine key _ b (fun n hn => ?_) ?_
    · rw [not_sets_aget, hf n hn]
      intro hs
      have hs' : Sets p.lines n := by rw [hl]; exact Sets.append.mpr (Or.inl hs)
      have hloc : n ∈ localVars := by
        unfold localVars; exact List.mem_cons_of_mem _ (List.mem_cons_of_mem _ hn)
      unfold MkParts.lines at hs'
      simp only [Sets.append] at hs'
      rcases hs' with (((((hs' | hs') | hs') | hs') | hs') | hs') | hs'
      · obtain ⟨l, hl, he⟩ := hs'
        simp only [List.mem_cons, List.not_mem_nil, or_false] at hl
        rcases hl with rfl | rfl <;> injection he with he <;> subst he <;> revert hn <;> decide
      · exact parts_actions_local p n hloc hs'
      · exact parts_rules_local p n hloc hs'
      · exact parts_copies_local p n hloc hs'
      · exact parts_sources_local p n hloc hs'
      · exact targetSuffixRules_sets hs'
      · exact parts_target_local p n hloc hs'
    · have hl' : .pattern a b x.ext x.cmd ∈ p.lines := by rw [hl]; simp
      have hl' := parts_pattern p hl' rfl
      have dirOf : ∀ dir exts, .pattern a b x.ext x.cmd ∈ suffixRules (withOutput m) dir exts →
          b = dir := by
        intro dir exts hin
        obtain ⟨e, -, hin⟩ := List.mem_flatMap.mp hin
        split at hin
        · simp only [List.mem_cons, MkLine.pattern.injEq, reduceCtorEq, List.not_mem_nil,
            or_false] at hin
          exact hin.2.1
        · cases hin
      unfold targetSuffixRules at hl'
      dsimp only at hl'
      split at hl'
      · cases hl'
      · simp only [List.mem_append, List.mem_cons, reduceCtorEq, List.not_mem_nil, or_false,
          false_or] at hl'
        rcases hl' with (hl' | hl') | hl' <;> rw [dirOf _ _ hl'] <;> simp
  · obtain ⟨pre, post, a, b, hl, hb⟩ := patternsFrom_source hx
    rw [hb]
    have hnone : ∀ l ∈ rootSuffixRules m.flavor, setsVar l = none := by
      intro l hl
      obtain ⟨dir, -, hl⟩ := List.mem_flatMap.mp hl
      obtain ⟨e, -, rfl⟩ := List.mem_map.mp hl
      rfl
    refine key _ b (fun n hn => ?_) ?_
    · rw [not_sets_aget]
      · revert n; unfold rootVars; intro n hn
        simp only [headerVars, List.mem_cons, List.not_mem_nil, or_false] at hn
        rcases hn with rfl | rfl | rfl <;> rfl
      · rintro ⟨l, hl', he⟩
        rw [hnone l (by rw [hl]; simp [hl'])] at he
        cases he
    · have hl' : .pattern a b x.ext x.cmd ∈ rootSuffixRules m.flavor := by rw [hl]; simp
      obtain ⟨dir, hdir, hl'⟩ := List.mem_flatMap.mp hl'
      obtain ⟨e, -, hl'⟩ := List.mem_map.mp hl'
      injection hl' with _ h2
      rw [← h2]
      exact hdir

/-- C71: sources in the source tree with the same object differ in their extensions only, and
belong to targets of the same name and toolset. -/
theorem C71_distinct (m₁ m₂ : MkSelf) (s₁ s₂ e₁ e₂ obj : Str)
    (ht : '/' ∉ m₁.spec.toolset ++ m₂.spec.toolset ++ m₁.spec.targetName ++ m₂.spec.targetName)
    (h₁ : ObjectOf m₁ s₁ obj) (h₂ : ObjectOf m₂ s₂ obj) (hp₁ : '$' ∉ s₁) (hp₂ : '$' ∉ s₂)
    (hd₁ : Dotted s₁ e₁) (hd₂ : Dotted s₂ e₂) :
    m₁.spec.toolset = m₂.spec.toolset ∧ m₁.spec.targetName = m₂.spec.targetName ∧
      ∃ stem, fileName m₁ s₁ = stem ++ c!"." ++ e₁ ∧ fileName m₂ s₂ = stem ++ c!"." ++ e₂ := by
  simp only [List.mem_append, not_or] at ht
  have hext : ∀ {s e e' : Str}, Dotted s e → Dotted s e' → e = e' := by
    intro s e e' hd hd'
    obtain ⟨r1, -, h1⟩ := dotted_split hd
    obtain ⟨r2, -, h2⟩ := dotted_split hd'
    rw [h1] at h2
    injection h2 with _ h2
    injection h2 with _ h2
  have cut : ∀ {a b x y : Str}, '/' ∉ a → '/' ∉ b → a ++ '/' :: x = b ++ '/' :: y → a = b ∧ x = y := by
    intro a b x y ha hb he
    induction a generalizing b with
    | nil =>
      cases b with
      | nil => simpa using he
      | cons c b =>
        simp only [List.nil_append, List.cons_append, List.cons.injEq] at he
        exact absurd (by simp [← he.1]) hb
    | cons c a ih =>
      cases b with
      | nil =>
        simp only [List.nil_append, List.cons_append, List.cons.injEq] at he
        exact absurd (by simp [he.1]) ha
      | cons d b =>
        simp only [List.cons_append, List.cons.injEq] at he
        have := ih (b := b) (fun h => ha (by simp [h])) (fun h => hb (by simp [h])) he.2
        exact ⟨by rw [he.1, this.1], this.2⟩
  cases h₁ with
  | shared => exact absurd (by simp) hp₁
  | own => exact absurd (by simp) hp₁
  | @plain _ stem₁ x₁ d₁ n₁ a₁ f₁ =>
    generalize hobj : objectDir m₁ ++ stem₁ ++ c!".o" = obj at h₂
    cases h₂ with
    | shared => exact absurd (by simp) hp₂
    | own => exact absurd (by simp) hp₂
    | @plain _ stem₂ x₂ d₂ n₂ a₂ f₂ =>
      have hobj := List.append_cancel_right hobj
      unfold objectDir at hobj
      simp only [List.append_assoc, List.append_cancel_left_eq] at hobj
      have c1 := cut ht.1.1.1 ht.1.1.2 hobj
      have c2 := cut ht.1.2 ht.2 c1.2
      refine ⟨c1.1, c2.1, stem₁, ?_, ?_⟩
      · rw [f₁, hext d₁ hd₁]
      · rw [f₂, hext d₂ hd₂, show stem₁ = stem₂ from c2.2]

example : ObjectOf exampleTarget c!"main.cc" c!"$(obj).target/prog/lib/main.o" ∧
    ObjectOf exampleTarget c!"../lib/main.c" c!"$(obj).target/prog/lib/main.o" :=
  ⟨.plain (stem := c!"lib/main") (dotted_of [] c!"main" rfl (by simp) (by decide) (by decide))
      (by decide) (by decide) (by decide),
    .plain (stem := c!"lib/main") (dotted_of c!"../lib/" c!"main" rfl (by simp) (by decide) (by decide))
      (by decide) (by decide) (by decide)⟩

/-- C71, what the code does not do: sources above the directory of the build files have objects
outside of the directory of their target, so that different targets write the same file. -/
theorem C71_outside : ∃ (m₁ m₂ : MkSelf) (o₁ o₂ : Str),
    m₁.spec.targetName ≠ m₂.spec.targetName ∧ ObjectOf m₁ c!"../x.cc" o₁ ∧
      ObjectOf m₂ c!"../x.cc" o₂ ∧ ∀ dir : Loc, walk dir o₁ = walk dir o₂ := by
  refine ⟨{ exampleTarget with path := [] }, { exampleTarget with
    path := [], spec := { exampleTarget.spec with targetName := c!"other" } },
    c!"$(obj).target/prog/../x.o", c!"$(obj).target/other/../x.o", by decide,
    .plain (stem := c!"../x") (dotted_of c!"../" c!"x" rfl (by simp) (by decide) (by decide))
      (by decide) (by decide) (by decide),
    .plain (stem := c!"../x") (dotted_of c!"../" c!"x" rfl (by simp) (by decide) (by decide))
      (by decide) (by decide) (by decide), fun dir => ?_⟩
  simp [walk, splitOn, walkStep]

end Gyp
