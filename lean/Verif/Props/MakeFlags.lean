import Verif.Proofs.MakeArgs
import Verif.Model.MakeCommands
/-
C75: the command lines that compile and link have the arguments of the configuration that is built.
-/
namespace Gyp
open Spec

variable {m : MkSelf} {t t' : MkOutputs} {v0 : MakeVars} {lines : List MkLine}

/-! ### Compiling -/

theorem basename_mem {s : Str} {c : Char} (h : c ∈ basename s) : c ∈ s := by
  unfold basename at h
  split at h
  · exact h
  · rename_i e
    rw [(rsplit1_some e).1]
    simp [h]

theorem computed_env (p : MkParts m t) {v1 : MakeVars} {y : Str} {pre : List Str} {a x : Str} {b : Str}
    (ha : a ∈ [c!"CC.", c!"CXX.", c!"CFLAGS.", c!"CXXFLAGS.", c!"LINK.", c!"LDFLAGS."]) {ws : List Str}
    (ht : localValue (localValues v0 p.lines) y c!"TOOLSET" = some x)
    (hw : shellWords (valueOf v1 (a ++ x)) = some ws) (hb : b = c!"$(" ++ a ++ c!"$(" ++ c!"TOOLSET" ++ c!"))") :
    Reads (recipeEnv v1 (localValues v0 p.lines) y pre) b ws := by
  subst hb
  have hx : recipeEnv v1 (localValues v0 p.lines) y pre c!"TOOLSET" = x := local_value (by decide) ht
  have hn : a ++ x ∉ localNames ∧ a ++ x ∉ [c!"@", c!"@F", c!"<", c!"^"] ∧
      functionValue v1 (a ++ x) = none := by
    simp only [List.mem_cons, List.not_mem_nil, or_false] at ha
    rcases ha with rfl | rfl | rfl | rfl | rfl | rfl <;> simp [localNames, functionValue, startsWith, List.isPrefixOf]
  refine reads_computed ?_ (by unfold NameText; decide) ?_
  · simp only [List.mem_cons, List.not_mem_nil, or_false] at ha
    rcases ha with rfl | rfl | rfl | rfl | rfl | rfl <;> (unfold NameText; decide)
  · rw [hx, global_value p hn.1 hn.2.1 hn.2.2]
    exact hw

theorem reads_auto {v1 : MakeVars} {ls : List (Str × Str × Str)} {y : Str} {pre : List Str} (h : PlainWord y) :
    Reads (recipeEnv v1 ls y pre) c!"$@" [y] :=
  ⟨y, deep_auto (c := '@') (recipeEnv v1 ls y pre) (by decide), words_plain h⟩

/-- C75: a source is compiled with the definitions, the include directories and the flags of the
configuration that is built and of no other, to its object. -/
theorem C75_compile (h : writeMakefile m t = some (lines, t')) (ok : TargetOk m t) (c : MkConfig)
    (hh : HeaderOk v0 c.name) (hc : c ∈ m.spec.configs) (hcs : ConfigsOk m.spec.configs)
    (co : CompileOk m v0 c) (s obj : Str) (hs : s ∈ compiledSources m) (ho : ObjectOf m s obj)
    (cmd tool env : Str) (flags : List Str)
    (hl : (cmd, tool, env, flags) ∈ [(c!"cc", c!"CC.", c!"CFLAGS.", c.cflagsC),
      (c!"cxx", c!"CXX.", c!"CXXFLAGS.", c.cflagsCC)])
    (ws : List (List Str)) (hw : List.Forall₂ (FlagWords (seenVars m v0)) (c.cflags ++ flags) ws)
    (v1 : MakeVars) (compiler depflags more : List Str)
    (h1 : shellWords (valueOf v1 (tool ++ m.spec.toolset)) = some compiler)
    (h2 : shellWords (valueOf v1 c!"DEPFLAGS") = some depflags)
    (h3 : shellWords (valueOf v1 (env ++ m.spec.toolset)) = some more)
    (src : Str) (rest : List Str) (hsrc : PlainWord src) (hobj : PlainWord (expand v0 obj)) :
    ∃ text line, compileCommand cmd = some text ∧
      commandLine v1 (localValues v0 lines) (expand v0 obj) (src :: rest) text = some line ∧
      shellWords line = some (compiler ++ [c!"-o", expand v0 obj, src] ++ commonArgs m v0 c ++
        ws.flatten ++ depflags ++ more ++ [c!"-c"]) := by
  obtain ⟨p, rfl, -⟩ := writeMakefile_parts h
  have ok' := TargetOk.withOutput ok
  have hfile : objectFile (withOutput m) s = obj := objectOf_file ok ho
  have hs' : s ∈ ((withOutput m).spec.sources ++ extraSources (withOutput m).spec).filter
      (Compilable (withOutput m).flavor) := by
    rw [compiledSources_eq m] at hs; exact hs
  obtain ⟨ht, hf⟩ := object_locals p ok' hh hc hcs ⟨co.defines, co.includes⟩ hs'
  rw [hfile] at ht hf
  have hdep : ∀ {y pre}, Reads (recipeEnv v1 (localValues v0 p.lines) y pre) c!"$(DEPFLAGS)" depflags :=
    fun {y pre} => reads_ref (n := c!"DEPFLAGS") (by unfold NameText; decide) (by
      rw [global_value p (by decide) (by decide) rfl]; exact h2)
  have hlt : Reads (recipeEnv v1 (localValues v0 p.lines) (expand v0 obj) (src :: rest)) c!"$<" [src] :=
    ⟨src, deep_auto (c := '<') (recipeEnv v1 _ _ (src :: rest)) (by decide), words_plain hsrc⟩
  have lit : ∀ w : Str, PlainWord w →
      Reads (recipeEnv v1 (localValues v0 p.lines) (expand v0 obj) (src :: rest)) w [w] := fun w => reads_lit _
  simp only [List.mem_cons, Prod.mk.injEq, List.not_mem_nil, or_false] at hl
  rcases hl with ⟨rfl, rfl, rfl, rfl⟩ | ⟨rfl, rfl, rfl, rfl⟩
  · obtain ⟨x, hx, hxw⟩ := hf c!"C_" c.cflagsC c!"GYP_CFLAGS" (by simp)
    have hg : Reads (recipeEnv v1 (localValues v0 p.lines) (expand v0 obj) (src :: rest)) c!"$(GYP_CFLAGS)"
        (commonArgs m v0 c ++ ws.flatten) := reads_ref (n := c!"GYP_CFLAGS") (by unfold NameText; decide) (by
      rw [local_value (by decide) hx]
      exact hxw ws hw)
    obtain ⟨line, e1, e2⟩ := reads_join (.cons (computed_env p (a := c!"CC.") (by simp) ht h1 rfl)
      (.cons (lit c!"-o" (by unfold PlainWord; decide)) (.cons (reads_auto hobj) (.cons hlt (.cons hg
        (.cons hdep (.cons (computed_env p (a := c!"CFLAGS.") (by simp) ht h3 rfl)
          (.cons (lit c!"-c" (by unfold PlainWord; decide)) .nil))))))))
    refine ⟨_, line, rfl, e1, ?_⟩
    rw [e2]
    simp
  · obtain ⟨x, hx, hxw⟩ := hf c!"CC_" c.cflagsCC c!"GYP_CXXFLAGS" (by simp)
    have hg : Reads (recipeEnv v1 (localValues v0 p.lines) (expand v0 obj) (src :: rest)) c!"$(GYP_CXXFLAGS)"
        (commonArgs m v0 c ++ ws.flatten) := reads_ref (n := c!"GYP_CXXFLAGS") (by unfold NameText; decide) (by
      rw [local_value (by decide) hx]
      exact hxw ws hw)
    obtain ⟨line, e1, e2⟩ := reads_join (.cons (computed_env p (a := c!"CXX.") (by simp) ht h1 rfl)
      (.cons (lit c!"-o" (by unfold PlainWord; decide)) (.cons (reads_auto hobj) (.cons hlt (.cons hg
        (.cons hdep (.cons (computed_env p (a := c!"CXXFLAGS.") (by simp) ht h3 rfl)
          (.cons (lit c!"-c" (by unfold PlainWord; decide)) .nil))))))))
    refine ⟨_, line, rfl, e1, ?_⟩
    rw [e2]
    simp

/-! ### Linking -/

theorem drop_filterOut (s : Str) : (c!"filter-out FORCE_DO_CMD, " ++ s).drop 25 = s := rfl

theorem reads_all {v1 : MakeVars} {ls : List (Str × Str × Str)} {y : Str} {pre : List Str}
    (h : ∀ f ∈ pre, PlainWord f ∧ MkClean f) :
    Reads (recipeEnv v1 ls y pre) c!"$(filter-out FORCE_DO_CMD, $^)" (pre.filter (· ≠ c!"FORCE_DO_CMD")) := by
  have hd := deep_function (recipeEnv v1 ls y pre) (pre := c!"filter-out FORCE_DO_CMD, ") (c := '^')
    (by unfold NameText; decide) (by decide)
  have h1 : recipeEnv v1 ls y pre ['^'] = joinWith [' '] pre := rfl
  have h2 : recipeEnv v1 ls y pre (c!"filter-out FORCE_DO_CMD, " ++ joinWith [' '] pre) =
      joinWith [' '] (pre.filter (· ≠ c!"FORCE_DO_CMD")) := by
    have hs : startsWith (c!"filter-out FORCE_DO_CMD, " ++ joinWith [' '] pre)
        c!"filter-out FORCE_DO_CMD, " = true := by
      simp [startsWith]
    unfold recipeEnv
    rw [if_neg (by simp), if_neg (by simp), if_neg (by simp), if_neg (by simp)]
    unfold functionValue
    rw [if_pos hs, drop_filterOut, Option.getD_some]
    unfold withoutForce
    rw [names_cleanList fun s hs => ⟨(h s hs).2, (h s hs).1.1⟩]
  rw [h1, h2] at hd
  refine ⟨_, hd, ?_⟩
  have := words_join (f := id) (l := pre.filter (· ≠ c!"FORCE_DO_CMD")) (g := fun s => [s])
    fun s hs => words_plain (h s (List.mem_filter.mp hs).1).1
  rw [List.map_id] at this
  rw [this]
  congr 1
  generalize pre.filter _ = l
  induction l with
  | nil => rfl
  | cons x l ih => rw [List.flatMap_cons, ih]; rfl

theorem reads_soname {v1 : MakeVars} {ls : List (Str × Str × Str)} {y : Str} {pre : List Str} (h : PlainWord y) :
    Reads (recipeEnv v1 ls y pre) c!"-Wl,-soname=$(@F)" [c!"-Wl,-soname=" ++ basename y] := by
  refine ⟨c!"-Wl,-soname=" ++ basename y, ?_, words_plain ⟨by simp, ?_⟩⟩
  · exact deep_append (deep_plain _ (s := c!"-Wl,-soname=") (by decide))
      (deep_ref (recipeEnv v1 ls y pre) (n := c!"@F") (by unfold NameText; decide))
  · intro c hc
    rcases List.mem_append.mp hc with hc | hc
    · have hd : ∀ c ∈ c!"-Wl,-soname=", activePlain c = false ∧ c ∉ [' ', '\t', '\\', '\'', '\"'] := by decide
      exact hd c hc
    · exact h.2 c (basename_mem hc)

/-- The types of targets that are linked. -/
def linkTypes : List Str := [c!"executable", c!"shared_library", c!"loadable_module"]

/-- C75: a program, a shared library or a module is linked from its objects, the objects among its
sources and the libraries of its dependencies, with the flags and library directories of the
configuration that is built and the libraries of the target, to its product. -/
theorem C75_link (h : writeMakefile m t = some (lines, t')) (ok : TargetOk m t) (c : MkConfig)
    (hh : HeaderOk v0 c.name) (hc : c ∈ m.spec.configs) (hcs : ConfigsOk m.spec.configs)
    (hmac : m.flavor ≠ c!"mac") (ht : m.spec.type ∈ linkTypes)
    (objs : List Str) (ho : List.Forall₂ (ObjectOf m) (compiledSources m) objs)
    (ld dirs libs : List (List Str)) (hld : List.Forall₂ (FlagWords (seenVars m v0)) c.ldflags ld)
    (hdirs : List.Forall₂ (FlagWords (seenVars m v0)) (c.libraryDirs.map (c!"-L" ++ ·)) dirs)
    (hlibs : List.Forall₂ (FlagWords (seenVars m v0)) (once m.spec.libraries) libs)
    (b : Str) (hb : aget v0 c!"builddir" = some b) (hbp : PlainWord b)
    (rpath : List Str) (hr : (SharedDep t m.spec ∧ rpath = [c!"-Wl,-rpath=$ORIGIN/", c!"-Wl,-rpath-link=" ++ b ++ c!"/"]) ∨
      ¬ SharedDep t m.spec ∧ rpath = [])
    (inputs : List Str) (hin : inputs = objs.map (expand v0) ++
      (objectSources m.spec).map (expand (seenVars m v0)) ++ (linkedLibs t m.spec).map (expand v0))
    (out : Str) (hout : out = expand v0 (productFile m)) (hplain : ∀ f ∈ out :: inputs, PlainWord f)
    (v1 : MakeVars) (link more : List Str)
    (h1 : shellWords (valueOf v1 (c!"LINK." ++ m.spec.toolset)) = some link)
    (h2 : shellWords (valueOf v1 (c!"LDFLAGS." ++ m.spec.toolset)) = some more)
    (prereqs : List Str) (hp : ∀ f ∈ prereqs, PlainWord f ∧ MkClean f) :
    ∃ cmd text line args, LinkedBy m (c!"$(call do_cmd," ++ cmd ++ c!")") ∧
      linkCommand m.flavor cmd = some text ∧
      commandLine v1 (localValues v0 lines) out prereqs text = some line ∧
      linkArgs m.flavor m.spec.type (m.spec.toolset = c!"host") link out
        (ld.flatten ++ rpath ++ dirs.flatten) more inputs
        (prereqs.filter (· ≠ c!"FORCE_DO_CMD")) libs.flatten = some args ∧
      shellWords line = some args := by
  obtain ⟨p, rfl, -⟩ := writeMakefile_parts h
  have ok' := TargetOk.withOutput ok
  have htl : (withOutput m).spec.type ∈ linkedTypes := by
    show m.spec.type ∈ linkedTypes
    simp only [linkTypes, List.mem_cons, List.not_mem_nil, or_false] at ht
    rcases ht with e | e | e <;> rw [e] <;> decide
  have hnone : (withOutput m).spec.type ≠ c!"none" := by
    show m.spec.type ≠ c!"none"
    intro e
    rw [e] at ht
    revert ht; decide
  subst hout
  have htool := product_toolset (v0 := v0) p ok' rfl hh htl
  obtain ⟨⟨x1, hx1, w1⟩, x2, hx2, w2⟩ := product_flags p ok' rfl hh hc hcs hnone
  change localValue _ (expand v0 (productFile m)) _ = _ at hx1 hx2 htool
  have hflags : shellWords x1 = some (ld.flatten ++ rpath ++ dirs.flatten) := by
    rcases hr with ⟨hsh, rfl⟩ | ⟨hsh, rfl⟩
    · have e : ldflagsOf p.deps c = c.ldflags ++ [c!"-Wl,-rpath=\\$$ORIGIN/", c!"-Wl,-rpath-link=\\$(builddir)/"] ++
          c.libraryDirs.map (c!"-L" ++ ·) := by
        unfold ldflagsOf
        rw [if_pos ((shared_iff p).mpr hsh)]
      have := w1 _ (by rw [e]; exact List.rel_append (List.rel_append hld (rpath_flags hb hbp)) hdirs)
      rw [this]
      simp
    · have e : ldflagsOf p.deps c = c.ldflags ++ [] ++ c.libraryDirs.map (c!"-L" ++ ·) := by
        unfold ldflagsOf
        rw [if_neg fun h => hsh ((shared_iff p).mp h)]
      have := w1 _ (by rw [e]; exact List.rel_append (List.rel_append hld .nil) hdirs)
      rw [this]
      simp
  have hlib : shellWords x2 = some libs.flatten := w2 _ hlibs
  -- the parts of the commands
  generalize hE : recipeEnv v1 (localValues v0 p.lines) (expand v0 (productFile m)) prereqs = E
  have tLink : Reads E c!"$(LINK.$(TOOLSET))" link := by
    rw [← hE]; exact computed_env p (a := c!"LINK.") (by simp) htool h1 rfl
  have tMore : Reads E c!"$(LDFLAGS.$(TOOLSET))" more := by
    rw [← hE]; exact computed_env p (a := c!"LDFLAGS.") (by simp) htool h2 rfl
  have tFlags : Reads E c!"$(GYP_LDFLAGS)" (ld.flatten ++ rpath ++ dirs.flatten) := by
    refine reads_ref (n := c!"GYP_LDFLAGS") (by unfold NameText; decide) ?_
    rw [← hE, local_value (by decide) hx1]; exact hflags
  have tLibs : Reads E c!"$(LIBS)" libs.flatten := by
    refine reads_ref (n := c!"LIBS") (by unfold NameText; decide) ?_
    rw [← hE, local_value (by decide) hx2]; exact hlib
  have tOut : Reads E c!"$@" [expand v0 (productFile m)] := by
    rw [← hE]; exact reads_auto (hplain _ (by simp))
  have tSo : Reads E c!"-Wl,-soname=$(@F)" [c!"-Wl,-soname=" ++ basename (expand v0 (productFile m))] := by
    rw [← hE]; exact reads_soname (hplain _ (by simp))
  have tAll : Reads E c!"$(filter-out FORCE_DO_CMD, $^)" (prereqs.filter (· ≠ c!"FORCE_DO_CMD")) := by
    rw [← hE]; exact reads_all hp
  have tIn : m.spec.type = c!"executable" ∨ m.spec.type = c!"shared_library" → Reads E c!"$(LD_INPUTS)" inputs := by
    intro hty
    have hobjs : ((withOutput m).spec.sources ++ extraSources (withOutput m).spec).filter
        (Compilable (withOutput m).flavor) = compiledSources m := (compiledSources_eq m).symm
    have hmap : (compiledSources m).map (fun s => expand v0 (objectFile (withOutput m) s)) = objs.map (expand v0) := by
      clear hin hplain hobjs
      generalize compiledSources m = cs at ho
      induction ho with
      | nil => rfl
      | @cons s o l l' h1 _ ih =>
        rw [List.map_cons, List.map_cons, ih]
        congr 1
        exact congrArg _ (objectOf_file ok h1)
    obtain ⟨x, hx, hw⟩ := product_inputs p ok' rfl hh hty (by
      rw [hobjs, hmap]
      intro f hf
      exact hplain f (List.mem_cons_of_mem _ (by rw [hin]; exact hf)))
    rw [hobjs, hmap] at hw
    change localValue _ (expand v0 (productFile m)) _ = _ at hx
    refine reads_ref (n := c!"LD_INPUTS") (by unfold NameText; decide) ?_
    rw [← hE, local_value (by decide) hx, hw, hin]
    rfl
  have lit : ∀ w : Str, PlainWord w → Reads E w [w] := fun w => reads_lit _
  have lo := lit c!"-o" (by unfold PlainWord; decide)
  have ls := lit c!"-shared" (by unfold PlainWord; decide)
  have lg := lit c!"-Wl,--start-group" (by unfold PlainWord; decide)
  have le := lit c!"-Wl,--end-group" (by unfold PlainWord; decide)
  have lw := lit c!"-Wl,--whole-archive" (by unfold PlainWord; decide)
  have ln := lit c!"-Wl,--no-whole-archive" (by unfold PlainWord; decide)
  have fin : ∀ (cmd : Str) (toks : List Str) (wss : List (List Str)),
      LinkedBy m (c!"$(call do_cmd," ++ cmd ++ c!")") → linkCommand m.flavor cmd = some (joinWith [' '] toks) →
      List.Forall₂ (Reads E) toks wss →
      linkArgs m.flavor m.spec.type (m.spec.toolset = c!"host") link (expand v0 (productFile m))
        (ld.flatten ++ rpath ++ dirs.flatten) more inputs
        (prereqs.filter (· ≠ c!"FORCE_DO_CMD")) libs.flatten = some wss.flatten → 
      ∃ cmd text line args, LinkedBy m (c!"$(call do_cmd," ++ cmd ++ c!")") ∧
        linkCommand m.flavor cmd = some text ∧
        commandLine v1 (localValues v0 p.lines) (expand v0 (productFile m)) prereqs text = some line ∧
        linkArgs m.flavor m.spec.type (m.spec.toolset = c!"host") link (expand v0 (productFile m))
          (ld.flatten ++ rpath ++ dirs.flatten) more inputs
          (prereqs.filter (· ≠ c!"FORCE_DO_CMD")) libs.flatten = some args ∧
        shellWords line = some args := by
    intro cmd toks wss g1 g2 g3 g4
    obtain ⟨line, e1, e2⟩ := reads_join g3
    refine ⟨cmd, _, line, _, g1, g2, ?_, g4, e2⟩
    unfold commandLine
    rw [hE]; exact e1
  simp only [linkTypes, List.mem_cons, List.not_mem_nil, or_false] at ht
  by_cases hA : m.flavor = c!"android"
  · rcases ht with e | e | e
    · by_cases hho : m.spec.toolset = c!"host"
      · refine fin c!"link_host" _ _ (.hostProgram e hho hA) (by rw [hA]; rfl)
          (.cons tLink (.cons tFlags (.cons tMore (.cons lo (.cons tOut (.cons lg (.cons (tIn (.inl e)) (.cons le (.cons tLibs .nil))))))))) ?_
        simp [linkArgs, hA, e]
      · refine fin c!"link" _ _ (.program e fun h => hho h.1) (by rw [hA]; rfl)
          (.cons tLink (.cons tFlags (.cons tMore (.cons lo (.cons tOut (.cons lg (.cons (tIn (.inl e)) (.cons le (.cons tLibs .nil))))))))) ?_
        simp [linkArgs, hA, e]
    · refine fin c!"solink" _ _ (.library e) (by rw [hA]; rfl)
        (.cons tLink (.cons ls (.cons tFlags (.cons tMore (.cons tSo (.cons lo (.cons tOut (.cons lw (.cons (tIn (.inr e)) (.cons ln (.cons tLibs .nil))))))))))) ?_
      simp [linkArgs, hA, e]
    · by_cases hho : m.spec.toolset = c!"host"
      · refine fin c!"solink_module_host" _ _ (.hostAddon e hho hA) (by rw [hA]; rfl)
          (.cons tLink (.cons ls (.cons tFlags (.cons tMore (.cons tSo (.cons lo (.cons tOut (.cons tAll (.cons tLibs .nil))))))))) ?_
        simp [linkArgs, hA, e, hho]
      · refine fin c!"solink_module" _ _ (.addon e fun h => hho h.1) (by rw [hA]; rfl)
          (.cons tLink (.cons ls (.cons tFlags (.cons tMore (.cons tSo (.cons lo (.cons tOut (.cons lg (.cons tAll (.cons le (.cons tLibs .nil))))))))))) ?_
        simp [linkArgs, hA, e, hho]
  have hnot : ¬ (m.spec.toolset = c!"host" ∧ m.flavor = c!"android") := fun h => hA h.2
  by_cases hZ : m.flavor = c!"zos"
  · rcases ht with e | e | e
    · refine fin c!"link" _ _ (.program e hnot) (by rw [hZ]; rfl)
        (.cons tLink (.cons tFlags (.cons tMore (.cons lo (.cons tOut (.cons (tIn (.inl e)) (.cons tLibs .nil))))))) ?_
      simp [linkArgs, hZ, e]
    · refine fin c!"solink" _ _ (.library e) (by rw [hZ]; rfl)
        (.cons tLink (.cons tFlags (.cons tMore (.cons lo (.cons tOut (.cons (tIn (.inr e)) (.cons tLibs .nil))))))) ?_
      simp [linkArgs, hZ, e]
    · refine fin c!"solink_module" _ _ (.addon e hnot) (by rw [hZ]; rfl)
        (.cons tLink (.cons tFlags (.cons tMore (.cons lo (.cons tOut (.cons tAll (.cons tLibs .nil))))))) ?_
      simp [linkArgs, hZ, e]
  by_cases hX : m.flavor = c!"aix" ∨ m.flavor = c!"os400"
  · have hc : ∀ cmd, linkCommand m.flavor cmd = linkAix cmd := by
      intro cmd
      unfold linkCommand
      rw [if_neg hmac, if_neg hA, if_neg hZ, if_pos hX]
    rcases ht with e | e | e
    · refine fin c!"link" _ _ (.program e hnot) (by rw [hc]; rfl)
        (.cons tLink (.cons tFlags (.cons tMore (.cons lo (.cons tOut (.cons (tIn (.inl e)) (.cons tLibs .nil))))))) ?_
      rcases hX with hX | hX <;> simp [linkArgs, hX, e]
    · refine fin c!"solink" _ _ (.library e) (by rw [hc]; rfl)
        (.cons tLink (.cons ls (.cons tFlags (.cons tMore (.cons lo (.cons tOut (.cons (tIn (.inr e)) (.cons tLibs .nil)))))))) ?_
      rcases hX with hX | hX <;> simp [linkArgs, hX, e]
    · refine fin c!"solink_module" _ _ (.addon e hnot) (by rw [hc]; rfl)
        (.cons tLink (.cons ls (.cons tFlags (.cons tMore (.cons lo (.cons tOut (.cons tAll (.cons tLibs .nil)))))))) ?_
      rcases hX with hX | hX <;> simp [linkArgs, hX, e]
  have hX' := not_or.mp hX
  by_cases hW : m.flavor = c!"wasi" ∨ m.flavor = c!"wasm"
  · have hc : ∀ cmd, linkCommand m.flavor cmd = linkWasm cmd := by
      intro cmd
      unfold linkCommand
      rw [if_neg hmac, if_neg hA, if_neg hZ, if_neg hX, if_pos hW]
    rcases ht with e | e | e
    · refine fin c!"link" _ _ (.program e hnot) (by rw [hc]; rfl)
        (.cons tLink (.cons lo (.cons tOut (.cons tFlags (.cons tMore (.cons (tIn (.inl e)) (.cons tLibs .nil))))))) ?_
      rcases hW with hW | hW <;> simp [linkArgs, hW, e]
    · refine fin c!"solink" _ _ (.library e) (by rw [hc]; rfl)
        (.cons tLink (.cons lo (.cons tOut (.cons ls (.cons tFlags (.cons tMore (.cons tSo (.cons lw (.cons (tIn (.inr e)) (.cons ln (.cons tLibs .nil))))))))))) ?_
      rcases hW with hW | hW <;> simp [linkArgs, hW, e]
    · refine fin c!"solink_module" _ _ (.addon e hnot) (by rw [hc]; rfl)
        (.cons tLink (.cons lo (.cons tOut (.cons ls (.cons tFlags (.cons tMore (.cons tSo (.cons tAll (.cons tLibs .nil))))))))) ?_
      rcases hW with hW | hW <;> simp [linkArgs, hW, e]
  have hW' := not_or.mp hW
  have hc : ∀ cmd, linkCommand m.flavor cmd = linkLinux cmd := by
    intro cmd
    unfold linkCommand
    rw [if_neg hmac, if_neg hA, if_neg hZ, if_neg hX, if_neg hW]
  rcases ht with e | e | e
  · refine fin c!"link" _ _ (.program e hnot) (by rw [hc]; rfl)
      (.cons tLink (.cons lo (.cons tOut (.cons tFlags (.cons tMore (.cons lg (.cons (tIn (.inl e)) (.cons tLibs (.cons le .nil))))))))) ?_
    simp [linkArgs, hA, hZ, hX', hW', e]
  · refine fin c!"solink" _ _ (.library e) (by rw [hc]; rfl)
      (.cons tLink (.cons lo (.cons tOut (.cons ls (.cons tFlags (.cons tMore (.cons tSo (.cons lw (.cons (tIn (.inr e)) (.cons ln (.cons tLibs .nil))))))))))) ?_
    simp [linkArgs, hA, hZ, hX', hW', e]
  · refine fin c!"solink_module" _ _ (.addon e hnot) (by rw [hc]; rfl)
      (.cons tLink (.cons lo (.cons tOut (.cons ls (.cons tFlags (.cons tMore (.cons tSo (.cons lg (.cons tAll (.cons le (.cons tLibs .nil))))))))))) ?_
    simp [linkArgs, hA, hZ, hX', hW', e]

/-! ### An example -/

/-- The flags of the example, for two configurations. -/
def exampleConfigs : List MkConfig :=
  [{ name := c!"Debug", defines := [c!"DEBUG=1", c!"NAME=\"a b\"", c!"X='$Y'#z"], includeDirs := [c!"include", c!"$(obj)/gen"]
     cflags := [c!"-g", c!"-O0 -Wall", c!"-DPATH=\"x/y\""], cflagsC := [c!"-std=c11"], cflagsCC := [c!"-std=c++20"]
     ldflags := [c!"-rdynamic", c!"-Wl,-Map=$(builddir)/out.map"], libraryDirs := [c!"/opt/lib"] },
   { name := c!"Release", defines := [c!"NDEBUG"], cflags := [c!"-O3"], ldflags := [c!"-s"] }]

/-- The example with these, as a target of the given type. -/
def exampleFlags (type : Str) : MkSelf :=
  { exampleTarget with spec := { exampleTarget.spec with
      type, configs := exampleConfigs, libraries := [c!"-lm", c!"-lz", c!"-lm"] } }

theorem exampleFlags_ok (type : Str) : TargetOk (exampleFlags type) exampleMade :=
  have ok := example_ok
  ⟨ok.1, ok.2, ok.3, ok.4, ok.5, ok.6, ok.7, ok.8, ok.9, ok.10, ok.11, ok.12, ok.13, ok.14, ok.15,
    ok.16, by
      show ∀ c ∈ exampleConfigs, ∀ pre ∈ [c!"DEFS_", c!"CFLAGS_", c!"CFLAGS_C_", c!"CFLAGS_CC_", c!"INCS_",
        c!"LDFLAGS_"], pre ++ c.name ≠ copiesVar exampleTarget
      intro c hc pre hp
      simp only [exampleConfigs, List.mem_cons, List.not_mem_nil, or_false] at hc hp
      rcases hc with rfl | rfl <;> rcases hp with rfl | rfl | rfl | rfl | rfl | rfl <;> decide⟩

theorem exampleFlags_written (type : Str) :
    ∃ lines t', writeMakefile (exampleFlags type) exampleMade = some (lines, t') := by
  refine C72_written (exampleFlags_ok type) ?_ ?_ ?_
  · intro d hd
    obtain rfl : d = c!"lib/a.gyp:util#target" := List.mem_singleton.mp hd
    decide
  · intro a ha
    simp only [exampleFlags, exampleTarget, List.mem_cons, List.not_mem_nil, or_false] at ha
    subst ha
    simp
  · intro r hr s hs
    obtain rfl : r = exampleRule := by simpa [exampleFlags, exampleTarget, exampleRule] using hr
    refine ⟨⟨_, _, example_outputs s hs⟩, ?_⟩
    simp [exampleRule, expandAll, ExpandInputRoot, hasSub, startsWith]

/-- The header of the example. -/
def exampleHeader (build : Str) : MakeVars :=
  [(c!"srcdir", c!".."), (c!"builddir", c!"out/x"), (c!"obj", c!"out/x/obj"), (c!"BUILDTYPE", build)]

theorem exampleHeader_ok (build : Str) : HeaderOk (exampleHeader build) build where
  dirs := by
    intro n hn
    simp only [headerVars, List.mem_cons, List.not_mem_nil, or_false] at hn
    rcases hn with rfl | rfl | rfl
    · exact ⟨c!"out/x/obj", rfl, by decide, by unfold MkClean; decide, by decide⟩
    · exact ⟨c!"out/x", rfl, by decide, by unfold MkClean; decide, by decide⟩
    · exact ⟨c!"..", rfl, by decide, by unfold MkClean; decide, by decide⟩
  build := rfl

theorem exampleConfigs_ok : ConfigsOk exampleConfigs where
  chars := by decide
  nodup := by decide
  apart := by decide

theorem flag_lit {v : MakeVars} {f : Str} {ws : List Str} (h1 : '"' ∉ f) (h2 : ListItem f) (h3 : '$' ∉ f)
    (h4 : shellWords f = some ws) : FlagWords v f ws :=
  .plain h1 h2 (fun env _ => deep_plain env h3) h4

theorem flag_word {v : MakeVars} {f : Str} (h1 : '"' ∉ f) (h2 : ListItem f) (h3 : '$' ∉ f)
    (h4 : shellWords f = some [f]) : FlagWords v f [f] := flag_lit h1 h2 h3 h4

theorem exampleFlags_objects (type : Str) :
    List.Forall₂ (ObjectOf (exampleFlags type)) (compiledSources (exampleFlags type))
    [c!"$(obj).target/prog/lib/main.o", c!"$(obj).target/prog/common/x.o", c!"$(obj).target/prog/gen/y.o",
      c!"$(obj).target/prog/geni/z.o", c!"$(obj).target/prog/lib/gen/a.o", c!"$(obj).target/prog/lib/gen/b.o"] := by
  refine example_objects.imp ?_
  intro s o h
  cases h with
  | plain h1 h2 h3 h4 => exact .plain h1 h2 h3 h4
  | shared h1 h2 => exact .shared h1 h2
  | own h1 h2 => exact .own h1 h2

/-- The configuration that is built. -/
def exampleDebug : MkConfig := exampleConfigs.head (by decide)

theorem listItem_of {s : Str} (h : '\n' ∉ s ∧ '#' ∉ s ∧ (s.head?.any fun c => !isBlank c) = true ∧
    (s.getLast?.any fun c => !isBlank c && c != '\\') = true) : ListItem s := by
  obtain ⟨h1, h2, h3, h4⟩ := h
  refine ⟨h1, h2, ?_, ?_⟩
  · cases e : s.head? with
    | none => rw [e] at h3; simp at h3
    | some c => rw [e] at h3; exact ⟨c, rfl, by simpa using h3⟩
  · cases e : s.getLast? with
    | none => rw [e] at h4; simp at h4
    | some c => rw [e] at h4; simp at h4; exact ⟨c, rfl, h4.2, h4.1⟩

theorem exampleDebug_ok (type : Str) :
    CompileOk (exampleFlags type) (exampleHeader c!"Debug") exampleDebug where
  defines := by
    intro d hd
    simp only [exampleDebug, exampleConfigs, List.head_cons, List.mem_cons, List.not_mem_nil, or_false] at hd
    rcases hd with rfl | rfl | rfl <;> exact ⟨by decide, by decide⟩
  includes := by
    intro i hi
    simp only [exampleDebug, exampleConfigs, List.head_cons, List.mem_cons, List.not_mem_nil, or_false] at hi
    rcases hi with rfl | rfl
    · exact ⟨fileText_plain (by decide) (by unfold MkClean; decide) (by decide),
        (by unfold PlainWord; decide : PlainWord c!"-Ilib/include")⟩
    · exact ⟨⟨by decide, by unfold MkClean; decide,
        .ref (n := c!"obj") (s := c!"/gen") (by decide) (by decide) (.plain (by decide))⟩,
        (by unfold PlainWord; decide : PlainWord c!"-Iout/x/obj/gen")⟩

/-- The C++ source of the example, compiled for `Debug`. -/
example : ∃ lines t' text line, writeMakefile (exampleFlags c!"executable") exampleMade = some (lines, t') ∧
    compileCommand c!"cxx" = some text ∧
    commandLine [(c!"CXX.target", c!"ccache g++"), (c!"DEPFLAGS", c!"-MMD"), (c!"CXXFLAGS.target", c!"-pipe")]
      (localValues (exampleHeader c!"Debug") lines) c!"out/x/obj.target/prog/lib/main.o"
      [c!"../lib/main.cc", c!"FORCE_DO_CMD"] text = some line ∧
    shellWords line = some [c!"ccache", c!"g++", c!"-o", c!"out/x/obj.target/prog/lib/main.o", c!"../lib/main.cc",
      c!"-DDEBUG=1", c!"-DNAME=\"a b\"", c!"-DX='$Y'#z", c!"-Ilib/include", c!"-Iout/x/obj/gen",
      c!"-g", c!"-O0", c!"-Wall", c!"-DPATH=\"x/y\"", c!"-std=c++20", c!"-MMD", c!"-pipe", c!"-c"] := by
  obtain ⟨lines, t', h⟩ := exampleFlags_written c!"executable"
  obtain ⟨text, line, e1, e2, e3⟩ := C75_compile h (exampleFlags_ok _) exampleDebug (exampleHeader_ok _)
    (List.head_mem _) exampleConfigs_ok (exampleDebug_ok _) c!"main.cc"
    c!"$(obj).target/prog/lib/main.o"
    (by show c!"main.cc" ∈ compiledSources exampleTarget; unfold compiledSources; rw [example_sources]; decide)
    (.plain (stem := c!"lib/main") (dotted_of [] c!"main" rfl (by simp) (by decide) (by decide)) (by decide) (by decide) (by decide))
    c!"cxx" c!"CXX." c!"CXXFLAGS." exampleDebug.cflagsCC (by simp) [[c!"-g"], [c!"-O0", c!"-Wall"], [c!"-DPATH=\"x/y\""], [c!"-std=c++20"]]
    (.cons (flag_lit (by decide) (listItem_of (by decide)) (by decide) (by decide))
      (.cons (flag_lit (by decide) (listItem_of (by decide)) (by decide) (by decide))
        (.cons (.quoted (by decide) (by decide))
          (.cons (flag_lit (by decide) (listItem_of (by decide)) (by decide) (by decide)) .nil))))
    [(c!"CXX.target", c!"ccache g++"), (c!"DEPFLAGS", c!"-MMD"), (c!"CXXFLAGS.target", c!"-pipe")]
    [c!"ccache", c!"g++"] [c!"-MMD"] [c!"-pipe"] (by decide) (by decide) (by decide)
    c!"../lib/main.cc" [c!"FORCE_DO_CMD"] (by unfold PlainWord; decide)
    (by show PlainWord c!"out/x/obj.target/prog/lib/main.o"; unfold PlainWord; decide)
  exact ⟨lines, t', text, line, h, e1, e2, e3⟩

theorem exampleShared : ¬ SharedDep exampleMade (exampleFlags c!"executable").spec := by
  rintro ⟨f, ⟨d, hd, hf⟩, h⟩
  obtain rfl : d = c!"lib/a.gyp:util#target" := List.mem_singleton.mp hd
  obtain rfl : f = c!"$(obj).target/lib/libutil.a" := by
    rcases hf with ⟨-, e⟩ | e <;> exact (Option.some.inj e).symm
  revert h
  decide

/-- The program of the example, linked for `Debug`. -/
example : ∃ lines t' cmd text line, writeMakefile (exampleFlags c!"executable") exampleMade = some (lines, t') ∧
    LinkedBy (exampleFlags c!"executable") (c!"$(call do_cmd," ++ cmd ++ c!")") ∧
    linkCommand c!"linux" cmd = some text ∧
    commandLine [(c!"LINK.target", c!"g++"), (c!"LDFLAGS.target", c!"-fuse-ld=gold")]
      (localValues (exampleHeader c!"Debug") lines) c!"out/x/prog" [c!"out/x/obj.target/prog/lib/main.o", c!"FORCE_DO_CMD"] text = some line ∧
    shellWords line = some [c!"g++", c!"-o", c!"out/x/prog", c!"-rdynamic", c!"-Wl,-Map=out/x/out.map", c!"-L/opt/lib",
      c!"-fuse-ld=gold", c!"-Wl,--start-group", c!"out/x/obj.target/prog/lib/main.o", c!"out/x/obj.target/prog/common/x.o",
      c!"out/x/obj.target/prog/gen/y.o", c!"out/x/obj.target/prog/geni/z.o", c!"out/x/obj.target/prog/lib/gen/a.o",
      c!"out/x/obj.target/prog/lib/gen/b.o", c!"extra.o", c!"out/x/obj.target/lib/libutil.a", c!"-lm", c!"-lz",
      c!"-Wl,--end-group"] := by
  obtain ⟨lines, t', h⟩ := exampleFlags_written c!"executable"
  obtain ⟨cmd, text, line, args, e1, e2, e3, e4, e5⟩ := C75_link h (exampleFlags_ok _) exampleDebug (exampleHeader_ok _)
    (List.head_mem _) exampleConfigs_ok (by decide) (by show c!"executable" ∈ linkTypes; decide)
    _ (exampleFlags_objects _) [[c!"-rdynamic"], [c!"-Wl,-Map=out/x/out.map"]] [[c!"-L/opt/lib"]] [[c!"-lm"], [c!"-lz"]]
    (.cons (flag_lit (by decide) (listItem_of (by decide)) (by decide) (by decide))
      (.cons (.plain (x := c!"-Wl,-Map=out/x/out.map") (by decide) (listItem_of (by decide)) (fun env he =>
        deep_append (a := c!"-Wl,-Map=") (deep_plain _ (by decide))
          (deep_append (a := c!"$(builddir)") (by
            have := deep_ref env (n := c!"builddir") (by unfold NameText; decide)
            rw [he _ (by decide)] at this
            exact this) (deep_plain _ (s := c!"/out.map") (by decide)))) (by decide)) .nil))
    (.cons (flag_lit (by decide) (listItem_of (by decide)) (by decide) (by decide)) .nil)
    (.cons (flag_lit (by decide) (listItem_of (by decide)) (by decide) (by decide))
      (.cons (flag_lit (by decide) (listItem_of (by decide)) (by decide) (by decide)) .nil))
    c!"out/x" rfl (by unfold PlainWord; decide) [] (.inr ⟨exampleShared, rfl⟩) 
    [c!"out/x/obj.target/prog/lib/main.o", c!"out/x/obj.target/prog/common/x.o",
      c!"out/x/obj.target/prog/gen/y.o", c!"out/x/obj.target/prog/geni/z.o", c!"out/x/obj.target/prog/lib/gen/a.o",
      c!"out/x/obj.target/prog/lib/gen/b.o", c!"extra.o", c!"out/x/obj.target/lib/libutil.a"]
    (by
      have : objectSources (exampleFlags c!"executable").spec = [c!"extra.o"] := by
        unfold objectSources
        rw [show allSources (exampleFlags c!"executable").spec = allSources exampleTarget.spec from rfl, example_sources]
        decide
      rw [this]
      rfl)
    c!"out/x/prog" rfl (by
      intro f hf
      simp only [List.mem_cons, List.not_mem_nil, or_false] at hf
      rcases hf with rfl | rfl | rfl | rfl | rfl | rfl | rfl | rfl | rfl <;> (unfold PlainWord; decide))
    [(c!"LINK.target", c!"g++"), (c!"LDFLAGS.target", c!"-fuse-ld=gold")] [c!"g++"] [c!"-fuse-ld=gold"] (by decide) (by decide)
    [c!"out/x/obj.target/prog/lib/main.o", c!"FORCE_DO_CMD"] (by
      intro f hf
      simp only [List.mem_cons, List.not_mem_nil, or_false] at hf
      rcases hf with rfl | rfl <;> exact ⟨by unfold PlainWord; decide, by unfold MkClean; decide⟩)
  refine ⟨lines, t', cmd, text, line, h, e1, e2, e3, ?_⟩
  rw [e5, ← e4]
  rfl

/-- A target with configurations `Debug` and `C_Debug`. -/
def clashTarget : MkSelf :=
  { flavor := c!"linux", srcdirPrefix := [], sha1 := fun _ => c!"d1", qualified := c!"a.gyp:p#target", path := []
    spec :=
      { targetName := c!"p", type := c!"executable", toolset := c!"target", sources := [c!"a.c"]
        configs := [{ name := c!"Debug", cflagsC := [c!"-DONE"] }, { name := c!"C_Debug", cflags := [c!"-DTWO"] }] } }

/-- C75: the restriction on names of configurations is needed: the variable for the C flags of
`Debug` is that for the flags of `C_Debug`, so that `Debug` is compiled with the flags of the other. -/
theorem C75_shared_variable :
    ∃ lines t', writeMakefile clashTarget { outputs := [], linkDeps := [] } = some (lines, t') ∧
      (localValue (localValues (exampleHeader c!"Debug") lines) c!"out/x/obj.target/p/a.o" c!"GYP_CFLAGS").map
        shellWords = some (some [c!"-DTWO"]) := by
  refine ⟨_, _, rfl, ?_⟩
  decide +kernel

end Gyp
