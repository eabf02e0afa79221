import Verif.Props.CMakeActions
import Verif.Model.CMakeTarget
import Verif.Spec.CMakeTarget
import Verif.Proofs.MakeObjects
/-
For C108 and C109: reading what the CMake generator writes for a target.
-/
namespace Gyp
open Gyp.Spec

/-- A target whose texts CMake can read; `m` is what they stand for. -/
structure TargetFits (env : CEnv) (m : Str → Str) (t : CTarget) : Prop where
  name : NameC t.name
  extra : ∀ d ∈ t.extraDeps, NameC d
  deps : ∀ d ∈ t.deps, NameC d.1
  files : ∀ i ∈ t.items, Amounts env i.2 (m i.2) ∧ Element (m i.2) ∧
    m i.2 ≠ c!"PARENT_SCOPE" ∧ m i.2 ≠ c!"CACHE" ∧ m i.2 ≠ c!"PROPERTIES"
  includes : ∀ i ∈ t.includes.map (normjoinSource t.path), Amounts env i (m i) ∧ Element (m i) ∧
    m i ≠ c!"PARENT_SCOPE" ∧ m i ≠ c!"CACHE"
  defines : ∀ d ∈ t.defines.getD [], Amounts env d (m d) ∧ Element (m d)
  flags : ∀ f ∈ t.cflags ++ t.cflagsC ++ t.cflagsCC ++ t.ldflags.getD [],
    Amounts env f (m f) ∧ ';' ∉ m f
  dirs : ∀ d ∈ t.libraryDirs.getD [],
    BareWord env (normjoinPath t.path d) (m (normjoinPath t.path d))
  libs : ∀ l ∈ t.libraries, Amounts env (dropSdkRoot l) (m (dropSdkRoot l)) ∧ '"' ∉ l ∧ '\\' ∉ l
  dummy : ∀ n ∈ [c!"obj", c!"TOOLSET", c!"TARGET"], ';' ∉ env n
  freshFiles : ∀ k, env (t.srcVar k) = []
  freshDirs : env (t.name ++ c!"__include_dirs") = []

theorem forall₂_map_self {env : CEnv} {m : Str → Str} {vs : List Str}
    (h : ∀ v ∈ vs, Amounts env v (m v)) : List.Forall₂ (Amounts env) vs (vs.map m) := by
  induction vs with
  | nil => exact .nil
  | cons v vs ih => exact .cons (h v (by simp)) (ih fun x hx => h x (by simp [hx]))

theorem cmEndsWith_append (a b c : Str) : endsWith (a ++ (b ++ c)) c = true := by
  unfold endsWith
  rw [List.isSuffixOf_iff_suffix]
  exact ⟨a ++ b, by simp⟩

theorem keptName_srcVar (t : CTarget) (k : SrcKind) : KeptName (t.srcVar k) := by
  right; right; left
  cases k
  · exact cmEndsWith_append t.name c!"__asm" c!"_srcs"
  · exact cmEndsWith_append t.name c!"__c" c!"_srcs"
  · exact cmEndsWith_append t.name c!"__cxx" c!"_srcs"
  · exact cmEndsWith_append t.name c!"__linkable" c!"_srcs"
  · exact cmEndsWith_append t.name c!"__other" c!"_srcs"

theorem keptName_dummyVar (t : CTarget) : KeptName t.dummyVar := by
  right; right; left
  exact cmEndsWith_append t.name c!"__dummy" c!"_srcs"

theorem keptName_includeVar (t : CTarget) : KeptName (t.name ++ c!"__include_dirs") := by
  right; right; right; left
  exact cmEndsWith_append t.name [] c!"__include_dirs"

theorem srcVar_nameC {t : CTarget} (h : NameC t.name) (k : SrcKind) : NameC (t.srcVar k) := by
  cases k <;> exact nameC_append h (by decide)

theorem dummyVar_nameC {t : CTarget} (h : NameC t.name) : NameC t.dummyVar :=
  nameC_append h (by decide)

theorem srcVar_inj (t : CTarget) {k k' : SrcKind} (h : t.srcVar k = t.srcVar k') : k = k' := by
  cases k <;> cases k' <;> first | rfl | exact absurd (List.append_cancel_left h) (by decide)

theorem srcVar_ne_dummy (t : CTarget) (k : SrcKind) : t.srcVar k ≠ t.dummyVar := by
  intro h
  cases k <;> exact absurd (List.append_cancel_left h) (by decide)

theorem srcVar_ne_include (t : CTarget) (k : SrcKind) : t.srcVar k ≠ t.name ++ c!"__include_dirs" := by
  intro h
  cases k <;> exact absurd (List.append_cancel_left h) (by decide)

theorem group_mem {t : CTarget} {k : SrcKind} {f : Str} :
    f ∈ t.group k ↔ (k, f) ∈ t.items := by
  unfold CTarget.group
  simp only [List.mem_map, List.mem_filter, decide_eq_true_eq]
  constructor
  · rintro ⟨⟨k', f'⟩, ⟨h, rfl⟩, rfl⟩; exact h
  · intro h; exact ⟨(k, f), ⟨h, rfl⟩, rfl⟩

theorem TargetFits.agree {env env' : CEnv} {m : Str → Str} {t : CTarget} (h : TargetFits env m t)
    (ha : AgreeC env env') {v w : Str} : Amounts env v w → Amounts env' v w := Amounts.agree ha

/-- The variables of the sources. -/
theorem reads_kinds {env : CEnv} {m : Str → Str} {t : CTarget} (hn : NameC t.name)
    (hf : ∀ i ∈ t.items, Amounts env i.2 (m i.2) ∧ Element (m i.2) ∧
      m i.2 ≠ c!"PARENT_SCOPE" ∧ m i.2 ≠ c!"CACHE" ∧ m i.2 ≠ c!"PROPERTIES")
    {ks : List SrcKind} (hd : ks.Nodup) : ∀ env₀, AgreeC env env₀ → (∀ k ∈ ks, env₀ (t.srcVar k) = []) →
    ∃ env', ReadsC env₀ (ks.flatMap fun k =>
        if t.group k = [] then [] else setVariableList (t.srcVar k) (t.group k)) env' [] ∧
      AgreeC env env' ∧
      (∀ k ∈ ks, t.group k ≠ [] → listOf env' (t.srcVar k) = (t.group k).map m) ∧
      ∀ n, (∀ k ∈ ks, n ≠ t.srcVar k) → env' n = env₀ n := by
  induction ks with
  | nil => intro env₀ ha _; exact ⟨env₀, ReadsC.nil, ha, by simp, fun _ _ => rfl⟩
  | cons k ks ih =>
    intro env₀ ha hfresh
    rw [List.nodup_cons] at hd
    have hg : ∀ f ∈ t.group k, _ := fun f hf' => hf (k, f) (group_mem.1 hf')
    by_cases he : t.group k = []
    · obtain ⟨env', h₁, h₂, h₃, h₄⟩ := ih hd.2 env₀ ha fun k' hk' => hfresh k' (by simp [hk'])
      refine ⟨env', ?_, h₂, ?_, fun n hn' => h₄ n fun k' hk' => hn' k' (by simp [hk'])⟩
      · rw [List.flatMap_cons, if_pos he]
        exact h₁
      · intro k' hk' hne
        rcases List.mem_cons.1 hk' with rfl | hk'
        · exact absurd he hne
        · exact h₃ k' hk' hne
    · have r₁ := reads_setVariableList (env := env₀) (srcVar_nameC hn k)
        (forall₂_map_self (m := m) fun f hf' => Amounts.agree ha (hg f hf').1)
        (fun _ => hfresh k (by simp))
        (by
          intro hm
          obtain ⟨f, hf', e⟩ := List.mem_map.1 hm
          exact (hg f hf').2.2.1 e)
        (by
          intro hm
          obtain ⟨f, hf', e⟩ := List.mem_map.1 hm
          exact (hg f hf').2.2.2.1 e)
      generalize he₁ : assign env₀ (t.srcVar k) (joinWith [';'] (((t.group k).map m).map semi)) =
        env₁ at r₁
      have a₁ : AgreeC env env₁ := he₁ ▸ ha.assign (keptName_srcVar t k)
      obtain ⟨env', h₁, h₂, h₃, h₄⟩ := ih hd.2 env₁ a₁ (by
        intro k' hk'
        have : t.srcVar k' ≠ t.srcVar k := fun e => hd.1 (srcVar_inj t e ▸ hk')
        rw [← he₁]
        simp only [assign, this, if_false]
        exact hfresh k' (by simp [hk']))
      refine ⟨env', ?_, h₂, ?_, ?_⟩
      · rw [List.flatMap_cons, if_neg he]
        exact r₁.append h₁
      · intro k' hk' hne
        by_cases e : k' = k
        · subst e
          unfold listOf
          rw [h₄ _ fun k'' hk'' e => by
            have := srcVar_inj t e
            subst this
            exact hd.1 hk'', ← he₁]
          simp only [assign, if_true]
          refine elements_join ?_
          intro w hw
          obtain ⟨f, hf', rfl⟩ := List.mem_map.1 hw
          exact (hg f hf').2.1
        · exact h₃ k' ((List.mem_cons.1 hk').resolve_left e) hne
      · intro n hn'
        rw [h₄ n fun k' hk' => hn' k' (by simp [hk']), ← he₁]
        simp [assign, hn' k (by simp)]

/-- Where the source that is made up is put. -/
def dummyFile (env : CEnv) : Str :=
  env c!"obj" ++ c!"." ++ env c!"TOOLSET" ++ c!"/" ++ env c!"TARGET" ++ c!"/genc/dummy.c"

theorem amounts_dummy {env : CEnv} (h : ∀ n ∈ [c!"obj", c!"TOOLSET", c!"TARGET"], ';' ∉ env n) :
    Amounts env (c!"${obj}.${TOOLSET}" ++ c!"/${TARGET}/genc/dummy.c") (dummyFile env) := by
  have h₁ := Amounts.ref (env := env) (n := c!"TARGET") (by decide) (by decide) (h _ (by decide))
    (standsFor_self (v := c!"/genc/dummy.c") (by decide))
  have h₂ := Amounts.ref (env := env) (n := c!"TOOLSET") (by decide) (by decide) (h _ (by decide))
    (Amounts.char (c := '/') (by decide) h₁)
  have h₃ := Amounts.ref (env := env) (n := c!"obj") (by decide) (by decide) (h _ (by decide))
    (Amounts.char (c := '.') (by decide) h₂)
  have e : dummyFile env = env c!"obj" ++ '.' :: (env c!"TOOLSET" ++ '/' :: (env c!"TARGET" ++
      c!"/genc/dummy.c")) := by simp [dummyFile]
  rw [e]
  exact h₃

theorem dummyFile_semi {env : CEnv} (h : ∀ n ∈ [c!"obj", c!"TOOLSET", c!"TARGET"], ';' ∉ env n) :
    ';' ∉ dummyFile env := by
  simp [dummyFile, h]

theorem quotedLex_chars {v : Str} (h : '"' ∉ v) (h' : '\\' ∉ v) : QuotedLex v := by
  induction v with
  | nil => exact QuotedLex.nil
  | cons c v ih =>
    exact QuotedLex.append (a := [c]) (QuotedLex.char (fun e => h (by simp [e])) fun e => h' (by simp [e]))
      (ih (fun hm => h (by simp [hm])) fun hm => h' (by simp [hm]))

theorem writeVariable_quoted {env : CEnv} {n : Str} (h : NameC n) :
    QuotedLex (writeVariable n) ∧ evalText env (writeVariable n) = some (env n) := by
  constructor
  · have hc : ∀ d ∈ c!"}\\;\"`$)(#[ \t\n\r", d ∉ n := fun d hd hn =>
      (isVarChar_not (List.all_eq_true.1 h.2 d hn)).1 hd
    apply quotedLex_chars
    · simp only [writeVariable, List.mem_append, not_or]
      exact ⟨⟨by decide, hc _ (by decide)⟩, by decide⟩
    · simp only [writeVariable, List.mem_append, not_or]
      exact ⟨⟨by decide, hc _ (by decide)⟩, by decide⟩
  · have := evalText_ref (env := env) (r := []) h.2
    rw [List.append_nil] at this
    unfold writeVariable
    rw [this]
    simp [evalText, evalFrom]

/-- What is recorded of a source that is made up. -/
def dummyTold (file : Str) : List Told :=
  [⟨c!"if", [c!"NOT", c!"EXISTS", file]⟩, ⟨c!"file", [c!"WRITE", file, []]⟩, ⟨c!"endif", []⟩]

theorem reads_dummy {env : CEnv} {t : CTarget} (hn : NameC t.name)
    (h : ∀ n ∈ [c!"obj", c!"TOOLSET", c!"TARGET"], ';' ∉ env n) :
    ∃ env', ReadsC env t.dummyText env' (if t.dummy then dummyTold (dummyFile env) else []) ∧
      AgreeC env env' ∧ (t.dummy = true → listOf env' t.dummyVar = [dummyFile env]) ∧
      ∀ n, n ≠ t.dummyVar → env' n = env n := by
  unfold CTarget.dummyText
  by_cases hd : t.dummy = true
  · rw [if_pos hd, if_pos hd]
    have hv := dummyVar_nameC hn
    have hs := dummyFile_semi h
    have hsl : '/' ∈ dummyFile env := by simp [dummyFile]
    have r₁ := reads_setVariable hv (amounts_dummy h) (fun e => by rw [e] at hsl; revert hsl; decide)
      (fun e => by rw [e] at hsl; revert hsl; decide)
    rw [semi_none hs] at r₁
    generalize he₁ : assign env t.dummyVar (dummyFile env) = env₁ at r₁
    have hval : env₁ t.dummyVar = dummyFile env := by rw [← he₁]; simp [assign]
    obtain ⟨q₁, q₂⟩ := writeVariable_quoted (env := env₁) hv
    rw [hval] at q₂
    have n₁ : Gives env₁ (c!"NOT" ++ [' ']) [c!"NOT"] := Gives.name (by decide) (by decide)
    have n₂ : Gives env₁ (c!"EXISTS" ++ [' ']) [c!"EXISTS"] := Gives.name (by decide) (by decide)
    have r₂ := ((n₁.append n₂).then (EndGives.quoted q₁ q₂)).told (n := c!"if") (by decide)
      (by decide) (by decide) (by decide) (by decide)
    have n₃ : Gives env₁ (c!"WRITE" ++ [' ']) [c!"WRITE"] := Gives.name (by decide) (by decide)
    have n₄ : EndGives env₁ ('"' :: [] ++ ['"']) [[]] := EndGives.quoted QuotedLex.nil rfl
    have r₃ := ((n₃.append (Gives.quoted q₁ q₂ (b := ' ') (by decide))).then n₄).told (n := c!"file")
      (by decide) (by decide) (by decide) (by decide) (by decide)
    have r₄ := (EndGives.nil (env := env₁)).told (n := c!"endif") (by decide) (by decide) (by decide)
      (by decide) (by decide)
    have b : ReadsC env₁ c!"  " env₁ [] := by
      refine ⟨[], ?_, rfl⟩
      intro s hs
      refine ⟨s, ?_, hs, by simp⟩
      simp [lexAll, lexStepC, hs, isBlankC]
    have rAll := r₁.append (r₂.append ((b.append r₃).append r₄))
    refine ⟨env₁, ?_, he₁ ▸ (AgreeC.refl env).assign (keptName_dummyVar t), fun _ => ?_, ?_⟩
    · refine cast ?_ rAll
      congr 1
      generalize setVariable t.dummyVar _ = A
      generalize writeVariable t.dummyVar = B
      simp
    · unfold listOf
      rw [hval, elements_noSemi hs, if_neg (fun e => by rw [e] at hsl; simp at hsl)]
    · intro n hne
      rw [← he₁]
      simp [assign, hne]
  · rw [if_neg hd, if_neg hd]
    exact ⟨env, ReadsC.nil, AgreeC.refl env, fun h => absurd h hd, fun _ _ => rfl⟩

/-- What is recorded of the directories of libraries. -/
def CTarget.dirTold (m : Str → Str) (t : CTarget) : List Told :=
  match t.libraryDirs with
  | none => []
  | some ds => [⟨c!"link_directories", ds.map fun d => m (normjoinPath t.path d)⟩]

theorem reads_dirs {env : CEnv} {m : Str → Str} {t : CTarget}
    (h : ∀ d ∈ t.libraryDirs.getD [],
      BareWord env (normjoinPath t.path d) (m (normjoinPath t.path d))) :
    ReadsC env t.libraryDirText env (t.dirTold m) := by
  unfold CTarget.libraryDirText CTarget.dirTold
  cases hd : t.libraryDirs with
  | none => exact ReadsC.nil
  | some ds =>
    rw [hd, Option.getD_some] at h
    dsimp only
    have g : Gives env (ds.flatMap fun d => c!" " ++ normjoinPath t.path d ++ c!"\n")
        (ds.map fun d => m (normjoinPath t.path d)) := by
      clear hd
      induction ds with
      | nil => exact Gives.nil
      | cons d ds ih =>
        rw [List.flatMap_cons, List.map_cons]
        have h₀ : Gives env c!" " [] := Gives.blanks (by decide)
        have := (h₀.append (Gives.word (h d (by simp)) (b := '\n') (by decide))).append
          (ih fun x hx => h x (by simp [hx]))
        simpa using this
    have := g.end_.told (n := c!"link_directories") (by decide) (by decide) (by decide) (by decide)
      (by decide)
    refine cast ?_ this
    congr 1

/-- The files of a target. -/
def CTarget.files (m : Str → Str) (env : CEnv) (t : CTarget) : List Str :=
  (srcKinds.flatMap fun k => (t.group k).map m) ++ if t.dummy then [dummyFile env] else []

/-- What is recorded of the target itself. -/
def CTarget.declareTold (m : Str → Str) (env : CEnv) (t : CTarget) (command : Str)
    (modifier : Option Str) : List Told :=
  [⟨command, [t.name] ++ modifier.toList ++ t.files m env⟩]

/-- The arguments after the first, each with a blank before it. -/
def Tail (env : CEnv) (t : Str) (vs : List Str) : Prop :=
  (t = [] ∧ vs = []) ∨ ∃ t', t = ' ' :: t' ∧ EndGives env t' vs

theorem Tail.nil {env : CEnv} : Tail env [] [] := .inl ⟨rfl, rfl⟩

theorem Tail.last {env : CEnv} {x t : Str} {xs vs : List Str} (h₁ : Gives env (x ++ [' ']) xs)
    (h₂ : EndGives env x xs) (h : Tail env t vs) : EndGives env (x ++ t) (xs ++ vs) := by
  rcases h with ⟨rfl, rfl⟩ | ⟨t', rfl, h⟩
  · simpa using h₂
  · have := h₁.then h
    simpa using this

theorem Tail.cons {env : CEnv} {x t : Str} {xs vs : List Str} (h₁ : Gives env (x ++ [' ']) xs)
    (h₂ : EndGives env x xs) (h : Tail env t vs) : Tail env (' ' :: (x ++ t)) (xs ++ vs) :=
  .inr ⟨_, rfl, Tail.last h₁ h₂ h⟩

theorem reads_declare {env env₀ : CEnv} {m : Str → Str} {t : CTarget} {command : Str}
    {modifier : Option Str} {type : Str} (hn : NameC t.name)
    (hc : (type, command, modifier) ∈ cmTypes)
    (hg : ∀ k, t.group k ≠ [] → listOf env (t.srcVar k) = (t.group k).map m)
    (hd : t.dummy = true → listOf env t.dummyVar = [dummyFile env₀]) :
    ReadsC env (t.declareText command modifier) env (t.declareTold m env₀ command modifier) := by
  have hl : Tail env (if t.dummy then c!" " ++ writeVariable t.dummyVar else [])
      (if t.dummy then [dummyFile env₀] else []) := by
    by_cases h : t.dummy = true
    · rw [if_pos h, if_pos h, ← hd h]
      have := Tail.cons (Gives.ref (env := env) (dummyVar_nameC hn) (b := ' ') (by decide))
        (EndGives.ref (dummyVar_nameC hn)) Tail.nil
      simpa using this
    · rw [if_neg h, if_neg h]
      exact Tail.nil
  have hk : ∀ ks : List SrcKind, Tail env ((ks.flatMap fun k =>
      if t.group k = [] then [] else c!" " ++ writeVariable (t.srcVar k)) ++
      if t.dummy then c!" " ++ writeVariable t.dummyVar else [])
      ((ks.flatMap fun k => (t.group k).map m) ++ if t.dummy then [dummyFile env₀] else []) := by
    intro ks
    induction ks with
    | nil => exact hl
    | cons k ks ih =>
      rw [List.flatMap_cons, List.flatMap_cons]
      by_cases he : t.group k = []
      · rw [if_pos he, he]
        exact ih
      · rw [if_neg he, ← hg k he]
        have := Tail.cons (Gives.ref (env := env) (srcVar_nameC hn k) (b := ' ') (by decide))
          (EndGives.ref (srcVar_nameC hn k)) ih
        simpa using this
  have hm : Tail env (modifierText modifier ++
      ((srcKinds.flatMap fun k => if t.group k = [] then [] else c!" " ++ writeVariable (t.srcVar k)) ++
      if t.dummy then c!" " ++ writeVariable t.dummyVar else []))
      (modifier.toList ++ t.files m env₀) := by
    cases hmod : modifier with
    | none => exact hk srcKinds
    | some w =>
      have hw : NameC w := by
        rw [hmod] at hc
        simp only [cmTypes, List.mem_cons, Prod.mk.injEq, List.not_mem_nil, or_false] at hc
        rcases hc with h | h | h | h | h <;> simp at h <;> rw [h.2.2] <;> decide
      have := Tail.cons (Gives.name (env := env) hw (b := ' ') (by decide)) (EndGives.name hw)
        (hk srcKinds)
      simpa [CTarget.files, modifierText] using this
  have hall := Tail.last (Gives.name (env := env) hn (b := ' ') (by decide)) (EndGives.name hn) hm
  have hcmd : command ≠ [] ∧ (∀ c ∈ command, isIdent c) ∧ command ≠ c!"set" ∧ command ≠ c!"unset" ∧
      command ≠ c!"list" := by
    simp only [cmTypes, List.mem_cons, Prod.mk.injEq, List.not_mem_nil, or_false] at hc
    rcases hc with h | h | h | h | h <;> rw [h.2.1] <;> decide
  have := hall.told hcmd.1 hcmd.2.1 hcmd.2.2.1 hcmd.2.2.2.1 hcmd.2.2.2.2
  unfold CTarget.declareText CTarget.declareTold
  simpa using this

/-! ### Properties -/

theorem reads_quotedProperty {env : CEnv} {target prop text v : Str} (ht : NameC target)
    (hp : NameC prop) (hl : QuotedLex text) (he : evalText env text = some v) :
    ReadsC env (c!"set_target_properties(" ++ target ++ c!" PROPERTIES " ++ prop ++ c!" \"" ++
      text ++ c!"\")\n") env
      [⟨c!"set_target_" ++ c!"properties", [target, c!"PROPERTIES", prop, v]⟩] := by
  have h₁ : Gives env (target ++ [' ']) [target] := Gives.name ht (by decide)
  have h₂ : Gives env (c!"PROPERTIES" ++ [' ']) [c!"PROPERTIES"] :=
    Gives.name (by decide) (by decide)
  have h₃ : Gives env (prop ++ [' ']) [prop] := Gives.name hp (by decide)
  have := (((h₁.append h₂).append h₃).then (EndGives.quoted hl he)).told
    (n := c!"set_target_" ++ c!"properties") (by decide) (by decide) (by decide) (by decide) (by decide)
  simpa using this

theorem reads_fileProperty {env : CEnv} {var prop text v : Str} (ht : NameC var)
    (hp : NameC prop) (hl : QuotedLex text) (he : evalText env text = some v) :
    ReadsC env (c!"set_source_" ++ c!"files_properties(" ++ writeVariable var ++ c!" PROPERTIES " ++
      prop ++ c!" \"" ++ text ++ c!"\")\n") env
      [⟨c!"set_source_" ++ c!"files_properties", listOf env var ++ [c!"PROPERTIES", prop, v]⟩] := by
  have h₁ : Gives env (writeVariable var ++ [' ']) (listOf env var) := Gives.ref ht (by decide)
  have h₂ : Gives env (c!"PROPERTIES" ++ [' ']) [c!"PROPERTIES"] :=
    Gives.name (by decide) (by decide)
  have h₃ : Gives env (prop ++ [' ']) [prop] := Gives.name hp (by decide)
  have := (((h₁.append h₂).append h₃).then (EndGives.quoted hl he)).told
    (n := c!"set_source_" ++ c!"files_properties") (by decide) (by decide) (by decide) (by decide)
    (by decide)
  simpa using this

theorem simple_value {env : CEnv} {v : Str} (h : ∀ c ∈ c!"$\\\"", c ∉ v) :
    QuotedLex v ∧ evalText env v = some v :=
  ⟨quotedLex_chars (h _ (by decide)) (h _ (by decide)),
    evalText_plain (standsFor_self (h _ (by decide))) (h _ (by decide))⟩

/-- `TRUE` or `FALSE`: left out of what is made by default. -/
def CTarget.excluded (t : CTarget) : Str := if t.inAll then c!"FALSE" else c!"TRUE"

def CTarget.excludeTold (t : CTarget) : List Told :=
  (t.name :: t.extraDeps).map fun d =>
    ⟨c!"set_target_" ++ c!"properties", [d, c!"PROPERTIES", c!"EXCLUDE_FROM_ALL", t.excluded]⟩

theorem reads_exclude {env : CEnv} {t : CTarget} (hn : NameC t.name)
    (he : ∀ d ∈ t.extraDeps, NameC d) : ReadsC env t.excludeText env t.excludeTold := by
  have one : ∀ d, NameC d → ReadsC env (setTargetText d c!"EXCLUDE_FROM_ALL" t.excluded) env
      [⟨c!"set_target_" ++ c!"properties", [d, c!"PROPERTIES", c!"EXCLUDE_FROM_ALL", t.excluded]⟩] := by
    intro d hd
    have hv : ∀ c ∈ c!"$\\\"", c ∉ t.excluded := by
      unfold CTarget.excluded; split <;> decide
    have hp : propertyValues (t.excluded.map fun c => [c]) [] = t.excluded := by
      unfold CTarget.excluded; split <;> decide
    have := reads_quotedProperty (env := env) (prop := c!"EXCLUDE_FROM_ALL") hd (by decide)
      (simple_value (env := env) hv).1 (simple_value (env := env) hv).2
    unfold setTargetText setTargetProperty
    rw [hp]
    exact this
  unfold CTarget.excludeText CTarget.excludeTold
  rw [List.map_cons]
  refine ReadsC.append (x := [_]) (one _ hn) ?_
  generalize t.extraDeps = ds at he
  induction ds with
  | nil => exact ReadsC.nil
  | cons d ds ih =>
    rw [List.flatMap_cons, List.map_cons]
    exact ReadsC.append (x := [_]) (one d (he d (by simp))) (ih fun x hx => he x (by simp [hx]))

def CTarget.languageTold (t : CTarget) : List Told :=
  if t.type ≠ c!"none" ∧ t.group .c = [] ∧ t.group .cxx = [] then
    [⟨c!"set_target_" ++ c!"properties", [t.name, c!"PROPERTIES", c!"LINKER_LANGUAGE", c!"C"]⟩]
  else []

theorem reads_language {env : CEnv} {t : CTarget} (hn : NameC t.name) :
    ReadsC env t.languageText env t.languageTold := by
  unfold CTarget.languageText CTarget.languageTold
  split
  · have := reads_quotedProperty (env := env) (prop := c!"LINKER_LANGUAGE") (text := c!"C") (v := c!"C")
      hn (by decide) (simple_value (env := env) (by decide)).1 (simple_value (by decide)).2
    exact this
  · exact ReadsC.nil

/-- A property of all files of a group. -/
def CTarget.filesTold (m : Str → Str) (t : CTarget) (k : SrcKind) (prop v : Str) : Told :=
  ⟨c!"set_source_" ++ c!"files_properties", (t.group k).map m ++ [c!"PROPERTIES", prop, v]⟩

def CTarget.headerTold (m : Str → Str) (t : CTarget) : List Told :=
  if t.type ≠ c!"none" ∧ t.group .other ≠ [] then
    [t.filesTold m .other c!"HEADER_FILE_ONLY" c!"TRUE"] else []

theorem reads_header {env : CEnv} {m : Str → Str} {t : CTarget} (hn : NameC t.name)
    (hg : ∀ k, t.group k ≠ [] → listOf env (t.srcVar k) = (t.group k).map m) :
    ReadsC env t.headerText env (t.headerTold m) := by
  unfold CTarget.headerText CTarget.headerTold
  split
  · rename_i h
    have := reads_fileProperty (env := env) (prop := c!"HEADER_FILE_ONLY") (text := c!"TRUE")
      (v := c!"TRUE") (srcVar_nameC hn .other) (by decide) (simple_value (env := env) (by decide)).1
      (simple_value (by decide)).2
    rw [hg _ h.2] at this
    refine cast ?_ this
    congr 1
    generalize writeVariable (t.srcVar .other) = A
    simp
  · exact ReadsC.nil

def CTarget.objectTold (m : Str → Str) (t : CTarget) : List Told :=
  if t.type ≠ c!"none" ∧ t.group .linkable ≠ [] then
    [t.filesTold m .other c!"EXTERNAL_OBJECT" c!"TRUE"] else []

theorem reads_object {env : CEnv} {m : Str → Str} {t : CTarget} (hn : NameC t.name)
    (hg : ∀ k, t.group k ≠ [] → listOf env (t.srcVar k) = (t.group k).map m) {text : Str}
    (ht : t.objectText = some text) :
    ReadsC env text env (t.objectTold m) := by
  unfold CTarget.objectText at ht
  unfold CTarget.objectTold
  split at ht
  · rename_i h
    rw [if_pos h]
    split at ht
    · cases ht
    · rename_i ho
      cases ht
      have := reads_fileProperty (env := env) (prop := c!"EXTERNAL_OBJECT") (text := c!"TRUE")
        (v := c!"TRUE") (srcVar_nameC hn .other) (by decide) (simple_value (env := env) (by decide)).1
        (simple_value (by decide)).2
      rw [hg _ ho] at this
      refine cast ?_ this
      congr 1
      generalize writeVariable (t.srcVar .other) = A
      simp
  · rename_i h
    rw [if_neg h]
    cases ht
    exact ReadsC.nil

def CTarget.includeTold (m : Str → Str) (t : CTarget) : List Told :=
  if t.type ≠ c!"none" ∧ t.includes ≠ [] then
    [⟨c!"set_property", [c!"TARGET", t.name, c!"APPEND", c!"PROPERTY", c!"INCLUDE_DIRECTORIES"] ++
      t.includes.map fun i => m (normjoinSource t.path i)⟩] else []

theorem reads_include {env : CEnv} {m : Str → Str} {t : CTarget} (hn : NameC t.name)
    (hi : ∀ i ∈ t.includes.map (normjoinSource t.path), Amounts env i (m i) ∧ Element (m i) ∧
      m i ≠ c!"PARENT_SCOPE" ∧ m i ≠ c!"CACHE") (hf : env (t.name ++ c!"__include_dirs") = []) :
    ∃ env', ReadsC env t.includeText env' (t.includeTold m) ∧ AgreeC env env' ∧
      ∀ n, n ≠ t.name ++ c!"__include_dirs" → env' n = env n := by
  unfold CTarget.includeText CTarget.includeTold
  split
  · have hv : NameC (t.name ++ c!"__include_dirs") := nameC_append hn (by decide)
    have r₁ := reads_setVariableList (env := env) hv
      (forall₂_map_self (m := m) fun i h => (hi i h).1) (fun _ => hf)
      (by
        intro hm
        obtain ⟨f, hf', e⟩ := List.mem_map.1 hm
        exact (hi f hf').2.2.1 e)
      (by
        intro hm
        obtain ⟨f, hf', e⟩ := List.mem_map.1 hm
        exact (hi f hf').2.2.2 e)
    generalize he₁ : assign env (t.name ++ c!"__include_dirs") _ = env₁ at r₁
    have hl : listOf env₁ (t.name ++ c!"__include_dirs") =
        t.includes.map fun i => m (normjoinSource t.path i) := by
      rw [← he₁]
      simp only [listOf, assign, if_true]
      rw [elements_join]
      · rw [List.map_map]; rfl
      · intro w hw
        obtain ⟨i, h, rfl⟩ := List.mem_map.1 hw
        exact (hi i h).2.1
    have kw : ∀ k, k ∈ [c!"TARGET", t.name, c!"APPEND", c!"PROPERTY", c!"INCLUDE_DIRECTORIES"] →
        Gives env₁ (k ++ [' ']) [k] := by
      intro k hk
      refine Gives.name ?_ (by decide)
      simp only [List.mem_cons, List.not_mem_nil, or_false] at hk
      rcases hk with rfl | rfl | rfl | rfl | rfl
      · decide
      · exact hn
      · decide
      · decide
      · decide
    have r₂ := (((((kw c!"TARGET" (by simp)).append (kw t.name (by simp))).append
      (kw c!"APPEND" (by simp))).append (kw c!"PROPERTY" (by simp))).append
      (kw c!"INCLUDE_DIRECTORIES" (by simp))).then (EndGives.ref (env := env₁) hv) |>.told
      (n := c!"set_property") (by decide) (by decide) (by decide) (by decide) (by decide)
    rw [hl] at r₂
    refine ⟨env₁, ?_, he₁ ▸ (AgreeC.refl env).assign (keptName_includeVar t), ?_⟩
    · refine cast ?_ (r₁.append r₂)
      congr 1
      generalize setVariableList _ _ = A
      generalize writeVariable (t.name ++ c!"__include_dirs") = B
      simp
    · intro n hne
      rw [← he₁]
      simp [assign, hne]
  · exact ⟨env, ReadsC.nil, AgreeC.refl env, fun _ _ => rfl⟩

/-- A list as the value of a property. -/
def semiList (ws : List Str) : Str := ws.flatMap fun w => semi w ++ [';']

/-- Flags as the value of a property. -/
def flagList (ws : List Str) : Str := ws.flatMap fun w => w ++ [' ']

theorem flagList_semi {ws : List Str} (h : ∀ w ∈ ws, ';' ∉ w) :
    (ws.flatMap fun w => semi w ++ [' ']) = flagList ws := by
  unfold flagList
  induction ws with
  | nil => rfl
  | cons w ws ih =>
    rw [List.flatMap_cons, List.flatMap_cons, semi_none (h w (by simp)),
      ih fun x hx => h x (by simp [hx])]

def CTarget.defineTold (m : Str → Str) (t : CTarget) : List Told :=
  match t.defines with
  | some ds =>
    if t.type ≠ c!"none" then
      [⟨c!"set_target_" ++ c!"properties",
        [t.name, c!"PROPERTIES", c!"COMPILE_" ++ c!"DEFINITIONS", semiList (ds.map m)]⟩]
    else []
  | none => []

theorem reads_define {env : CEnv} {m : Str → Str} {t : CTarget} (hn : NameC t.name)
    (hd : ∀ d ∈ t.defines.getD [], Amounts env d (m d)) :
    ReadsC env t.defineText env (t.defineTold m) := by
  unfold CTarget.defineText CTarget.defineTold
  cases h : t.defines with
  | none => exact ReadsC.nil
  | some ds =>
    rw [h, Option.getD_some] at hd
    dsimp only
    split
    · exact reads_property hn (by decide) (forall₂_map_self hd) (.inl rfl)
    · exact ReadsC.nil

theorem reads_targetFlags {env : CEnv} {m : Str → Str} {target prop : Str} {fs : List Str}
    (hn : NameC target) (hp : NameC prop) (hf : ∀ f ∈ fs, Amounts env f (m f) ∧ ';' ∉ m f) :
    ReadsC env (setTargetProperty target prop fs c!" ") env
      [⟨c!"set_target_" ++ c!"properties", [target, c!"PROPERTIES", prop, flagList (fs.map m)]⟩] := by
  have := reads_property (env := env) hn hp (forall₂_map_self fun f h => (hf f h).1) (sep := ' ')
    (.inr rfl)
  rwa [flagList_semi] at this
  intro w hw
  obtain ⟨f, h, rfl⟩ := List.mem_map.1 hw
  exact (hf f h).2

theorem reads_fileFlags {env : CEnv} {m : Str → Str} {t : CTarget} {k : SrcKind} {fs : List Str}
    (hn : NameC t.name) (hl : listOf env (t.srcVar k) = (t.group k).map m)
    (hf : ∀ f ∈ fs, Amounts env f (m f) ∧ ';' ∉ m f) :
    ReadsC env (setFilesProperty (t.srcVar k) c!"COMPILE_FLAGS" fs c!" ") env
      [t.filesTold m k c!"COMPILE_FLAGS" (flagList (fs.map m))] := by
  have h := reads_fileProperty (env := env) (prop := c!"COMPILE_FLAGS") (srcVar_nameC hn k) (by decide)
    (quotedLex_property fs (sep := ' ') (.inr rfl))
    (evalText_property (forall₂_map_self fun f h => (hf f h).1) (sep := ' ') (.inr rfl))
  rw [hl, flagList_semi] at h
  · exact h
  · intro w hw
    obtain ⟨f, h, rfl⟩ := List.mem_map.1 hw
    exact (hf f h).2

/-- What is recorded of the flags. -/
def CTarget.flagTold (m : Str → Str) (t : CTarget) : List Told :=
  let whole (fs : List Str) : List Told :=
    [⟨c!"set_target_" ++ c!"properties",
      [t.name, c!"PROPERTIES", c!"COMPILE_FLAGS", flagList (fs.map m)]⟩]
  if t.type = c!"none" then []
  else if (t.cflagsC = [] ∨ t.group .c = []) ∧ (t.cflagsCC = [] ∨ t.group .cxx = []) then whole t.cflags
  else if t.group .c ≠ [] ∧ ¬ (t.group .asm ≠ [] ∨ t.group .cxx ≠ []) then
    whole (t.cflags ++ t.cflagsC)
  else if t.group .cxx ≠ [] ∧ ¬ (t.group .asm ≠ [] ∨ t.group .c ≠ []) then
    whole (t.cflags ++ t.cflagsCC)
  else
    (if t.group .asm ≠ [] ∧ t.cflags ≠ [] then
      [t.filesTold m .asm c!"COMPILE_FLAGS" (flagList (t.cflags.map m))] else []) ++
    (if t.group .c ≠ [] ∧ (t.cflags ≠ [] ∨ t.cflagsC ≠ []) then
      [t.filesTold m .c c!"COMPILE_FLAGS" (flagList ((t.cflags ++ t.cflagsC).map m))] else []) ++
    (if t.group .cxx ≠ [] ∧ (t.cflags ≠ [] ∨ t.cflagsCC ≠ []) then
      [t.filesTold m .cxx c!"COMPILE_FLAGS" (flagList ((t.cflags ++ t.cflagsCC).map m))] else [])

theorem reads_flags {env : CEnv} {m : Str → Str} {t : CTarget} (hn : NameC t.name)
    (hg : ∀ k, t.group k ≠ [] → listOf env (t.srcVar k) = (t.group k).map m)
    (hf : ∀ f ∈ t.cflags ++ t.cflagsC ++ t.cflagsCC, Amounts env f (m f) ∧ ';' ∉ m f) :
    ReadsC env t.flagText env (t.flagTold m) := by
  have h₀ : ∀ f ∈ t.cflags, Amounts env f (m f) ∧ ';' ∉ m f := fun f h => hf f (by simp [h])
  have h₁ : ∀ f ∈ t.cflags ++ t.cflagsC, Amounts env f (m f) ∧ ';' ∉ m f := fun f h =>
    hf f (by rw [List.mem_append]; exact .inl h)
  have h₂ : ∀ f ∈ t.cflags ++ t.cflagsCC, Amounts env f (m f) ∧ ';' ∉ m f := fun f h =>
    hf f (by simp only [List.mem_append] at h ⊢; tauto)
  unfold CTarget.flagText CTarget.flagTold
  dsimp only
  split
  · exact ReadsC.nil
  · split
    · exact reads_targetFlags hn (by decide) h₀
    · split
      · exact reads_targetFlags hn (by decide) h₁
      · split
        · exact reads_targetFlags hn (by decide) h₂
        · refine ReadsC.append (env' := env) (ReadsC.append (env' := env) ?_ ?_) ?_
          · split
            · rename_i h; exact reads_fileFlags hn (hg _ h.1) h₀
            · exact ReadsC.nil
          · split
            · rename_i h; exact reads_fileFlags hn (hg _ h.1) h₁
            · exact ReadsC.nil
          · split
            · rename_i h; exact reads_fileFlags hn (hg _ h.1) h₂
            · exact ReadsC.nil

def CTarget.linkFlagTold (m : Str → Str) (t : CTarget) : List Told :=
  match t.ldflags with
  | some fs =>
    if t.type ≠ c!"none" then
      [⟨c!"set_target_" ++ c!"properties",
        [t.name, c!"PROPERTIES", c!"LINK_FLAGS", flagList (fs.map m)]⟩]
    else []
  | none => []

theorem reads_linkFlags {env : CEnv} {m : Str → Str} {t : CTarget} (hn : NameC t.name)
    (hf : ∀ f ∈ t.ldflags.getD [], Amounts env f (m f) ∧ ';' ∉ m f) :
    ReadsC env t.linkFlagText env (t.linkFlagTold m) := by
  unfold CTarget.linkFlagText CTarget.linkFlagTold
  cases h : t.ldflags with
  | none => exact ReadsC.nil
  | some fs =>
    rw [h, Option.getD_some] at hf
    dsimp only
    split
    · exact reads_targetFlags hn (by decide) hf
    · exact ReadsC.nil

/-! ### Dependencies -/

theorem gives_depLines {env : CEnv} {ds : List Str} (h : ∀ d ∈ ds, NameC d) :
    Gives env (depLines ds) (uniquer id ds) := by
  have h' : ∀ d ∈ uniquer id ds, NameC d := fun d hd => h d (mem_uniquer.1 hd)
  unfold depLines
  generalize uniquer id ds = l at h'
  induction l with
  | nil => exact Gives.nil
  | cons d l ih =>
    rw [List.flatMap_cons]
    have h₀ : Gives env c!"  " [] := Gives.blanks (by decide)
    have := (h₀.append (Gives.name (h' d (by simp)) (b := '\n') (by decide))).append
      (ih fun x hx => h' x (by simp [hx]))
    simpa using this

theorem static_mem {t : CTarget} {d : Str} (h : d ∈ t.staticDeps) : ∃ e ∈ t.deps, e.1 = d := by
  obtain ⟨e, he, rfl⟩ := List.mem_map.1 h
  exact ⟨e, (List.mem_filter.1 he).1, rfl⟩

theorem shared_mem {t : CTarget} {d : Str} (h : d ∈ t.sharedDeps) : ∃ e ∈ t.deps, e.1 = d := by
  obtain ⟨e, he, rfl⟩ := List.mem_map.1 h
  exact ⟨e, (List.mem_filter.1 he).1, rfl⟩

theorem other_mem {t : CTarget} {d : Str} (h : d ∈ t.otherDeps) : ∃ e ∈ t.deps, e.1 = d := by
  obtain ⟨e, he, rfl⟩ := List.mem_map.1 h
  exact ⟨e, (List.mem_filter.1 he).1, rfl⟩

def CTarget.extraDepTold (t : CTarget) : List Told :=
  if t.deps ≠ [] then
    t.extraDeps.map fun x => ⟨c!"add_dependencies", x :: (uniquer id t.staticDeps ++
      uniquer id t.sharedDeps ++ uniquer id t.otherDeps)⟩
  else []

theorem reads_extraDeps {env : CEnv} {t : CTarget} (he : ∀ d ∈ t.extraDeps, NameC d)
    (hd : ∀ d ∈ t.deps, NameC d.1) : ReadsC env t.extraDepText env t.extraDepTold := by
  unfold CTarget.extraDepText CTarget.extraDepTold
  split
  · have g₁ := gives_depLines (env := env) (ds := t.staticDeps) (fun d h => by
      obtain ⟨e, h₁, rfl⟩ := static_mem h; exact hd e h₁)
    have g₂ := gives_depLines (env := env) (ds := t.sharedDeps) (fun d h => by
      obtain ⟨e, h₁, rfl⟩ := shared_mem h; exact hd e h₁)
    have g₃ := gives_depLines (env := env) (ds := t.otherDeps) (fun d h => by
      obtain ⟨e, h₁, rfl⟩ := other_mem h; exact hd e h₁)
    generalize t.extraDeps = xs at he
    induction xs with
    | nil => exact ReadsC.nil
    | cons x xs ih =>
      rw [List.flatMap_cons, List.map_cons]
      refine ReadsC.append (env' := env) (x := [_]) ?_ (ih fun d h => he d (by simp [h]))
      have r := ((Gives.name (env := env) (he x (by simp)) (b := '\n') (by decide)).append
        ((g₁.append g₂).append g₃)).end_.told (n := c!"add_dependencies") (by decide) (by decide)
        (by decide) (by decide) (by decide)
      simpa using r
  · exact ReadsC.nil

/-- What is made before the target without being linked. -/
def CTarget.orderOnly (t : CTarget) : List Str :=
  uniquer id (t.otherDeps ++ t.extraDeps) ++
    if t.linkable = false then uniquer id t.staticDeps ++ uniquer id t.sharedDeps else []

def CTarget.depTold (t : CTarget) : List Told :=
  if t.otherDeps ++ t.extraDeps ≠ [] ∨ (t.linkable = false ∧ (t.staticDeps ≠ [] ∨ t.sharedDeps ≠ []))
  then [⟨c!"add_dependencies", t.name :: t.orderOnly⟩] else []

theorem reads_deps {env : CEnv} {t : CTarget} (hn : NameC t.name) (he : ∀ d ∈ t.extraDeps, NameC d)
    (hd : ∀ d ∈ t.deps, NameC d.1) : ReadsC env t.depText env t.depTold := by
  unfold CTarget.depText CTarget.depTold
  dsimp only
  split
  · have g₁ := gives_depLines (env := env) (ds := t.staticDeps) (fun d h => by
      obtain ⟨e, h₁, rfl⟩ := static_mem h; exact hd e h₁)
    have g₂ := gives_depLines (env := env) (ds := t.sharedDeps) (fun d h => by
      obtain ⟨e, h₁, rfl⟩ := shared_mem h; exact hd e h₁)
    have g₃ := gives_depLines (env := env) (ds := t.otherDeps ++ t.extraDeps) (fun d h => by
      rcases List.mem_append.1 h with h | h
      · obtain ⟨e, h₁, rfl⟩ := other_mem h; exact hd e h₁
      · exact he d h)
    have g₄ : Gives env (if t.linkable = false then depLines t.staticDeps ++ depLines t.sharedDeps else [])
        (if t.linkable = false then uniquer id t.staticDeps ++ uniquer id t.sharedDeps else []) := by
      split
      · exact g₁.append g₂
      · exact Gives.nil
    have r := ((Gives.name (env := env) hn (b := '\n') (by decide)).append
      (g₃.append g₄)).end_.told (n := c!"add_dependencies") (by decide) (by decide)
      (by decide) (by decide) (by decide)
    unfold CTarget.orderOnly
    generalize (if t.linkable = false then depLines t.staticDeps ++ depLines t.sharedDeps else []) = A
      at r
    simpa using r
  · exact ReadsC.nil

/-- Whether the static libraries are searched again and again. -/
def CTarget.grouped (t : CTarget) : Bool :=
  t.circular && decide (1 < t.staticDeps.length) && !t.mac

/-- What a target is linked with. -/
def CTarget.linked (m : Str → Str) (t : CTarget) : List Str :=
  (if t.staticDeps ≠ [] then
    (if t.grouped then [c!"-Wl,--start-group"] else []) ++ uniquer id t.staticDeps ++
    (if t.grouped then [c!"-Wl,--end-group"] else []) else []) ++
  uniquer id t.sharedDeps ++ (uniquer id (t.libraries.filter (· ≠ []))).map fun l => m (dropSdkRoot l)

def CTarget.linkTold (m : Str → Str) (t : CTarget) : List Told :=
  if t.linkable = true ∧ (t.libraries.filter (· ≠ []) ≠ [] ∨ t.staticDeps ≠ [] ∨ t.sharedDeps ≠ []) then
    [⟨c!"target_link_" ++ c!"libraries", t.name :: t.linked m⟩] else []

theorem dropSdkRoot_mem {l : Str} {c : Char} (h : c ∈ dropSdkRoot l) : c ∈ l := by
  unfold dropSdkRoot at h
  split at h
  · exact List.mem_of_mem_drop h
  · exact h

theorem reads_link {env : CEnv} {m : Str → Str} {t : CTarget} (hn : NameC t.name)
    (hd : ∀ d ∈ t.deps, NameC d.1)
    (hl : ∀ l ∈ t.libraries, Amounts env (dropSdkRoot l) (m (dropSdkRoot l)) ∧ '"' ∉ l ∧ '\\' ∉ l) :
    ReadsC env t.linkText env (t.linkTold m) := by
  unfold CTarget.linkText CTarget.linkTold
  dsimp only
  split
  · have g₁ := gives_depLines (env := env) (ds := t.staticDeps) (fun d h => by
      obtain ⟨e, h₁, rfl⟩ := static_mem h; exact hd e h₁)
    have g₂ := gives_depLines (env := env) (ds := t.sharedDeps) (fun d h => by
      obtain ⟨e, h₁, rfl⟩ := shared_mem h; exact hd e h₁)
    have w : ∀ x, PlainWordC x → Gives env (if t.grouped then x ++ ['\n'] else [])
        (if t.grouped then [x] else []) := by
      intro x hx
      split
      · exact Gives.word (plainWordC_bareWord hx) (by decide)
      · exact Gives.nil
    have g₃ : Gives env (if t.staticDeps ≠ [] then
        (if t.grouped then c!"-Wl,--start-group\n" else []) ++ depLines t.staticDeps ++
        (if t.grouped then c!"-Wl,--end-group\n" else []) else [])
        (if t.staticDeps ≠ [] then
          (if t.grouped then [c!"-Wl,--start-group"] else []) ++ uniquer id t.staticDeps ++
          (if t.grouped then [c!"-Wl,--end-group"] else []) else []) := by
      split
      · exact ((w c!"-Wl,--start-group" (by decide)).append g₁).append (w c!"-Wl,--end-group" (by decide))
      · exact Gives.nil
    have g₄ : Gives env ((uniquer id (t.libraries.filter (· ≠ []))).flatMap fun l =>
        c!"  \"" ++ dropSdkRoot l ++ c!"\"\n")
        ((uniquer id (t.libraries.filter (· ≠ []))).map fun l => m (dropSdkRoot l)) := by
      have h' : ∀ l ∈ uniquer id (t.libraries.filter (· ≠ [])),
          Amounts env (dropSdkRoot l) (m (dropSdkRoot l)) ∧ '"' ∉ l ∧ '\\' ∉ l :=
        fun l h => hl l (List.mem_filter.1 (mem_uniquer.1 h)).1
      generalize uniquer id (t.libraries.filter (· ≠ [])) = ls at h'
      induction ls with
      | nil => exact Gives.nil
      | cons l ls ih =>
        rw [List.flatMap_cons, List.map_cons]
        obtain ⟨a, b, c⟩ := h' l (by simp)
        have h₀ : Gives env c!"  " [] := Gives.blanks (by decide)
        have h₁ := Gives.quoted (quotedLex_chars (fun e => b (dropSdkRoot_mem e))
          fun e => c (dropSdkRoot_mem e)) (evalText_plain a fun e => c (dropSdkRoot_mem e))
          (b := '\n') (by decide)
        have := (h₀.append h₁).append (ih fun x hx => h' x (by simp [hx]))
        simpa using this
    have r := ((Gives.name (env := env) hn (b := '\n') (by decide)).append
      ((g₃.append g₂).append g₄)).end_.told (n := c!"target_link_" ++ c!"libraries") (by decide)
      (by decide) (by decide) (by decide) (by decide)
    unfold CTarget.linked
    have eg : (t.circular && decide (1 < t.staticDeps.length) && !t.mac) = t.grouped := rfl
    rw [eg]
    refine cast ?_ r
    congr 1
    generalize (if t.staticDeps ≠ [] then
        (if t.grouped then c!"-Wl,--start-group\n" else []) ++ depLines t.staticDeps ++
        (if t.grouped then c!"-Wl,--end-group\n" else []) else []) = A
    generalize depLines t.sharedDeps = B
    generalize ((uniquer id (t.libraries.filter (· ≠ []))).flatMap fun l =>
        c!"  \"" ++ dropSdkRoot l ++ c!"\"\n") = C
    simp
  · exact ReadsC.nil

/-! ### The whole -/

/-- What is recorded of a target. -/
def CTarget.told (m : Str → Str) (env : CEnv) (t : CTarget) (command : Str) (modifier : Option Str) :
    List Told :=
  (if t.dummy then dummyTold (dummyFile env) else []) ++ t.dirTold m ++
    t.declareTold m env command modifier ++ t.excludeTold ++ t.languageTold ++ t.headerTold m ++
    t.objectTold m ++ t.includeTold m ++ t.defineTold m ++ t.flagTold m ++ t.linkFlagTold m ++
    t.extraDepTold ++ t.depTold ++ t.linkTold m

theorem reads_target {env : CEnv} {m : Str → Str} {t : CTarget} (h : TargetFits env m t) {text : Str}
    (ht : t.text = some text) :
    ∃ command modifier env', (t.type, command, modifier) ∈ cmTypes ∧
      (∃ objects, t.objectText = some objects) ∧
      ReadsC env text env' (t.told m env command modifier) ∧ AgreeC env env' := by
  unfold CTarget.text at ht
  split at ht
  · rename_i ty command modifier objects hfind hobj
    replace ht := (Option.some.inj ht).symm
    have hty : ty = t.type := by
      have := List.find?_some hfind
      simpa using this
    have hmem := List.mem_of_find?_eq_some hfind
    rw [hty] at hmem
    obtain ⟨e₁, r₁, a₁, l₁, k₁⟩ := reads_kinds h.name h.files (ks := srcKinds) (by decide) env
      (AgreeC.refl env) fun k _ => h.freshFiles k
    have hall : ∀ k, k ∈ srcKinds := by intro k; cases k <;> decide
    have obj : ∀ n ∈ [c!"obj", c!"TOOLSET", c!"TARGET"], e₁ n = env n := fun n hn =>
      a₁ n ((by decide : ∀ n ∈ [c!"obj", c!"TOOLSET", c!"TARGET"], ¬ KeptName n) n hn)
    have hdf : dummyFile e₁ = dummyFile env := by
      unfold dummyFile
      rw [obj _ (by decide), obj _ (by decide), obj _ (by decide)]
    obtain ⟨e₂, r₂, a₂, l₂, k₂⟩ := reads_dummy (env := e₁) h.name
      fun n hn => by rw [obj n hn]; exact h.dummy n hn
    rw [hdf] at r₂ l₂
    have a₂' := a₁.trans a₂
    have hg₂ : ∀ k, t.group k ≠ [] → listOf e₂ (t.srcVar k) = (t.group k).map m := by
      intro k hk
      rw [← l₁ k (hall k) hk]
      unfold listOf
      rw [k₂ _ (srcVar_ne_dummy t k)]
    have r₃ := reads_dirs (env := e₂) (m := m) (t := t) fun d hd => BareWord.agree a₂' (h.dirs d hd)
    have r₄ := reads_declare (env := e₂) (env₀ := env) h.name hmem hg₂ l₂
    have r₅ := reads_exclude (env := e₂) h.name h.extra
    have r₆ := reads_language (env := e₂) h.name
    have r₇ := reads_header (env := e₂) h.name hg₂
    have r₈ := reads_object (env := e₂) h.name hg₂ hobj
    have hfi : e₂ (t.name ++ c!"__include_dirs") = [] := by
      rw [k₂ _ (fun e => absurd (List.append_cancel_left e) (by decide)),
        k₁ _ (fun k _ e => srcVar_ne_include t k e.symm)]
      exact h.freshDirs
    obtain ⟨e₃, r₉, a₃, k₃⟩ := reads_include (env := e₂) h.name (fun i hi =>
      ⟨Amounts.agree a₂' (h.includes i hi).1, (h.includes i hi).2⟩) hfi
    have a₃' := a₂'.trans a₃
    have hg₃ : ∀ k, t.group k ≠ [] → listOf e₃ (t.srcVar k) = (t.group k).map m := by
      intro k hk
      rw [← hg₂ k hk]
      unfold listOf
      rw [k₃ _ (srcVar_ne_include t k)]
    have r₁₀ := reads_define (env := e₃) (m := m) h.name fun d hd =>
      Amounts.agree a₃' (h.defines d hd).1
    have r₁₁ := reads_flags (env := e₃) h.name hg₃ fun f hf =>
      ⟨Amounts.agree a₃' (h.flags f (by rw [List.mem_append]; exact .inl hf)).1,
        (h.flags f (by rw [List.mem_append]; exact .inl hf)).2⟩
    have r₁₂ := reads_linkFlags (env := e₃) (m := m) h.name fun f hf =>
      ⟨Amounts.agree a₃' (h.flags f (by rw [List.mem_append]; exact .inr hf)).1,
        (h.flags f (by rw [List.mem_append]; exact .inr hf)).2⟩
    have r₁₃ := reads_extraDeps (env := e₃) h.extra h.deps
    have r₁₄ := reads_deps (env := e₃) h.name h.extra h.deps
    have r₁₅ := reads_link (env := e₃) (m := m) h.name h.deps fun l hl =>
      ⟨Amounts.agree a₃' (h.libs l hl).1, (h.libs l hl).2⟩
    refine ⟨command, modifier, e₃, hmem, ⟨objects, hobj⟩, ?_, a₃'⟩
    replace r₁ : ReadsC env t.sourceText e₁ [] := r₁
    have := (((((((((((((r₁.append r₂).append r₃).append r₄).append r₅).append r₆).append r₇).append
      r₈).append r₉).append r₁₀).append r₁₁).append r₁₂).append r₁₃).append r₁₄).append r₁₅
    rw [List.nil_append] at this
    unfold CTarget.told
    rw [ht]
    exact this
  · cases ht

end Gyp
