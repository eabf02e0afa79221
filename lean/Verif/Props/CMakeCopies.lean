import Verif.Model.CMakeCopies
import Verif.Spec.CMakeCopies
import Verif.Props.CMakeActions
import Verif.Props.CMake
/-
C115: the copies of a target in CMake files.
-/
namespace Gyp
open Gyp.Spec

/-- A copy whose texts CMake can read, with what they stand for: source and destination can stand bare,
the paths are elements of lists, and nothing is spelled like an option of the commands. -/
structure CopyFits (env : CEnv) (path : Str) (p : Str × Str) (r : CopyRead) : Prop where
  src : BareWord env p.1 r.src
  dst : BareWord env p.2 r.dst
  inp : Amounts env (normjoinSource path p.1) r.inp
  out : Amounts env (normjoinSource path p.2) r.out
  elems : ∀ w ∈ [r.inp, r.out], Element w ∧ w ≠ c!"PARENT_SCOPE" ∧ w ≠ c!"CACHE"
  noOption : ∀ w ∈ [r.src, r.dst, r.inp, r.out], w ∉ commandOptions

theorem CopyFits.agree {env env' : CEnv} (h : AgreeC env env') {path : Str} {p : Str × Str} {r : CopyRead}
    (hf : CopyFits env path p r) : CopyFits env' path p r :=
  { hf with
    src := BareWord.agree h hf.src
    dst := BareWord.agree h hf.dst
    inp := Amounts.agree h hf.inp
    out := Amounts.agree h hf.out }

theorem copyInVar_kept (t : Str) (d : Bool) : KeptName (copyInVar t d) := by
  unfold KeptName endsWith
  simp only [List.isSuffixOf_iff_suffix]
  cases d
  · left; exact ⟨copyName t, by simp [copyInVar]⟩
  · right; right; right; right; left; exact ⟨copyName t, by simp [copyInVar]⟩

theorem copyOutVar_kept (t : Str) (d : Bool) : KeptName (copyOutVar t d) := by
  unfold KeptName endsWith
  simp only [List.isSuffixOf_iff_suffix]
  cases d
  · right; left; exact ⟨copyName t, by simp [copyOutVar]⟩
  · right; right; right; right; right; left; exact ⟨copyName t, by simp [copyOutVar]⟩

theorem copyInVar_nameC {t : Str} (h : NameC t) (d : Bool) : NameC (copyInVar t d) := by
  unfold copyInVar copyName
  cases d
  · exact nameC_append (nameC_append (nameC_append h (by decide)) (by decide)) (by decide)
  · exact nameC_append (nameC_append (nameC_append h (by decide)) (by decide)) (by decide)

theorem copyOutVar_nameC {t : Str} (h : NameC t) (d : Bool) : NameC (copyOutVar t d) := by
  unfold copyOutVar copyName
  cases d
  · exact nameC_append (nameC_append (nameC_append h (by decide)) (by decide)) (by decide)
  · exact nameC_append (nameC_append (nameC_append h (by decide)) (by decide)) (by decide)

theorem copyIn_ne_out (t : Str) (d e : Bool) : copyInVar t d ≠ copyOutVar t e := by
  intro h
  unfold copyInVar copyOutVar at h
  rw [List.append_assoc, List.append_assoc] at h
  have := List.append_cancel_left h
  revert this
  cases d <;> cases e <;> decide

theorem copyIn_ne (t : Str) : copyInVar t false ≠ copyInVar t true := by
  intro h
  unfold copyInVar at h
  rw [List.append_assoc, List.append_assoc] at h
  exact absurd (List.append_cancel_left h) (by decide)

theorem copyOut_ne (t : Str) : copyOutVar t false ≠ copyOutVar t true := by
  intro h
  unfold copyOutVar at h
  rw [List.append_assoc, List.append_assoc] at h
  exact absurd (List.append_cancel_left h) (by decide)

/-- The two lists of files or directories are read back. -/
theorem reads_copyLists {env : CEnv} {target path : Str} {d : Bool} {copies : List CCopy}
    {rs : List CopyRead} (ht : NameC target)
    (hf : List.Forall₂ (CopyFits env path) (cmCopyPairs d copies) rs)
    (hi : env (copyInVar target d) = []) (ho : env (copyOutVar target d) = []) :
    ∃ env', ReadsC env (copyLists target path d copies) env' [] ∧ AgreeC env env' ∧
      (∀ n, n ≠ copyInVar target d → n ≠ copyOutVar target d → env' n = env n) ∧
      listOf env' (copyInVar target d) = rs.map (·.inp) ∧
      listOf env' (copyOutVar target d) = rs.map (·.out) := by
  unfold copyLists
  dsimp only
  generalize cmCopyPairs d copies = ps at hf
  have hins : ∀ e, AgreeC env e →
      List.Forall₂ (Amounts e) (ps.map fun p => normjoinSource path p.1) (rs.map (·.inp)) := by
    intro e he
    rw [List.forall₂_map_left_iff, List.forall₂_map_right_iff]
    exact hf.imp fun _ _ h => (h.agree he).inp
  have houts : ∀ e, AgreeC env e →
      List.Forall₂ (Amounts e) (ps.map fun p => normjoinSource path p.2) (rs.map (·.out)) := by
    intro e he
    rw [List.forall₂_map_left_iff, List.forall₂_map_right_iff]
    exact hf.imp fun _ _ h => (h.agree he).out
  have hel : ∀ r ∈ rs, ∀ w ∈ [r.inp, r.out], Element w ∧ w ≠ c!"PARENT_SCOPE" ∧ w ≠ c!"CACHE" := by
    intro r hr
    obtain ⟨p, _, hp⟩ := forall₂_mem_right hf hr
    exact hp.elems
  have eli : ∀ w ∈ rs.map (·.inp), Element w ∧ w ≠ c!"PARENT_SCOPE" ∧ w ≠ c!"CACHE" := by
    intro w hw
    obtain ⟨r, hr, rfl⟩ := List.mem_map.1 hw
    exact hel r hr _ (by simp)
  have elo : ∀ w ∈ rs.map (·.out), Element w ∧ w ≠ c!"PARENT_SCOPE" ∧ w ≠ c!"CACHE" := by
    intro w hw
    obtain ⟨r, hr, rfl⟩ := List.mem_map.1 hw
    exact hel r hr _ (by simp)
  by_cases hps : ps = []
  · rw [if_pos hps]
    subst hps
    cases hf
    exact ⟨env, ReadsC.nil, AgreeC.refl _, fun _ _ _ => rfl, by simp [listOf, hi, elements, takeApart],
      by simp [listOf, ho, elements, takeApart]⟩
  · rw [if_neg hps]
    have hne := copyIn_ne_out target d d
    have r₁ := reads_setVariableList (copyInVar_nameC ht d) (hins env (AgreeC.refl _)) (fun _ => hi)
      (fun h => (eli _ h).2.1 rfl) (fun h => (eli _ h).2.2 rfl)
    generalize he₁ : assign env (copyInVar target d) (joinWith [';'] ((rs.map (·.inp)).map semi)) = env₁ at r₁
    have a₁ : AgreeC env env₁ := he₁ ▸ (AgreeC.refl env).assign (copyInVar_kept target d)
    have r₂ := reads_setVariableList (env := env₁) (copyOutVar_nameC ht d) (houts env₁ a₁)
      (fun _ => by rw [← he₁]; simp [assign, hne.symm, ho])
      (fun h => (elo _ h).2.1 rfl) (fun h => (elo _ h).2.2 rfl)
    generalize he₂ : assign env₁ (copyOutVar target d) (joinWith [';'] ((rs.map (·.out)).map semi)) = env₂ at r₂
    have a₂ : AgreeC env env₂ := he₂ ▸ a₁.assign (copyOutVar_kept target d)
    refine ⟨env₂, r₁.append r₂, a₂, ?_, ?_, ?_⟩
    · intro n h₁ h₂
      rw [← he₂, ← he₁]
      simp [assign, h₁, h₂]
    · rw [← he₂, ← he₁]
      simp only [listOf, assign, hne, if_false, if_true]
      exact elements_join fun w hw => (eli w hw).1
    · rw [← he₂]
      simp only [listOf, assign, if_true]
      exact elements_join fun w hw => (elo w hw).1

/-- References after a word. -/
theorem gives_refs {env : CEnv} {t : Str} {vs : List Str} (names : List Str)
    (h : ∀ b, isBlankC b = true → Gives env (t ++ [b]) vs) (hn : ∀ n ∈ names, NameC n) :
    ∀ b, isBlankC b = true → Gives env (t ++ (names.flatMap fun n => c!" " ++ writeVariable n) ++ [b])
      (vs ++ names.flatMap (listOf env)) := by
  induction names generalizing t vs with
  | nil => simpa using h
  | cons n names ih =>
    intro b hb
    have h₁ : ∀ b, isBlankC b = true → Gives env ((t ++ (c!" " ++ writeVariable n)) ++ [b]) (vs ++ listOf env n) := by
      intro b hb
      have := (h ' ' (by decide)).append (Gives.ref (env := env) (hn n (by simp)) hb)
      simpa using this
    have := ih h₁ (fun m hm => hn m (by simp [hm])) b hb
    simpa using this

def copyRefNames (var : Bool → Str) (copies : List CCopy) : List Str :=
  (if cmCopyPairs false copies = [] then [] else [var false]) ++
  (if cmCopyPairs true copies = [] then [] else [var true])

theorem copyRefs_eq (var : Bool → Str) (copies : List CCopy) :
    copyRefs var copies = (copyRefNames var copies).flatMap fun n => c!" " ++ writeVariable n := by
  unfold copyRefs copyRefNames
  split <;> split <;> simp

theorem gives_copyCommands {env : CEnv} {path cm : Str} {d : Bool} {copies : List CCopy}
    {rs : List CopyRead} (hcm : listOf env c!"CMAKE_COMMAND" = [cm])
    (hf : List.Forall₂ (CopyFits env path) (cmCopyPairs d copies) rs) :
    Gives env (copyCommands d copies) (rs.flatMap fun r =>
      [c!"COMMAND", cm, c!"-E", if d then c!"copy_directory" else c!"copy", r.src, r.dst]) := by
  unfold copyCommands
  generalize cmCopyPairs d copies = ps at hf
  induction hf with
  | nil => exact Gives.nil
  | @cons p r ps rs hp _ ih =>
    rw [List.flatMap_cons, List.flatMap_cons]
    have h₁ : Gives env (c!"COMMAND" ++ [' ']) [c!"COMMAND"] := Gives.name (by decide) (by decide)
    have h₂ : Gives env (writeVariable c!"CMAKE_COMMAND" ++ [' ']) [cm] := by
      have := Gives.ref (env := env) (n := c!"CMAKE_COMMAND") (by decide) (b := ' ') (by decide)
      rwa [hcm] at this
    have h₃ : Gives env (c!"-E" ++ [' ']) [c!"-E"] := Gives.name (by decide) (by decide)
    have h₄ : Gives env ((if d then c!"copy_directory" else c!"copy") ++ [' '])
        [if d then c!"copy_directory" else c!"copy"] := by
      refine Gives.name ?_ (by decide)
      cases d <;> decide
    have h₅ : Gives env (p.1 ++ [' ']) [r.src] := Gives.word hp.src (by decide)
    have h₆ : Gives env (p.2 ++ ['\n']) [r.dst] := Gives.word hp.dst (by decide)
    have := ((((((h₁.append h₂).append h₃).append h₄).append h₅).append h₆).append ih)
    simpa [writeVariable] using this

theorem byOption_copies {rs : List CopyRead} {rest : List Str} {cm w : Str} {R : List (Str × List Str)}
    (hcm : cm ∉ commandOptions) (hw : w ∉ commandOptions)
    (hd : ∀ r ∈ rs, r.src ∉ commandOptions ∧ r.dst ∉ commandOptions)
    (hr : byOption rest = ([], R)) :
    byOption ((rs.flatMap fun r => [c!"COMMAND", cm, c!"-E", w, r.src, r.dst]) ++ rest) =
      ([], rs.map (fun r => (c!"COMMAND", [cm, c!"-E", w, r.src, r.dst])) ++ R) := by
  induction rs with
  | nil => simpa using hr
  | cons r rs ih =>
    have h₁ := ih fun x hx => hd x (by simp [hx])
    have h₂ := byOption_section (k := c!"COMMAND") (vs := [cm, c!"-E", w, r.src, r.dst])
      (by decide) (by
        intro v hv
        simp only [List.mem_cons, List.not_mem_nil, or_false] at hv
        rcases hv with rfl | rfl | rfl | rfl | rfl
        · exact hcm
        · decide
        · exact hw
        · exact (hd r (by simp)).1
        · exact (hd r (by simp)).2) h₁
    simpa using h₂

theorem copyCommand_text (target path : Str) (copies : List CCopy) :
    copyCommand target path copies = c!"add_custom_command" ++ '(' ::
      (((((c!"\n" ++ (c!"OUTPUT" ++ copyRefs (copyOutVar target) copies ++ ['\n'])) ++
        copyCommands false copies) ++ copyCommands true copies) ++
        (c!"DEPENDS" ++ copyRefs (copyInVar target) copies ++ ['\n'])) ++
        (((c!"WORKING_DIRECTORY" ++ [' ']) ++ ((listDirVar ++ c!"/" ++ path) ++ ['\n'])) ++
        (((c!"COMMENT" ++ [' ']) ++ ((c!"Copying" ++ [' ']) ++ ((c!"for" ++ [' ']) ++ (target ++ ['\n'])))) ++
        (c!"VERBATIM" ++ ['\n'])))) ++ c!")\n" := by
  unfold copyCommand
  generalize copyRefs (copyOutVar target) copies = A
  generalize copyRefs (copyInVar target) copies = B
  generalize copyCommands false copies = C
  generalize copyCommands true copies = D
  generalize listDirVar = E
  simp

theorem copyTarget_text (target : Str) (copies : List CCopy) :
    copyTarget target copies = c!"add_custom_target" ++ '(' ::
      (((copyName target ++ ['\n']) ++ (c!"  " ++ (c!"DEPENDS" ++ copyRefs (copyOutVar target) copies ++ ['\n']))) ++
        (c!"  " ++ (c!"SOURCES" ++ ((if cmCopyPairs false copies = [] then [] else [copyInVar target false]).flatMap
          fun n => c!" " ++ writeVariable n) ++ ['\n']))) ++ c!")\n" := by
  unfold copyTarget
  generalize copyRefs (copyOutVar target) copies = A
  split <;> simp

theorem copyName_nameC {target : Str} (h : NameC target) : NameC (copyName target) :=
  nameC_append h (by decide)

theorem copyName_noOption (target : Str) : copyName target ∉ commandOptions := by
  intro h
  have : c!"__" <:+: copyName target := ⟨target, c!"copies", by simp [copyName]⟩
  exact absurd this ((by decide : ∀ o ∈ commandOptions, ¬ c!"__" <:+: o) _ h)

theorem any_pairs {copies : List CCopy} (h : copies.any (fun c => decide (c.files ≠ [])) = false) :
    ∀ d, cmCopyPairs d copies = [] := by
  intro d
  unfold cmCopyPairs
  rw [List.flatMap_eq_nil_iff]
  intro c hc
  have := List.any_eq_false.1 h c hc
  simp only [ne_eq, decide_not, Bool.not_eq_true', decide_eq_false_iff_not, Decidable.not_not] at this
  rw [this]; rfl

/-- **C115** (partial: names with blanks or other special characters are missing, see `C115_blank`).
The copies of a target are read back: CMake is told once of all, files first, with a
command for each that copies its source to its destination, from the directory of the gyp file; the
copies are done again when a source changes, and the target of the copies needs all destinations. -/
theorem C115_copies_partial {env : CEnv} {target path cm dir : Str} {copies : List CCopy}
    {files dirs : List CopyRead} (ht : NameC target) (ht' : target ∉ commandOptions)
    (hp : path.all isPlainChar = true)
    (hcm : listOf env c!"CMAKE_COMMAND" = [cm]) (hcm' : cm ∉ commandOptions)
    (hdir : env (c!"CMAKE_CURRENT_" ++ c!"LIST_DIR") = dir) (hsemi : ';' ∉ dir)
    (hsome : ∃ c ∈ copies, c.files ≠ [])
    (hfiles : List.Forall₂ (CopyFits env path) (cmCopyPairs false copies) files)
    (hdirs : List.Forall₂ (CopyFits env path) (cmCopyPairs true copies) dirs)
    (hfresh : ∀ n, KeptName n → env n = []) :
    ∃ env' told, cmakeReads env (cmCopies target path copies) = some (env', told) ∧
      RecordsCopies cm (dir ++ c!"/" ++ path) target (copyName target) files dirs told := by
  have hany : copies.any (fun c => decide (c.files ≠ [])) = true := by
    obtain ⟨c, hc, hne⟩ := hsome
    exact List.any_eq_true.2 ⟨c, hc, by simpa using hne⟩
  unfold cmCopies
  rw [if_pos hany]
  obtain ⟨env₁, r₁, a₁, o₁, li₁, lo₁⟩ := reads_copyLists (target := target) ht hfiles
    (hfresh _ (copyInVar_kept _ _)) (hfresh _ (copyOutVar_kept _ _))
  obtain ⟨env₂, r₂, a₂, o₂, li₂, lo₂⟩ := reads_copyLists (env := env₁) (target := target) (d := true)
    (copies := copies) (rs := dirs) (path := path) ht
    (hdirs.imp fun _ _ h => h.agree a₁)
    (by rw [o₁ _ (copyIn_ne target).symm (copyIn_ne_out target _ _)]; exact hfresh _ (copyInVar_kept _ _))
    (by rw [o₁ _ (copyIn_ne_out target _ _).symm (copyOut_ne target).symm]; exact hfresh _ (copyOutVar_kept _ _))
  have a : AgreeC env env₂ := a₁.trans a₂
  have li : listOf env₂ (copyInVar target false) = files.map (·.inp) := by
    rw [← li₁]; unfold listOf; rw [o₂ _ (copyIn_ne target) (copyIn_ne_out target _ _)]
  have lo : listOf env₂ (copyOutVar target false) = files.map (·.out) := by
    rw [← lo₁]; unfold listOf; rw [o₂ _ (copyIn_ne_out target _ _).symm (copyOut_ne target)]
  have hcm₂ : listOf env₂ c!"CMAKE_COMMAND" = [cm] := by
    unfold listOf
    rw [a _ (by decide)]
    exact hcm
  have hdir₂ : env₂ (c!"CMAKE_CURRENT_" ++ c!"LIST_DIR") = dir := by
    rw [a _ (by decide)]
    exact hdir
  have fFiles : cmCopyPairs false copies = [] → files = [] := by
    intro e; rw [e] at hfiles; cases hfiles; rfl
  have fDirs : cmCopyPairs true copies = [] → dirs = [] := by
    intro e; rw [e] at hdirs; cases hdirs; rfl
  have rIn : (copyRefNames (copyInVar target) copies).flatMap (listOf env₂) = (files ++ dirs).map (·.inp) := by
    unfold copyRefNames
    rw [List.flatMap_append, List.map_append]
    congr 1
    · split
      · rename_i e; rw [fFiles e]; rfl
      · simp [li]
    · split
      · rename_i e; rw [fDirs e]; rfl
      · simp [li₂]
  have rOut : (copyRefNames (copyOutVar target) copies).flatMap (listOf env₂) = (files ++ dirs).map (·.out) := by
    unfold copyRefNames
    rw [List.flatMap_append, List.map_append]
    congr 1
    · split
      · rename_i e; rw [fFiles e]; rfl
      · simp [lo]
    · split
      · rename_i e; rw [fDirs e]; rfl
      · simp [lo₂]
  have nIn : ∀ n ∈ copyRefNames (copyInVar target) copies, NameC n := by
    intro n hn
    unfold copyRefNames at hn
    rcases List.mem_append.1 hn with hn | hn <;> split at hn <;> simp only [List.mem_singleton, List.not_mem_nil] at hn
    · rw [hn]; exact copyInVar_nameC ht _
    · rw [hn]; exact copyInVar_nameC ht _
  have nOut : ∀ n ∈ copyRefNames (copyOutVar target) copies, NameC n := by
    intro n hn
    unfold copyRefNames at hn
    rcases List.mem_append.1 hn with hn | hn <;> split at hn <;> simp only [List.mem_singleton, List.not_mem_nil] at hn
    · rw [hn]; exact copyOutVar_nameC ht _
    · rw [hn]; exact copyOutVar_nameC ht _
  have kw : ∀ (k : Str), k ∈ commandOptions → ∀ b, isBlankC b = true → Gives env₂ (k ++ [b]) [k] := by
    intro k hk b hb
    refine Gives.name ?_ hb
    exact (by decide : ∀ k ∈ commandOptions, NameC k) k hk
  have sp : Gives env₂ c!"  " [] := Gives.blanks (by decide)
  have nl : Gives env₂ c!"\n" [] := Gives.blanks (by decide)
  have gOut := gives_refs (copyRefNames (copyOutVar target) copies) (kw c!"OUTPUT" (by decide)) nOut '\n' (by decide)
  rw [← copyRefs_eq, rOut] at gOut
  have gDep := gives_refs (copyRefNames (copyInVar target) copies) (kw c!"DEPENDS" (by decide)) nIn '\n' (by decide)
  rw [← copyRefs_eq, rIn] at gDep
  have gFiles := gives_copyCommands hcm₂ (hfiles.imp fun _ _ h => h.agree a)
  have gDirs := gives_copyCommands hcm₂ (hdirs.imp fun _ _ h => h.agree a)
  have gWd : Gives env₂ ((listDirVar ++ c!"/" ++ path) ++ ['\n']) [dir ++ c!"/" ++ path] := by
    refine Gives.word ⟨?_, ?_, by simp⟩ (by decide)
    · intro c hc
      simp only [List.mem_append] at hc
      rcases hc with (hc | hc) | hc
      · exact (by decide : ∀ d ∈ listDirVar, isPlainChar d = true ∨ d ∈ c!"${}") c hc
      · exact (by decide : ∀ d ∈ c!"/", isPlainChar d = true ∨ d ∈ c!"${}") c hc
      · exact .inl (List.all_eq_true.1 hp c hc)
    · have h1 : '$' ∉ c!"/" ++ path := by
        intro hm
        rcases List.mem_append.1 hm with hm | hm
        · revert hm; decide
        · exact (isPlainChar_bare (List.all_eq_true.1 hp _ hm)).2 (by decide)
      have := Amounts.ref (env := env₂) (n := c!"CMAKE_CURRENT_" ++ c!"LIST_DIR") (by decide)
        (by decide) (by rw [hdir₂]; exact hsemi) (standsFor_self h1)
      rw [hdir₂] at this
      simpa [listDirVar] using this
  have gCom : Gives env₂ ((c!"Copying" ++ [' ']) ++ ((c!"for" ++ [' ']) ++ (target ++ ['\n'])))
      ([c!"Copying"] ++ ([c!"for"] ++ [target])) :=
    (Gives.name (by decide) (by decide)).append ((Gives.name (by decide) (by decide)).append
      (Gives.name ht (by decide)))
  have gAll := ((((nl.append gOut).append gFiles).append gDirs).append gDep).append
    (((kw c!"WORKING_DIRECTORY" (by decide) ' ' (by decide)).append gWd).append
    (((kw c!"COMMENT" (by decide) ' ' (by decide)).append gCom).append
    (kw c!"VERBATIM" (by decide) '\n' (by decide))))
  have r₃ := gAll.end_.told (n := c!"add_custom_command") (by decide) (by decide) (by decide)
    (by decide) (by decide)
  have gT : Gives env₂ (copyName target ++ ['\n']) [copyName target] :=
    Gives.name (copyName_nameC ht) (by decide)
  have gDepT := gives_refs (copyRefNames (copyOutVar target) copies) (kw c!"DEPENDS" (by decide)) nOut '\n' (by decide)
  rw [← copyRefs_eq, rOut] at gDepT
  have gSrc := gives_refs (env := env₂)
    (if cmCopyPairs false copies = [] then [] else [copyInVar target false]) (kw c!"SOURCES" (by decide))
    (by
      intro n hn
      split at hn <;> simp only [List.mem_singleton, List.not_mem_nil] at hn
      rw [hn]; exact copyInVar_nameC ht _) '\n' (by decide)
  have rSrc : (if cmCopyPairs false copies = [] then [] else [copyInVar target false]).flatMap (listOf env₂) =
      files.map (·.inp) := by
    split
    · rename_i e; rw [fFiles e]; rfl
    · simp [li]
  rw [rSrc] at gSrc
  have gAll' := (gT.append (sp.append gDepT)).append (sp.append gSrc)
  have r₄ := gAll'.end_.told (n := c!"add_custom_target") (by decide) (by decide) (by decide)
    (by decide) (by decide)
  rw [← copyCommand_text] at r₃
  rw [← copyTarget_text] at r₄
  have rAll := ((r₁.append r₂).append r₃).append r₄
  refine ⟨env₂, _, rAll.cmakeReads, _, _, rfl, ?_, ?_⟩
  all_goals
    have no : ∀ r ∈ files ++ dirs, ∀ w ∈ [r.src, r.dst, r.inp, r.out], w ∉ commandOptions := by
      intro r hr
      rcases List.mem_append.1 hr with hr | hr
      · obtain ⟨_, _, h⟩ := forall₂_mem_right hfiles hr; exact h.noOption
      · obtain ⟨_, _, h⟩ := forall₂_mem_right hdirs hr; exact h.noOption
    have noIn : ∀ v ∈ (files ++ dirs).map (·.inp), v ∉ commandOptions := by
      intro v hv
      obtain ⟨r, hr, rfl⟩ := List.mem_map.1 hv
      exact no r hr _ (by simp)
    have noOut : ∀ v ∈ (files ++ dirs).map (·.out), v ∉ commandOptions := by
      intro v hv
      obtain ⟨r, hr, rfl⟩ := List.mem_map.1 hv
      exact no r hr _ (by simp)
  · have b₁ := byOption_section (k := c!"VERBATIM") (vs := []) (rest := []) (R := []) (by decide)
      (by simp) rfl
    have b₂ := byOption_section (k := c!"COMMENT") (vs := [c!"Copying", c!"for", target]) (by decide)
      (by
        intro v hv
        simp only [List.mem_cons, List.not_mem_nil, or_false] at hv
        rcases hv with rfl | rfl | rfl
        · decide
        · decide
        · exact ht') b₁
    have hwd : dir ++ c!"/" ++ path ∉ commandOptions := by
      intro h
      exact absurd (show '/' ∈ dir ++ c!"/" ++ path by simp)
        ((by decide : ∀ o ∈ commandOptions, '/' ∉ o) _ h)
    have b₃ := byOption_section (k := c!"WORKING_DIRECTORY") (vs := [dir ++ c!"/" ++ path])
      (by decide) (fun v hv => List.mem_singleton.1 hv ▸ hwd) b₂
    have b₄ := byOption_section (k := c!"DEPENDS") (vs := (files ++ dirs).map (·.inp)) (by decide) noIn b₃
    have b₅ := byOption_copies (rs := dirs) (w := c!"copy_directory") hcm' (by decide)
      (fun r hr => ⟨no r (by simp [hr]) _ (by simp), no r (by simp [hr]) _ (by simp)⟩) b₄
    have b₆ := byOption_copies (rs := files) (w := c!"copy") hcm' (by decide)
      (fun r hr => ⟨no r (by simp [hr]) _ (by simp), no r (by simp [hr]) _ (by simp)⟩) b₅
    have b₇ := byOption_section (k := c!"OUTPUT") (vs := (files ++ dirs).map (·.out)) (by decide) noOut b₆
    simpa using b₇
  · have b₁ := byOption_section (k := c!"SOURCES") (vs := files.map (·.inp)) (rest := []) (R := [])
      (by decide) (fun v hv => noIn v (by
        obtain ⟨r, hr, rfl⟩ := List.mem_map.1 hv
        exact List.mem_map.2 ⟨r, by simp [hr], rfl⟩)) rfl
    have b₂ := byOption_section (k := c!"DEPENDS") (vs := (files ++ dirs).map (·.out)) (by decide) noOut b₁
    have b₃ := byOption_first (copyName_noOption target) b₂
    simpa using b₃

/-- **C115.**  A target with nothing to copy has an empty target for its copies. -/
theorem C115_nothing {env : CEnv} {target : Str} (path : Str) {copies : List CCopy} (ht : NameC target)
    (h : ∀ c ∈ copies, c.files = []) :
    cmakeReads env (cmCopies target path copies) =
      some (env, [⟨c!"add_custom_target", [target ++ c!"__copies"]⟩]) := by
  have hany : copies.any (fun c => decide (c.files ≠ [])) = false := by
    rw [List.any_eq_false]
    intro c hc
    simp [h c hc]
  unfold cmCopies
  rw [hany, if_neg (by decide)]
  have := (EndGives.name (env := env) (copyName_nameC ht)).told (n := c!"add_custom_target") (by decide)
    (by decide) (by decide) (by decide) (by decide)
  have r := this.cmakeReads
  simpa [copyName] using r

/-- **C115.**  What is copied: every file and directory that is listed, to the entry of the same name in
the destination; a directory is what ends in a slash. -/
theorem C115_which (copies : List CCopy) (dirs : Bool) (src dst : Str) :
    (src, dst) ∈ cmCopyPairs dirs copies ↔
      ∃ c ∈ copies, src ∈ c.files ∧ (dirs = true ↔ (src = [] ∨ c!"/" <:+ src)) ∧
        dst = pathJoin c.destination (basename (normpath src)) := by
  have hb : basename src = [] ↔ (src = [] ∨ c!"/" <:+ src) := by
    unfold basename
    constructor
    · intro h
      cases hs : rsplit1 '/' src with
      | none => rw [hs] at h; exact .inl h
      | some q =>
        rw [hs] at h
        obtain ⟨a, b⟩ := q
        dsimp only at h
        subst h
        rw [(rsplit1_some hs).1]
        exact .inr ⟨a, rfl⟩
    · rintro (rfl | ⟨a, rfl⟩)
      · rfl
      · rw [show a ++ c!"/" = a ++ '/' :: [] from rfl, rsplit1_append (by simp)]
  unfold cmCopyPairs copyDst
  rw [List.mem_flatMap]
  constructor
  · rintro ⟨c, hc, h⟩
    obtain ⟨x, hx, e⟩ := List.mem_map.1 h
    obtain ⟨rfl, rfl⟩ := Prod.mk.inj e
    obtain ⟨h₁, h₂⟩ := List.mem_filter.1 hx
    refine ⟨c, hc, h₁, ?_, rfl⟩
    rw [← hb]
    cases dirs <;> simpa using h₂
  · rintro ⟨c, hc, h₁, h₂, rfl⟩
    refine ⟨c, hc, List.mem_map.2 ⟨src, List.mem_filter.2 ⟨h₁, ?_⟩, rfl⟩⟩
    rw [← hb] at h₂
    cases dirs <;> simpa using h₂

example : cmCopyPairs false [⟨[c!"a/x.txt", c!"res/"], c!"out"⟩] = [(c!"a/x.txt", c!"out/x.txt")] ∧
    cmCopyPairs true [⟨[c!"a/x.txt", c!"res/"], c!"out"⟩] = [(c!"res/", c!"out/res")] := by decide

/-- A path that is written for CMake stands for a path to the place where the word of the command leads
from the directory `wd` of the gyp file: it has no variable, or it begins with one of a full path. -/
theorem place_of {env : CEnv} {path dir p w : Str} (hw : BareWord env p w)
    (hp : path.all isPlainChar = true) (habs : isAbs path = false)
    (hdir : env (c!"CMAKE_CURRENT_" ++ c!"LIST_DIR") = dir) (hne : dir ≠ []) (hsemi : ';' ∉ dir)
    (hk : ('$' ∉ p ∧ w = p) ∨ (isAbs p = false ∧ (∃ v ∈ fullPathVars, v <+: p) ∧ isAbs w = true)) :
    ∃ x, Amounts env (normjoinSource path p) x ∧
      ∀ l, walk l x = walk (walk l (dir ++ c!"/" ++ path)) w := by
  have hwd : ∀ l, walk l (dir ++ c!"/" ++ path) = walk (walk l dir) path := by
    intro l
    rw [List.append_assoc]
    exact walk_slashed l hne habs
  have hb : '$' ∉ path := by
    intro hm
    exact (isPlainChar_bare (List.all_eq_true.1 hp _ hm)).2 (by decide)
  rcases hk with ⟨h₁, rfl⟩ | ⟨h₁, ⟨v, hv, hpre⟩, h₂⟩
  · obtain ⟨x, hx, hl⟩ := C107_path (env := env) hb h₁ (by rw [hdir]; exact hne) (by rw [hdir]; exact hsemi)
    refine ⟨x, hx, fun l => ?_⟩
    rw [hl, hdir, hwd]
  · have : fullPathVars.any (startsWith p) = true := by
      rw [List.any_eq_true]
      refine ⟨v, hv, ?_⟩
      unfold startsWith
      exact List.isPrefixOf_iff_prefix.2 hpre
    refine ⟨w, ?_, fun l => walk_abs h₂ _ _⟩
    unfold normjoinSource
    rw [if_neg (by rw [h₁]; decide), if_pos this]
    exact hw.2.1

/-- **C115.**  What CMake watches is what the commands read and write: the paths of inputs and outputs
lead to where the words of the command do in the directory it runs in. -/
theorem C115_places {env : CEnv} {path dir : Str} {p : Str × Str} {r : CopyRead}
    (hf : CopyFits env path p r)
    (hp : path.all isPlainChar = true) (habs : isAbs path = false)
    (hdir : env (c!"CMAKE_CURRENT_" ++ c!"LIST_DIR") = dir) (hne : dir ≠ []) (hsemi : ';' ∉ dir)
    (hsrc : ('$' ∉ p.1 ∧ r.src = p.1) ∨ (isAbs p.1 = false ∧ (∃ v ∈ fullPathVars, v <+: p.1) ∧ isAbs r.src = true))
    (hdst : ('$' ∉ p.2 ∧ r.dst = p.2) ∨ (isAbs p.2 = false ∧ (∃ v ∈ fullPathVars, v <+: p.2) ∧ isAbs r.dst = true)) :
    (∀ l, walk l r.inp = walk (walk l (dir ++ c!"/" ++ path)) r.src) ∧
    (∀ l, walk l r.out = walk (walk l (dir ++ c!"/" ++ path)) r.dst) := by
  have huniq : ∀ {t x y : Str}, Amounts env t x → Amounts env t y → x = y := by
    intro t x y hx hy
    have h₁ := evalText_cmakeEscape hx
    rw [evalText_cmakeEscape hy, Option.some.injEq] at h₁
    have hinj : ∀ a b : Str, semi a = semi b → a = b := by
      intro a
      induction a with
      | nil =>
        intro b h
        cases b with
        | nil => rfl
        | cons c b =>
          rw [semi_cons] at h
          split at h <;> simp [semi] at h
      | cons c a ih =>
        intro b h
        cases b with
        | nil =>
          rw [semi_cons] at h
          split at h <;> simp [semi] at h
        | cons d b =>
          rw [semi_cons, semi_cons] at h
          split at h <;> split at h
          · rename_i e₁ e₂
            rw [e₁, e₂, ih b (by simpa using h)]
          · rename_i e₁ e₂
            simp only [List.cons_append, List.nil_append, List.cons.injEq] at h
            exfalso
            obtain ⟨rfl, h⟩ := h
            cases b with
            | nil => simp [semi] at h
            | cons e b =>
              rw [semi_cons] at h
              split at h
              · simp at h
              · rename_i e₃
                simp only [List.cons_append, List.nil_append, List.cons.injEq] at h
                exact e₃ h.1.symm
          · rename_i e₁ e₂
            simp only [List.cons_append, List.nil_append, List.cons.injEq] at h
            exfalso
            obtain ⟨rfl, h⟩ := h
            cases a with
            | nil => simp [semi] at h
            | cons e a =>
              rw [semi_cons] at h
              split at h
              · simp at h
              · rename_i e₃
                simp only [List.cons_append, List.nil_append, List.cons.injEq] at h
                exact e₃ h.1
          · simp only [List.cons_append, List.nil_append, List.cons.injEq] at h
            rw [h.1, ih b h.2]
    exact (hinj _ _ h₁).symm
  obtain ⟨x, hx, hlx⟩ := place_of hf.src hp habs hdir hne hsemi hsrc
  obtain ⟨y, hy, hly⟩ := place_of hf.dst hp habs hdir hne hsemi hdst
  rw [huniq hf.inp hx, huniq hf.out hy]
  exact ⟨hlx, hly⟩

/-- A file and a directory, one to a variable of a full path. -/
example : CopyFits (fun n => if n = c!"CMAKE_CURRENT_" ++ c!"LIST_DIR" then c!"/b" else
      if n = c!"builddir" then c!"/b/out" else []) c!"../.." (c!"a/x.txt", c!"${builddir}/x.txt")
    { src := c!"a/x.txt", dst := c!"/b/out/x.txt", inp := c!"/b/../../a/x.txt", out := c!"/b/out/x.txt" } where
  src := plainWordC_bareWord (by decide)
  dst := ⟨by decide, .ref (n := c!"builddir") (v := c!"/x.txt") (w := c!"/x.txt") (by decide) (by decide)
    (by decide) (standsFor_self (by decide)), by decide⟩
  inp := .ref (n := c!"CMAKE_CURRENT_" ++ c!"LIST_DIR") (v := c!"/../../a/x.txt") (w := c!"/../../a/x.txt")
    (by decide) (by decide) (by decide) (standsFor_self (by decide))
  out := .ref (n := c!"builddir") (v := c!"/x.txt") (w := c!"/x.txt") (by decide) (by decide)
    (by decide) (standsFor_self (by decide))
  elems := by decide
  noOption := by decide

/-- **C115.**  Sources and destinations are written bare: a name with a blank falls apart into two words,
and the command copies other files to another place. -/
theorem C115_blank :
    (cmakeReads (fun n => if n = c!"CMAKE_COMMAND" then c!"cmake" else []) (cmCopies c!"t" c!"." [⟨[c!"a b"], c!"out"⟩])).map
      (fun r => r.2.map fun t => (byOption t.args).2.filter fun o => o.1 = c!"COMMAND") =
      some [[(c!"COMMAND", [c!"cmake", c!"-E", c!"copy", c!"a", c!"b", c!"out/a", c!"b"])], []] := by
  decide +kernel

end Gyp
