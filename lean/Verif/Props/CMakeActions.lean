import Verif.Props.CMake
/-
C107: the actions of a target in a CMake file.
-/
namespace Gyp
open Gyp.Spec

/-- An action whose texts CMake can read, with what they stand for: the name becomes the
name of a target, the inputs and outputs are elements of lists, the directories and the
message can stand bare, and nothing is spelled like an option of the commands. -/
structure ActionFits (env : CEnv) (target path : Str) (dirs : List Str) (a : CAction)
    (r : ActionRead) : Prop where
  name : ∀ c ∈ a.name, isVarChar c ∨ c ∈ c!" /():.\""
  ins : List.Forall₂ (Amounts env) (a.inputs.map (normjoinSource path)) r.ins
  outs : List.Forall₂ (Amounts env) (a.outputs.map (normjoinSource path)) r.outs
  elems : ∀ w ∈ r.ins ++ r.outs, Element w ∧ w ≠ c!"PARENT_SCOPE" ∧ w ≠ c!"CACHE"
  isDirs : IsOutputDirs a.outputs dirs
  dirs : List.Forall₂ (BareWord env) dirs r.dirs
  args : List.Forall₂ (Amounts env) a.action r.args
  noReturn : ∀ v ∈ a.action, '\r' ∉ v
  comment : match a.message with
    | none => r.comment = [actionTarget target a]
    | some m => r.comment ≠ [] ∧ (∀ w ∈ r.comment, PlainWordC w) ∧ m = joinWith [' '] r.comment
  noOption : ∀ w ∈ r.ins ++ r.outs ++ r.dirs ++ r.args ++ r.comment, w ∉ commandOptions

theorem cmakeTargetName_nameC {target : Str} {a : CAction} (ht : NameC target)
    (ha : ∀ c ∈ a.name, isVarChar c ∨ c ∈ c!" /():.\"") : NameC (actionTarget target a) := by
  refine ⟨by simp [actionTarget], ?_⟩
  rw [List.all_eq_true]
  intro c hc
  simp only [actionTarget, List.mem_append] at hc
  rcases hc with (hc | hc) | hc
  · exact List.all_eq_true.1 ht.2 c hc
  · exact (by decide : ∀ d ∈ c!"__", isVarChar d = true) c hc
  · simp only [cmakeTargetName, List.mem_map] at hc
    obtain ⟨d, hd, rfl⟩ := hc
    split
    · decide
    · rename_i hn
      exact (ha d hd).resolve_right hn

theorem nameC_append {a b : Str} (ha : NameC a) (hb : b.all isVarChar = true) : NameC (a ++ b) := by
  refine ⟨by simp [ha.1], ?_⟩
  rw [List.all_append, ha.2, hb]
  rfl

theorem actionInputs_nameC {target : Str} {a : CAction} (ht : NameC target)
    (ha : ∀ c ∈ a.name, isVarChar c ∨ c ∈ c!" /():.\"") : NameC (cmInputs target a) :=
  nameC_append (cmakeTargetName_nameC ht ha) (by decide)

theorem actionOutputs_nameC {target : Str} {a : CAction} (ht : NameC target)
    (ha : ∀ c ∈ a.name, isVarChar c ∨ c ∈ c!" /():.\"") : NameC (cmOutputs target a) :=
  nameC_append (cmakeTargetName_nameC ht ha) (by decide)

theorem keptName_inputs (target : Str) (a : CAction) : KeptName (cmInputs target a) := by
  left
  unfold endsWith
  rw [List.isSuffixOf_iff_suffix]
  exact ⟨actionTarget target a, rfl⟩

theorem keptName_outputs (target : Str) (a : CAction) : KeptName (cmOutputs target a) := by
  right; left
  unfold endsWith
  rw [List.isSuffixOf_iff_suffix]
  exact ⟨actionTarget target a, rfl⟩

theorem inputs_ne_outputs (t : Str) (a b : CAction) : cmInputs t a ≠ cmOutputs t b := by
  intro h
  have h₁ := congrArg List.reverse h
  simp [cmInputs, cmOutputs] at h₁

/-- Two sets of variables that differ at most in those kept for actions. -/
def AgreeC (env env' : CEnv) : Prop := ∀ n, ¬ KeptName n → env' n = env n

theorem AgreeC.refl (env : CEnv) : AgreeC env env := fun _ _ => rfl

theorem AgreeC.trans {a b c : CEnv} (h₁ : AgreeC a b) (h₂ : AgreeC b c) : AgreeC a c :=
  fun n hn => (h₂ n hn).trans (h₁ n hn)

theorem AgreeC.assign {env env' : CEnv} (h : AgreeC env env') {n v : Str} (hn : KeptName n) :
    AgreeC env (assign env' n v) := by
  intro m hm
  have : m ≠ n := fun e => hm (e ▸ hn)
  simp [Gyp.Spec.assign, this, h m hm]

theorem Amounts.agree {env env' : CEnv} (h : AgreeC env env') {v w : Str}
    (hv : Amounts env v w) : Amounts env' v w := by
  induction hv with
  | nil => exact .nil
  | char hc _ ih => exact .char hc ih
  | ref hn hk hs _ ih =>
    rw [← h _ hk] at hs ⊢
    exact .ref hn hk hs ih

theorem BareWord.agree {env env' : CEnv} (h : AgreeC env env') {v w : Str}
    (hv : BareWord env v w) : BareWord env' v w := ⟨hv.1, Amounts.agree h hv.2.1, hv.2.2⟩

theorem ActionFits.agree {env env' : CEnv} (h : AgreeC env env') {target path : Str}
    {dirs : List Str} {a : CAction} {r : ActionRead} (hf : ActionFits env target path dirs a r) :
    ActionFits env' target path dirs a r :=
  { hf with
    ins := hf.ins.imp fun _ _ => Amounts.agree h
    outs := hf.outs.imp fun _ _ => Amounts.agree h
    dirs := hf.dirs.imp fun _ _ => BareWord.agree h
    args := hf.args.imp fun _ _ => Amounts.agree h }

theorem byOption_section {k : Str} {vs rest : List Str} {R : List (Str × List Str)}
    (hk : k ∈ commandOptions) (hv : ∀ v ∈ vs, v ∉ commandOptions)
    (hr : byOption rest = ([], R)) : byOption (k :: (vs ++ rest)) = ([], (k, vs) :: R) := by
  have h : byOption (vs ++ rest) = (vs, R) := by
    induction vs with
    | nil => exact hr
    | cons v vs ih =>
      rw [List.cons_append, byOption, ih fun x hx => hv x (by simp [hx])]
      simp [hv v (by simp)]
  rw [byOption, h]
  simp [hk]

theorem byOption_first {v : Str} {rest : List Str} {R : List (Str × List Str)}
    (hv : v ∉ commandOptions) (hr : byOption rest = ([], R)) :
    byOption (v :: rest) = ([v], R) := by
  rw [byOption, hr]
  simp [hv]

theorem gives_words {env : CEnv} {ws : List Str} (h : ∀ w ∈ ws, PlainWordC w) (hne : ws ≠ [])
    {b : Char} (hb : isBlankC b) : Gives env (joinWith [' '] ws ++ [b]) ws := by
  induction ws with
  | nil => simp at hne
  | cons w ws ih =>
    have hw := plainWordC_bareWord (env := env) (h w (by simp))
    cases ws with
    | nil => simpa [joinWith] using Gives.word hw hb
    | cons w' ws =>
      have h₁ := Gives.word hw (b := ' ') (by decide)
      have := h₁.append (ih (fun x hx => h x (by simp [hx])) (by simp))
      simpa [joinWith] using this

theorem gives_makeDirs {env : CEnv} {dirs ds : List Str} {cm : Str}
    (hcm : listOf env c!"CMAKE_COMMAND" = [cm]) (h : List.Forall₂ (BareWord env) dirs ds) :
    Gives env (makeDirs dirs)
      (ds.flatMap fun d => [c!"COMMAND", cm, c!"-E", c!"make_directory", d]) := by
  unfold makeDirs
  induction h with
  | nil => exact Gives.nil
  | @cons d w ds ws hd _ ih =>
    rw [List.flatMap_cons, List.flatMap_cons]
    have h₀ : Gives env c!"  " [] := Gives.blanks (by decide)
    have h₁ : Gives env (c!"COMMAND" ++ [' ']) [c!"COMMAND"] := Gives.name (by decide) (by decide)
    have h₂ : Gives env (writeVariable c!"CMAKE_COMMAND" ++ [' ']) [cm] := by
      have := Gives.ref (env := env) (n := c!"CMAKE_COMMAND") (by decide) (b := ' ') (by decide)
      rwa [hcm] at this
    have h₃ : Gives env (c!"-E" ++ [' ']) [c!"-E"] := Gives.name (by decide) (by decide)
    have h₄ : Gives env (c!"make_directory" ++ [' ']) [c!"make_directory"] :=
      Gives.name (by decide) (by decide)
    have h₅ : Gives env (d ++ ['\n']) [w] := Gives.word hd (by decide)
    have := ((((((h₀.append h₁).append h₂).append h₃).append h₄).append h₅).append ih)
    simpa [writeVariable] using this

theorem byOption_makeDirs {ds rest : List Str} {cm : Str} {R : List (Str × List Str)}
    (hcm : cm ∉ commandOptions) (hd : ∀ d ∈ ds, d ∉ commandOptions)
    (hr : byOption rest = ([], R)) :
    byOption ((ds.flatMap fun d => [c!"COMMAND", cm, c!"-E", c!"make_directory", d]) ++ rest) =
      ([], ds.map (fun d => (c!"COMMAND", [cm, c!"-E", c!"make_directory", d])) ++ R) := by
  induction ds with
  | nil => simpa using hr
  | cons d ds ih =>
    have h₁ := ih fun x hx => hd x (by simp [hx])
    have h₂ := byOption_section (k := c!"COMMAND") (vs := [cm, c!"-E", c!"make_directory", d])
      (by decide) (by
        intro v hv
        simp only [List.mem_cons, List.not_mem_nil, or_false] at hv
        rcases hv with rfl | rfl | rfl | rfl
        · exact hcm
        · decide
        · decide
        · exact hd _ (by simp)) h₁
    simpa using h₂

theorem actionTarget_noOption (target : Str) (a : CAction) :
    actionTarget target a ∉ commandOptions := by
  intro h
  have : c!"__" <:+: actionTarget target a := ⟨target, cmakeTargetName a.name, rfl⟩
  exact absurd this ((by decide : ∀ o ∈ commandOptions, ¬ c!"__" <:+: o) _ h)

theorem actionCommand_text (target path : Str) (dirs : List Str) (a : CAction) :
    cmCommand target path dirs a = c!"add_custom_command" ++ '(' ::
      ((((((c!"OUTPUT" ++ [' ']) ++ (writeVariable (cmOutputs target a) ++ ['\n'])) ++ makeDirs dirs) ++
        (c!"  " ++ ((c!"COMMAND" ++ [' ']) ++ (EncodePOSIXShellList a.action ++ ['\n'])))) ++
        (c!"  " ++ ((c!"DEPENDS" ++ [' ']) ++ (writeVariable (cmInputs target a) ++ ['\n'])))) ++
        ((c!"  " ++ ((c!"WORKING_DIRECTORY" ++ [' ']) ++ ((listDirVar ++ c!"/" ++ path) ++ ['\n']))) ++
        ((c!"  " ++ ((c!"COMMENT" ++ [' ']) ++ (actionComment target a ++ ['\n']))) ++
        (c!"  " ++ (c!"VERBATIM" ++ ['\n']))))) ++ c!")\n" := by
  unfold cmCommand
  generalize writeVariable (cmOutputs target a) = A
  generalize writeVariable (cmInputs target a) = B
  generalize EncodePOSIXShellList a.action = C
  generalize actionComment target a = D
  generalize listDirVar = E
  generalize makeDirs dirs = F
  simp

theorem actionCustomTarget_text (target : Str) (a : CAction) :
    actionCustomTarget target a = c!"add_custom_target" ++ '(' ::
      (((actionTarget target a ++ ['\n']) ++ (c!"  " ++ ((c!"DEPENDS" ++ [' ']) ++
        (writeVariable (cmOutputs target a) ++ ['\n'])))) ++
        (c!"  " ++ ((c!"SOURCES" ++ [' ']) ++ (writeVariable (cmInputs target a) ++ ['\n'])))) ++
      c!")\n" := by
  unfold actionCustomTarget
  generalize writeVariable (cmOutputs target a) = A
  generalize writeVariable (cmInputs target a) = B
  generalize actionTarget target a = C
  simp

/-- One action is read back. -/
theorem reads_action {env : CEnv} {target path cm dir : Str} {dirs : List Str} {a : CAction}
    {r : ActionRead} (ht : NameC target) (hp : path.all isPlainChar = true)
    (hcm : listOf env c!"CMAKE_COMMAND" = [cm]) (hcm' : cm ∉ commandOptions)
    (hdir : env (c!"CMAKE_CURRENT_" ++ c!"LIST_DIR") = dir) (hsemi : ';' ∉ dir)
    (hf : ActionFits env target path dirs a r)
    (hi : env (cmInputs target a) = []) (ho : env (cmOutputs target a) = []) :
    ∃ env' told, ReadsC env (cmAction target path dirs a) env' told ∧ AgreeC env env' ∧
      (∀ n, n ≠ cmInputs target a → n ≠ cmOutputs target a → env' n = env n) ∧
      RecordsAction cm (dir ++ c!"/" ++ path) (actionTarget target a) r told := by
  have hti := actionInputs_nameC ht hf.name
  have hto := actionOutputs_nameC ht hf.name
  have hne := inputs_ne_outputs target a a
  -- the two lists
  have r₁ := reads_setVariableList hti hf.ins (fun _ => hi)
    (fun h => (hf.elems _ (by simp [h])).2.1 rfl) (fun h => (hf.elems _ (by simp [h])).2.2 rfl)
  generalize he₁ : assign env (cmInputs target a) (joinWith [';'] (r.ins.map semi)) = env₁ at r₁
  have a₁ : AgreeC env env₁ := he₁ ▸ (AgreeC.refl env).assign (keptName_inputs target a)
  have r₂ := reads_setVariableList (env := env₁) hto (hf.agree a₁).outs
    (fun _ => by rw [← he₁]; simp [assign, hne.symm, ho])
    (fun h => (hf.elems _ (by simp [h])).2.1 rfl) (fun h => (hf.elems _ (by simp [h])).2.2 rfl)
  generalize he₂ : assign env₁ (cmOutputs target a) (joinWith [';'] (r.outs.map semi)) = env₂
    at r₂
  have a₂ : AgreeC env env₂ := he₂ ▸ a₁.assign (keptName_outputs target a)
  have li : listOf env₂ (cmInputs target a) = r.ins := by
    rw [← he₂, ← he₁]
    simp only [listOf, assign, hne, if_false, if_true]
    exact elements_join fun w hw => (hf.elems w (by simp [hw])).1
  have lo : listOf env₂ (cmOutputs target a) = r.outs := by
    rw [← he₂]
    simp only [listOf, assign, if_true]
    exact elements_join fun w hw => (hf.elems w (by simp [hw])).1
  have hf₂ := hf.agree a₂
  have hcm₂ : listOf env₂ c!"CMAKE_COMMAND" = [cm] := by
    unfold listOf
    rw [a₂ _ (by decide)]
    exact hcm
  have hdir₂ : env₂ (c!"CMAKE_CURRENT_" ++ c!"LIST_DIR") = dir := by
    rw [a₂ _ (by decide)]
    exact hdir
  have no : ∀ w, w ∈ r.ins ∨ w ∈ r.outs ∨ w ∈ r.dirs ∨ w ∈ r.args ∨ w ∈ r.comment →
      w ∉ commandOptions := by
    intro w hw
    apply hf.noOption w
    simp only [List.mem_append]
    tauto
  -- the custom command
  have kw : ∀ (k : Str) (b : Char), k ∈ commandOptions → isBlankC b = true →
      Gives env₂ (k ++ [b]) [k] := by
    intro k b hk hb
    refine Gives.name ?_ hb
    exact (by decide : ∀ k ∈ commandOptions, NameC k) k hk
  have sp : Gives env₂ c!"  " [] := Gives.blanks (by decide)
  have gOut : Gives env₂ (writeVariable (cmOutputs target a) ++ ['\n']) r.outs := by
    have := Gives.ref (env := env₂) hto (b := '\n') (by decide)
    rwa [lo] at this
  have gIn : Gives env₂ (writeVariable (cmInputs target a) ++ ['\n']) r.ins := by
    have := Gives.ref (env := env₂) hti (b := '\n') (by decide)
    rwa [li] at this
  have gDirs := gives_makeDirs hcm₂ hf₂.dirs
  have gArgs := gives_shellList hf₂.args hf₂.noReturn (b := '\n') (by decide)
  have gWd : Gives env₂ ((listDirVar ++ c!"/" ++ path) ++ ['\n']) [dir ++ c!"/" ++ path] := by
    refine Gives.word ⟨?_, ?_, by simp⟩ (by decide)
    · intro c hc
      simp only [List.mem_append] at hc
      rcases hc with (hc | hc) | hc
      · exact (by decide : ∀ d ∈ listDirVar, isPlainChar d = true ∨ d ∈ c!"${}") c hc
      · exact (by decide : ∀ d ∈ c!"/", isPlainChar d = true ∨ d ∈ c!"${}") c hc
      · exact .inl (List.all_eq_true.1 hp c hc)
    · have h1 : '$' ∉ c!"/" ++ path := by
        intro hm
        rcases List.mem_append.1 hm with hm | hm
        · revert hm; decide
        · exact (isPlainChar_bare (List.all_eq_true.1 hp _ hm)).2 (by decide)
      have := Amounts.ref (env := env₂) (n := c!"CMAKE_CURRENT_" ++ c!"LIST_DIR") (by decide)
        (by decide) (by rw [hdir₂]; exact hsemi) (standsFor_self h1)
      rw [hdir₂] at this
      simpa [listDirVar] using this
  have gCom : Gives env₂ (actionComment target a ++ ['\n']) r.comment := by
    have := hf.comment
    unfold actionComment
    cases hm : a.message with
    | none =>
      rw [hm] at this
      rw [this]
      exact Gives.name (cmakeTargetName_nameC ht hf.name) (by decide)
    | some m =>
      rw [hm] at this
      obtain ⟨h1, h2, h3⟩ := this
      subst h3
      exact gives_words h2 h1 (by decide)
  have gAll := (((((kw c!"OUTPUT" ' ' (by decide) (by decide)).append gOut).append gDirs).append
    (sp.append ((kw c!"COMMAND" ' ' (by decide) (by decide)).append gArgs))).append
    (sp.append ((kw c!"DEPENDS" ' ' (by decide) (by decide)).append gIn))).append
    ((sp.append ((kw c!"WORKING_DIRECTORY" ' ' (by decide) (by decide)).append gWd)).append
    ((sp.append ((kw c!"COMMENT" ' ' (by decide) (by decide)).append gCom)).append
    (sp.append (kw c!"VERBATIM" '\n' (by decide) (by decide)))))
  have r₃ := gAll.end_.told (n := c!"add_custom_command") (by decide) (by decide) (by decide)
    (by decide) (by decide)
  -- the custom target
  have gT : Gives env₂ (actionTarget target a ++ ['\n']) [actionTarget target a] :=
    Gives.name (cmakeTargetName_nameC ht hf.name) (by decide)
  have gAll' := ((gT.append (sp.append ((kw c!"DEPENDS" ' ' (by decide) (by decide)).append
    gOut))).append (sp.append ((kw c!"SOURCES" ' ' (by decide) (by decide)).append gIn)))
  have r₄ := gAll'.end_.told (n := c!"add_custom_target") (by decide) (by decide) (by decide)
    (by decide) (by decide)
  rw [← actionCommand_text] at r₃
  rw [← actionCustomTarget_text] at r₄
  have rAll : ReadsC env (cmAction target path dirs a) env₂ _ :=
    ((r₁.append r₂).append r₃).append r₄
  refine ⟨env₂, _, rAll, a₂, ?_, ?_⟩
  · intro n h₁ h₂
    rw [← he₂, ← he₁]
    simp [assign, h₁, h₂]
  · refine ⟨_, _, rfl, ?_, ?_⟩
    · have b₁ := byOption_section (k := c!"VERBATIM") (vs := []) (rest := []) (R := []) (by decide)
        (by simp) rfl
      have b₂ := byOption_section (k := c!"COMMENT") (vs := r.comment) (by decide)
        (fun v hv => no v (by tauto)) b₁
      have hwd : dir ++ c!"/" ++ path ∉ commandOptions := by
        intro h
        exact absurd (show '/' ∈ dir ++ c!"/" ++ path by simp)
          ((by decide : ∀ o ∈ commandOptions, '/' ∉ o) _ h)
      have b₃ := byOption_section (k := c!"WORKING_DIRECTORY") (vs := [dir ++ c!"/" ++ path])
        (by decide) (fun v hv => List.mem_singleton.1 hv ▸ hwd) b₂
      have b₄ := byOption_section (k := c!"DEPENDS") (vs := r.ins) (by decide)
        (fun v hv => no v (by tauto)) b₃
      have b₅ := byOption_section (k := c!"COMMAND") (vs := r.args) (by decide)
        (fun v hv => no v (by tauto)) b₄
      have b₆ := byOption_makeDirs (ds := r.dirs) hcm' (fun d hd => no d (by tauto)) b₅
      have b₇ := byOption_section (k := c!"OUTPUT") (vs := r.outs) (by decide)
        (fun v hv => no v (by tauto)) b₆
      simpa using b₇
    · have b₁ := byOption_section (k := c!"SOURCES") (vs := r.ins) (rest := []) (R := [])
        (by decide) (fun v hv => no v (by tauto)) rfl
      have b₂ := byOption_section (k := c!"DEPENDS") (vs := r.outs) (by decide)
        (fun v hv => no v (by tauto)) b₁
      have b₃ := byOption_first (actionTarget_noOption target a) b₂
      simpa using b₃

/-- The actions of a target are read back: each is told to CMake once, in order, with its
outputs, its inputs, the words of its command exactly, and the directory it runs in. -/
theorem C107_actions {env : CEnv} {target path cm dir : Str}
    {actions : List (List Str × CAction)} {rs : List ActionRead} (ht : NameC target)
    (hp : path.all isPlainChar = true)
    (hcm : listOf env c!"CMAKE_COMMAND" = [cm]) (hcm' : cm ∉ commandOptions)
    (hdir : env (c!"CMAKE_CURRENT_" ++ c!"LIST_DIR") = dir) (hsemi : ';' ∉ dir)
    (hf : List.Forall₂ (fun p r => ActionFits env target path p.1 p.2 r) actions rs)
    (hdistinct : (actions.map fun p => actionTarget target p.2).Nodup)
    (hfresh : ∀ n, KeptName n → env n = []) :
    ∃ env' tolds, cmakeReads env (cmActions target path actions) =
        some (env', List.flatten tolds) ∧
      List.Forall₂ (fun (pr : (List Str × CAction) × ActionRead) told =>
        RecordsAction cm (dir ++ c!"/" ++ path) (actionTarget target pr.1.2) pr.2 told)
        (actions.zip rs) tolds := by
  suffices H : ∀ env₀ : CEnv, AgreeC env env₀ →
      (∀ p ∈ actions, env₀ (cmInputs target p.2) = [] ∧ env₀ (cmOutputs target p.2) = []) →
      ∃ env' tolds, ReadsC env₀ (cmActions target path actions) env' (List.flatten tolds) ∧
      List.Forall₂ (fun (pr : (List Str × CAction) × ActionRead) told =>
        RecordsAction cm (dir ++ c!"/" ++ path) (actionTarget target pr.1.2) pr.2 told)
        (actions.zip rs) tolds by
    obtain ⟨env', tolds, h₁, h₂⟩ := H env (AgreeC.refl env) fun p _ =>
      ⟨hfresh _ (keptName_inputs target p.2), hfresh _ (keptName_outputs target p.2)⟩
    exact ⟨env', tolds, h₁.cmakeReads, h₂⟩
  clear hfresh
  induction hf with
  | nil => intro env₀ _ _; exact ⟨env₀, [], ReadsC.nil, .nil⟩
  | @cons p r actions rs hpr _ ih =>
    intro env₀ hag h₀
    simp only [List.map_cons, List.nodup_cons] at hdistinct
    obtain ⟨env₁, told, h₁, h₂, h₃, h₄⟩ := reads_action (dirs := p.1) (a := p.2) (r := r) ht hp
      (by unfold listOf; rw [hag _ (by decide)]; exact hcm) hcm'
      (by rw [hag _ (by decide)]; exact hdir) hsemi (hpr.agree hag)
      (h₀ p (by simp)).1 (h₀ p (by simp)).2
    obtain ⟨env₂, tolds, h₅, h₆⟩ := ih hdistinct.2 env₁ (hag.trans h₂) (by
      intro q hq
      have hne : actionTarget target q.2 ≠ actionTarget target p.2 := by
        intro e
        exact hdistinct.1 (List.mem_map.2 ⟨q, hq, e⟩)
      constructor
      · have hn : cmInputs target q.2 ≠ cmInputs target p.2 :=
          fun e => hne (List.append_cancel_right e)
        rw [h₃ _ hn (inputs_ne_outputs _ _ _)]
        exact (h₀ q (by simp [hq])).1
      · have hn : cmOutputs target q.2 ≠ cmOutputs target p.2 :=
          fun e => hne (List.append_cancel_right e)
        rw [h₃ _ (Ne.symm (inputs_ne_outputs _ _ _)) hn]
        exact (h₀ q (by simp [hq])).2)
    refine ⟨env₂, told :: tolds, ?_, .cons h₄ h₆⟩
    have := h₁.append h₅
    simpa [cmActions] using this

/-- The directories that are made first are those of the outputs, each once. -/
theorem C107_directories {env : CEnv} {target path : Str} {dirs : List Str} {a : CAction}
    {r : ActionRead} (hf : ActionFits env target path dirs a r) {o : Str} (ho : o ∈ a.outputs)
    (hd : dirname o ≠ []) : ∃ w ∈ r.dirs, Amounts env (dirname o) w := by
  have hm : dirname o ∈ dirs := (hf.isDirs.2 _).2 ⟨hd, o, ho, rfl⟩
  obtain ⟨w, hw, hb⟩ := forall₂_mem_left hf.dirs hm
  exact ⟨w, hw, hb.2.1⟩

/-- A case with everything in it: two inputs, a directory, a quoted word, a message. -/
example : ActionFits (fun n => if n = c!"CMAKE_CURRENT_" ++ c!"LIST_DIR" then c!"/b" else [])
    c!"t" c!"../.." [c!"gen"]
    { name := c!"make it", inputs := [c!"a.py", c!"b;c"], outputs := [c!"gen/x.c"],
      action := [c!"python", c!"a.py", c!"-D", c!"X=\"1 2\""], message := some c!"Making x" }
    { ins := [c!"/b/../../a.py", c!"/b/../../b;c"], outs := [c!"/b/../../gen/x.c"],
      dirs := [c!"gen"], args := [c!"python", c!"a.py", c!"-D", c!"X=\"1 2\""],
      comment := [c!"Making", c!"x"] } := by
  have hr : ∀ (rel full : Str), (∀ e : CEnv, e (c!"CMAKE_CURRENT_" ++ c!"LIST_DIR") = c!"/b" →
      '$' ∉ full ∧ normjoinSource c!"../.." rel = listDirVar ++ full) → Amounts
      (fun n => if n = c!"CMAKE_CURRENT_" ++ c!"LIST_DIR" then c!"/b" else [])
      (normjoinSource c!"../.." rel) (c!"/b" ++ full) := by
    intro rel full h
    obtain ⟨h₁, h₂⟩ := h (fun _ => c!"/b") rfl
    rw [h₂]
    exact Amounts.ref (env := fun n => if n = c!"CMAKE_CURRENT_" ++ c!"LIST_DIR" then c!"/b" else [])
      (n := c!"CMAKE_CURRENT_" ++ c!"LIST_DIR") (by decide) (by decide) (by decide)
      (standsFor_self h₁)
  exact
    { name := by decide
      ins := .cons (hr c!"a.py" c!"/../../a.py" fun _ _ => by decide)
        (.cons (hr c!"b;c" c!"/../../b;c" fun _ _ => by decide) .nil)
      outs := .cons (hr c!"gen/x.c" c!"/../../gen/x.c" fun _ _ => by decide) .nil
      elems := by decide
      isDirs := by
        refine ⟨by decide, fun d => ?_⟩
        simp only [List.mem_singleton, exists_eq_left]
        have : dirname c!"gen/x.c" = c!"gen" := by decide
        rw [this]
        constructor
        · rintro rfl; decide
        · rintro ⟨_, h⟩; exact h.symm
      dirs := .cons (plainWordC_bareWord (by decide)) .nil
      args := .cons (standsFor_self (by decide)) (.cons (standsFor_self (by decide))
        (.cons (standsFor_self (by decide)) (.cons (standsFor_self (by decide)) .nil)))
      noReturn := by decide
      comment := by refine ⟨by decide, by decide, by decide⟩
      noOption := by decide }

/-- A word of a command that is spelled like an option of `add_custom_command` ends the
command: CMake takes it for the option. -/
theorem C107_option_word :
    (byOption [c!"OUTPUT", c!"o", c!"COMMAND", c!"echo", c!"DEPENDS", c!"VERBATIM"]).2 =
      [(c!"OUTPUT", [c!"o"]), (c!"COMMAND", [c!"echo"]), (c!"DEPENDS", []), (c!"VERBATIM", [])] ∧
    EncodePOSIXShellList [c!"echo", c!"DEPENDS"] = c!"echo DEPENDS" := by
  constructor <;> decide

/-- The name of a target is free of the characters that CMake or make cannot have in
one. -/
theorem C107_target_name (a : Str) (c : Char) (hc : c ∈ c!" /():.\"") : c ∉ cmakeTargetName a := by
  intro hm
  simp only [cmakeTargetName, List.mem_map] at hm
  obtain ⟨d, _, hd⟩ := hm
  split at hd
  · subst hd; revert hc; decide
  · rename_i hn
    subst hd
    exact hn hc

end Gyp
