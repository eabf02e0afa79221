import Verif.Proofs.MsvsActions
import Verif.Proofs.XcodeEnv
import Verif.Proofs.MakePaths
/-
C82: the actions and copies of a target in a Visual Studio project.
-/
namespace Gyp
open Spec

/-- Every action and every copy of a target is a step of exactly one `CustomBuild` item: the
items are those of the first inputs, each once, and the item of a first input has the steps
with that first input, in order.  An action of cygwin sets up its environment when no earlier
action is attached to the same file. -/
theorem C82_items {w : WinPaths} {hosts : Bool} {cygwinDir gypFile : Str} {rules : List WinStep}
    {actions : List WinActionSpec} {copies : List WinCopySpec} {items : List CustomBuild}
    {handled : List Str}
    (h : targetItems w hosts cygwinDir gypFile rules actions copies = some (items, handled)) :
    ∃ (actionSteps : List WinStep) (keys : List Str),
      let steps := rules ++ actionSteps ++ copies.flatMap (fun c => c.files.map (copyStep w c.destination))
      actionSteps.length = actions.length ∧
      (∀ i a, actions[i]? = some a → ∃ (s : WinStep) (first : Bool), actionSteps[i]? = some s ∧
        (first = true ↔ ∀ b ∈ actions.take i,
          (inputsOf gypFile b).head? ≠ (inputsOf gypFile a).head?) ∧
        StepFor w cygwinDir gypFile first a s) ∧
      keys.Nodup ∧ (∀ k, k ∈ keys ↔ ∃ s ∈ steps, s.inputs.head? = some k) ∧
      List.Forall₂ (ItemFor w hosts steps) keys items ∧
      (∀ f, f ∈ handled ↔ ∃ item ∈ items, item.file = f) := by
  unfold targetItems at h
  simp only [Option.bind_eq_bind] at h
  obtain ⟨d0, h0, h⟩ := Option.bind_eq_some_iff.mp h
  obtain ⟨d1, h1, h⟩ := Option.bind_eq_some_iff.mp h
  obtain ⟨d2, h2, h⟩ := Option.bind_eq_some_iff.mp h
  have h := Prod.mk.inj (Option.some.inj h)
  obtain ⟨steps, hl, hf, hs⟩ := addActions_steps h1
  have a0 := hasSteps_fold hasSteps_nil h0
  have a1 := hasSteps_fold a0 hf
  have a2 := hasSteps_fold a1 h2
  rw [List.nil_append] at a2
  refine ⟨steps, akeys d2, hl, ?_, a2.keys, hasSteps_keys a2, ?_, ?_⟩
  · intro i a ha
    obtain ⟨s, first, e1, e2, e3⟩ := hs i a ha
    refine ⟨s, first, e1, e2.trans ?_, e3⟩
    have hh : ∀ a b : WinActionSpec, (inputsOf gypFile b).headD [] = (inputsOf gypFile a).headD [] ↔
        (inputsOf gypFile b).head? = (inputsOf gypFile a).head? := by
      intro a b
      have hne : ∀ a, ∃ x xs, inputsOf gypFile a = x :: xs := by
        intro a
        unfold inputsOf
        cases hi : a.inputs with
        | nil => exact ⟨gypFile, [], by simp⟩
        | cons x xs => exact ⟨x, xs, by simp⟩
      obtain ⟨x, xs, e1⟩ := hne a
      obtain ⟨y, ys, e2⟩ := hne b
      rw [e1, e2]
      simp
    simp only [List.not_mem_nil, not_false_eq_true, true_and]
    constructor
    · intro h b hb e; exact h b hb ((hh a b).mpr e)
    · intro h b hb e; exact h b hb ((hh a b).mp e)
  · rw [← h.1]
    unfold akeys
    rw [List.forall₂_map_left_iff, List.forall₂_map_right_iff]
    refine List.forall₂_same.mpr ?_
    intro e he
    obtain ⟨h1, h2⟩ := hasSteps_mem a2 he
    exact item_for h1 h2
  · intro f
    rw [← h.2, mem_winUpdate, ← h.1]
    simp

theorem call_ne_stop {x line : Str} (h : MacrosConverted (c!"call " ++ x) line) : line ≠ stopLine := by
  have : MacrosConverted (c!"call " ++ x) (c!"call " ++ ConvertVCMacrosToMSBuild x) :=
    macros_plain (by decide) (macros_plain (by decide) (macros_plain (by decide)
      (macros_plain (by decide) (macros_plain (by decide) (macrosConverted x)))))
  rw [macrosConverted_unique h this]
  intro e
  exact absurd (congrArg List.head? e) (by simp [stopLine])

/-- When the item of a file is built, the commands attached to the file are run in order, up to
the first that fails, and its exit code is the exit code of the item: provided none of the
commands sets the variable `ERRORLEVEL`. -/
theorem C82_runs {w : WinPaths} {hosts : Bool} {steps : List WinStep} {key : Str} {item : CustomBuild}
    (h : ItemFor w hosts steps key item)
    (hn : ∀ s ∈ attachedSteps steps key, '\n' ∉ hostText hosts s.command)
    (hv : ∀ s ∈ attachedSteps steps key, ∀ line,
      MacrosConverted (c!"call " ++ hostText hosts s.command) line → ¬ setsErrorlevel line)
    {W : Type} (exec : Str → W → W × Nat) (world : W) :
    ∃ lines ran code,
      List.Forall₂ (fun s line => MacrosConverted (c!"call " ++ hostText hosts s.command) line)
        (attachedSteps steps key) lines ∧
      runBatch exec ⟨world, 0, none⟩ (batchLines item.command) = (ran, code) ∧
      UntilFailure exec world lines ran code := by
  obtain ⟨lines, h1, h2⟩ := h.commands hn
  have hl : ∀ line ∈ lines, ∃ s ∈ attachedSteps steps key,
      MacrosConverted (c!"call " ++ hostText hosts s.command) line := by
    clear h2 hn hv
    generalize attachedSteps steps key = mine at h1 ⊢
    induction h1 with
    | nil => simp
    | cons hc _ ih =>
      intro line hm
      rcases List.mem_cons.mp hm with rfl | hm
      · exact ⟨_, by simp, hc⟩
      · obtain ⟨s, hs, e⟩ := ih line hm
        exact ⟨s, by simp [hs], e⟩
  obtain ⟨ran, code, e1, e2⟩ := runBatch_checked exec
    (fun c hc => by obtain ⟨s, _, e⟩ := hl c hc; exact call_ne_stop e)
    (fun c hc => by obtain ⟨s, hs, e⟩ := hl c hc; exact hv s hs c e) world
  exact ⟨lines, ran, code, h1, by rw [h2]; exact e1, e2⟩

/-- After a command that sets the variable (a copy does), failures are not noticed any more: all
the commands that follow are run, whatever fails, and the exit code is that of the last one. -/
theorem C82_unnoticed {W : Type} (exec : Str → W → W × Nat) (c : Str) (cs : List Str)
    (hc : setsErrorlevel c) (hs : ∀ x ∈ c :: cs, x ≠ stopLine) (w : W) :
    runBatch exec ⟨w, 0, none⟩ ((c :: cs).flatMap fun c => [c, stopLine]) =
      (c :: cs, lastCode exec w 0 (c :: cs)) := by
  simp only [List.flatMap_cons, List.cons_append, List.nil_append, runBatch, lastCode]
  rw [if_neg (hs c (by simp)), if_pos hc]
  have e := runBatch_hidden exec (cs := cs) (fun x hx => hs x (by simp [hx])) (exec c w).1 (exec c w).2
  simp [e]

theorem replaceStr_noDollar {P v s : Str} (hP : P.head? = some '$') (hs : '$' ∉ s) : replaceStr P v s = s := by
  have := replaceStr_skip (v := v) hP hs []
  simp only [List.append_nil] at this
  rw [this]
  have e : replaceStr P v [] = [] := by
    cases P with
    | nil => simp at hP
    | cons x xs => simp [replaceStr]
  rw [e, List.append_nil]

/-- What reaches the program: an argument as it is written in the command. -/
theorem winArgument_for {w : WinPaths} {place : Loc → Str → Loc} (m : PathMeaning w place)
    (project : Loc) {i : Str} (hd : '$' ∉ i) (hf : ¬ Switch i → QuotedPath (fixPathSlash w i) ∧ '$' ∉ fixPathSlash w i) :
    ArgumentFor w place project i (winArgument w i) ∧
      winArgument w i = (open scoped Classical in if Switch i then i else fixPathSlash w i) := by
  have hsw : (i.head? = none ∨ i.head? = some '/' ∨ i.head? = some '-' ∨ '=' ∈ i) ↔ Switch i := by
    unfold Switch
    rw [List.head?_eq_none_iff]
  unfold winArgument
  by_cases h : Switch i
  · simp only [if_pos (hsw.mpr h), if_pos h]
    rw [replaceStr_noDollar rfl hd, fixSlashes_noDollar _ hd]
    exact ⟨⟨fun _ => rfl, fun hn => absurd h hn⟩, rfl⟩
  · simp only [if_neg (fun e => h (hsw.mp e)), if_neg h]
    obtain ⟨h1, h2⟩ := hf h
    rw [replaceStr_noDollar rfl h2, fixSlashes_noDollar _ h2]
    refine ⟨⟨fun hs => absurd hs h, fun _ => ?_⟩, rfl⟩
    exact place_fixPathSlash m project (fun e => h (.inl e)) h1

theorem joinWith_quoted_words (as : List Str) (done : List Str) (hq : ∀ a ∈ as, '"' ∉ a)
    (hb : ∀ a ∈ as, a.getLast? ≠ some '\\') :
    let s := (joinWith [' '] (as.map fun a => c!"\"" ++ a ++ c!"\"")).foldl argvStep ⟨false, 0, none, done⟩
    s.done ++ (s.cur.map (· ++ List.replicate s.pend '\\')).toList = done ++ as := by
  have : (as.map fun a => c!"\"" ++ a ++ c!"\"") = as.map rspText :=
    List.map_congr_left fun a ha => (rspText_plain (hq a ha)).symm
  rw [this]
  exact argv_join as done hb

theorem winProgram_eq (p : Str) : winProgram p = programOf p := by
  unfold winProgram programOf
  split
  · rfl
  · unfold replaceChar
    rename_i h
    clear h
    induction p with
    | nil => rfl
    | cons c p ih =>
      rw [List.flatMap_cons, List.map_cons, ih]
      split <;> simp

/-- An action that is run by `cmd` gets its program and its arguments one for one: switches as
they are, and other arguments as paths that denote, from the directory of the project, what they
denote from the directory of the build file.  Without quotes, percent signs and macros in them,
and not ending in a backslash. -/
theorem C82_arguments {w : WinPaths} {place : Loc → Str → Loc} (m : PathMeaning w place)
    (project : Loc) {cygwinDir program line : Str} {args : List Str} {hasInput setup : Bool}
    (h : buildCommandLine w cygwinDir (program :: args) false hasInput true setup = some line)
    (hp : '"' ∉ program ∧ '%' ∉ program ∧ '$' ∉ program ∧ '\n' ∉ program ∧
      (programOf program).getLast? ≠ some '\\')
    (ha : ∀ i ∈ args, '$' ∉ i ∧
      (Switch i → '"' ∉ i ∧ '%' ∉ i ∧ '\n' ∉ i ∧ i.getLast? ≠ some '\\') ∧
      (¬ Switch i → QuotedPath (fixPathSlash w i) ∧ '$' ∉ fixPathSlash w i)) :
    ∃ xs, (batchPercent (c!"call " ++ line)).map argvWords =
        some (c!"call" :: c!"call" :: programOf program :: xs) ∧
      List.Forall₂ (ArgumentFor w place project) args xs ∧ '\n' ∉ line := by
  have hline : line = directCommand w true program args := by
    unfold buildCommandLine at h
    simp only [Bool.false_eq_true, if_false] at h
    have hpre : inputDirPreamble (program :: args) = [] := by
      unfold inputDirPreamble
      rw [if_neg]
      simp only [Bool.not_eq_true, List.any_eq_false]
      intro x hx
      apply hasSub_absent (c := '$') (by simp)
      rcases List.mem_cons.mp hx with rfl | hx
      · exact hp.2.2.1
      · exact (ha x hx).1
    rw [hpre, List.nil_append] at h
    exact (Option.some.inj h).symm
  have hxs : ∀ i ∈ args, '"' ∉ winArgument w i ∧ '%' ∉ winArgument w i ∧ '\n' ∉ winArgument w i ∧
      (winArgument w i).getLast? ≠ some '\\' ∧ ArgumentFor w place project i (winArgument w i) := by
    intro i hi
    obtain ⟨h1, h2, h3⟩ := ha i hi
    obtain ⟨e1, e2⟩ := winArgument_for m project h1 h3
    by_cases hs : Switch i
    · rw [if_pos hs] at e2
      rw [e2] at e1 ⊢
      have := h2 hs
      exact ⟨this.1, this.2.1, this.2.2.1, this.2.2.2, e1⟩
    · rw [if_neg hs] at e2
      rw [e2] at e1 ⊢
      have := (h3 hs).1
      exact ⟨this.1, this.2.1, this.2.2.2.1, this.2.2.2.2.2.1, e1⟩
  have hprog : ∀ c, c ∉ program → c ∉ c!"type" → c ≠ '\\' → c ∉ programOf program := by
    intro c hc ht hb
    unfold programOf
    split
    · exact ht
    · intro hm
      obtain ⟨x, hx, e⟩ := List.mem_map.mp hm
      split at e
      · exact hb e.symm
      · exact hc (e ▸ hx)
  have hq := hprog '"' hp.1 (by decide) (by decide)
  have hpc := hprog '%' hp.2.1 (by decide) (by decide)
  have hnl := hprog '\n' hp.2.2.2.1 (by decide) (by decide)
  let ws := programOf program :: args.map (winArgument w)
  have htext : line = c!"call " ++ joinWith [' '] (ws.map fun a => c!"\"" ++ a ++ c!"\"") := by
    rw [hline]
    unfold directCommand winQuoted
    simp only [if_true, winProgram_eq]
    simp [ws, joinWith, List.map_map, Function.comp_def]
  have hmem : ∀ c, c ≠ ' ' → c ≠ '"' → c ∉ c!"call " → (∀ a ∈ ws, c ∉ a) → c ∉ line := by
    intro c h1 h2 h3 h4
    rw [htext]
    have : ∀ ws : List Str, (∀ a ∈ ws, c ∉ a) → c ∉ joinWith [' '] (ws.map fun a => c!"\"" ++ a ++ c!"\"") := by
      intro ws
      induction ws with
      | nil => simp [joinWith]
      | cons a ws ih =>
        intro hw
        have ha := hw a (by simp)
        have ih := ih (fun x hx => hw x (by simp [hx]))
        cases ws with
        | nil => simp [joinWith, ha, h2]
        | cons b bs =>
          simp only [List.map_cons, joinWith] at ih ⊢
          simp only [List.mem_append, not_or]
          refine ⟨⟨⟨⟨by simpa using h2, ha⟩, by simpa using h2⟩, by simpa using h1⟩, ?_⟩
          simpa using ih
    simp only [List.mem_append, not_or]
    exact ⟨h3, this ws h4⟩
  have hws : ∀ P : Str → Prop, P (programOf program) → (∀ i ∈ args, P (winArgument w i)) → ∀ a ∈ ws, P a := by
    intro P h1 h2 a ha
    rcases List.mem_cons.mp ha with rfl | ha
    · exact h1
    · obtain ⟨i, hi, rfl⟩ := List.mem_map.mp ha
      exact h2 i hi
  refine ⟨args.map (winArgument w), ?_, ?_, ?_⟩
  · have hper : '%' ∉ c!"call " ++ line := by
      simp only [List.mem_append, not_or]
      exact ⟨by decide, hmem '%' (by decide) (by decide) (by decide)
        (hws (fun a => '%' ∉ a) hpc fun i hi => (hxs i hi).2.1)⟩
    rw [batchPercent_plain hper, Option.map_some, htext]
    unfold argvWords
    have e1 := argv_word (a := c!"call") (done := [])
      (rest := c!"call " ++ joinWith [' '] (ws.map fun a => c!"\"" ++ a ++ c!"\"")) (by simp) (by decide)
    have e2 := argv_word (a := c!"call") (done := [c!"call"])
      (rest := joinWith [' '] (ws.map fun a => c!"\"" ++ a ++ c!"\"")) (by simp) (by decide)
    have e3 := joinWith_quoted_words ws [c!"call", c!"call"]
      (hws (fun a => '"' ∉ a) hq fun i hi => (hxs i hi).1)
      (hws (fun a => a.getLast? ≠ some '\\') hp.2.2.2.2 fun i hi => (hxs i hi).2.2.2.1)
    have f1 : c!"call " ++ (c!"call " ++ joinWith [' '] (ws.map fun a => c!"\"" ++ a ++ c!"\"")) =
        c!"call" ++ ' ' :: (c!"call " ++ joinWith [' '] (ws.map fun a => c!"\"" ++ a ++ c!"\"")) := rfl
    have f2 : c!"call " ++ joinWith [' '] (ws.map fun a => c!"\"" ++ a ++ c!"\"") =
        c!"call" ++ ' ' :: joinWith [' '] (ws.map fun a => c!"\"" ++ a ++ c!"\"") := rfl
    rw [f1, e1, f2, List.nil_append, e2]
    simp only at e3 ⊢
    rw [show ([c!"call"] ++ [c!"call"] : List Str) = [c!"call", c!"call"] from rfl, e3]
    rfl
  · rw [List.forall₂_map_right_iff]
    exact List.forall₂_same.mpr fun i hi => (hxs i hi).2.2.2.2
  · exact hmem '\n' (by decide) (by decide) (by decide)
      (hws (fun a => '\n' ∉ a) hnl fun i hi => (hxs i hi).2.2.1)

/-- A copy of a file makes the directory, then copies the file into it under its own name.  The
three commands are on one line. -/
theorem C82_copy {w : WinPaths} {place : Loc → Str → Loc} (m : PathMeaning w place) (project : Loc)
    {destination src : Str} (hd : destination ≠ []) (hs : src ≠ []) (hl : src.getLast? ≠ some '/')
    (q1 : QuotedPath (fixPath w destination)) (q2 : QuotedPath (fixPath w src))
    (q3 : QuotedPath (fixPath w (w.join destination (winBasename src))))
    (hb : winBasename src ≠ [] ∧ (winBasename src).head? ≠ some '$' ∧
      w.isabs (winBasename src) = false ∧ isWindowsAbsPath (winBasename src) = false) :
    ∃ output d s t, (copyStep w destination src).inputs = [src] ∧
      (copyStep w destination src).outputs = [output] ∧
      (splitOn '&' (copyStep w destination src).command).map argvWords =
        [[c!"mkdir", d, c!"2>nul"], [c!"set", c!"ERRORLEVEL=0"], [c!"copy", c!"/Y", s, t]] ∧
      fixPath w output = t ∧
      place project d = place (place project w.base) destination ∧
      place project s = place (place project w.base) src ∧
      place project t = place (place (place project w.base) destination) (winBasename src) := by
  refine ⟨w.join destination (winBasename src), fixPath w destination, fixPath w src,
    fixPath w (w.join destination (winBasename src)), ?_, ?_, ?_, rfl, ?_, ?_, ?_⟩
  · simp [copyStep, hl]
  · simp [copyStep, hl]
  · simp only [copyStep, hl, if_false]
    generalize fixPath w destination = D at *
    generalize fixPath w src = S at *
    generalize fixPath w (w.join destination (winBasename src)) = T at *
    have e : c!"mkdir \"" ++ D ++ c!"\" 2>nul & set ERRORLEVEL=0 & copy /Y \"" ++ S ++ c!"\" \"" ++ T ++ c!"\""
        = (c!"mkdir \"" ++ D ++ c!"\" 2>nul ") ++ '&' :: (c!" set ERRORLEVEL=0 " ++ '&' ::
          (c!" copy /Y \"" ++ S ++ c!"\" \"" ++ T ++ c!"\"")) := by simp
    have g1 : argvWords (c!"mkdir \"" ++ D ++ c!"\" 2>nul ") = [c!"mkdir", D, c!"2>nul"] := by
      unfold argvWords
      have f : c!"mkdir \"" ++ D ++ c!"\" 2>nul " =
          c!"mkdir" ++ ' ' :: ((c!"\"" ++ D ++ c!"\"") ++ ' ' :: (c!"2>nul" ++ ' ' :: [])) := by simp
      rw [f, argv_word (by simp) (by decide), argv_quoted q1.1 q1.2.2.2.2.2.1,
        argv_word (by simp) (by decide)]
      simp
    have g2 : argvWords (c!" copy /Y \"" ++ S ++ c!"\" \"" ++ T ++ c!"\"") = [c!"copy", c!"/Y", S, T] := by
      unfold argvWords
      have f : c!" copy /Y \"" ++ S ++ c!"\" \"" ++ T ++ c!"\"" =
          ' ' :: (c!"copy" ++ ' ' :: (c!"/Y" ++ ' ' :: ((c!"\"" ++ S ++ c!"\"") ++ ' ' ::
            (c!"\"" ++ T ++ c!"\"")))) := by
        simp
      have f1 : argvStep ⟨false, 0, none, []⟩ ' ' = ⟨false, 0, none, []⟩ := by simp [argvStep]
      rw [f, List.foldl_cons, f1, argv_word (by simp) (by decide), argv_word (by simp) (by decide),
        argv_quoted q2.1 q2.2.2.2.2.2.1, ← rspText_plain q3.1, argv_rspText _ _ q3.2.2.2.2.2.1]
      simp
    rw [e, splitOn_append_sep, splitOn_append_sep, splitOn_noSep, splitOn_noSep, splitOn_noSep]
    · simp only [List.cons_append, List.nil_append, List.map_cons, List.map_nil, List.cons.injEq, and_true]
      exact ⟨g1, by decide, g2⟩
    · have := q2.2.2.1
      have := q3.2.2.1
      simp_all
    · decide
    · have := q1.2.2.1
      simp_all
  · exact place_fixPath m project hd q1
  · exact place_fixPath m project hs q2
  · rw [place_fixPath m project (m.joinNonempty _ _ hb.1) q3]
    exact m.join _ _ _ hb.1 hb.2.2.1 hb.2.1 hb.2.2.2

/-! ### A case -/

/-- Backslashes as slashes. -/
def slashed (p : Str) : Str := replaceChar '\\' ['/'] p

/-- Paths of the tests: `ntpath` for paths without drives and macros; others are kept. -/
def testPaths (base : Str) : WinPaths where
  norm p := if '$' ∈ p ∨ ':' ∈ p then p else replaceChar '/' ['\\'] (normpath (slashed p))
  isabs p := p.head? = some '/' ∨ p.head? = some '\\'
  join a b := if a = [] then b else a ++ '\\' :: b
  base := base

/-- The meaning of paths in the tests: macros are directories at the top. -/
def testPlace (l : Loc) (p : Str) : Loc :=
  walk (if p.head? = some '$' ∨ isWindowsAbsPath p = true then [] else l) (slashed p)

theorem replaceChar_one (a b : Char) (p : Str) :
    replaceChar a [b] p = p.map fun c => if c = a then b else c := by
  unfold replaceChar
  induction p with
  | nil => rfl
  | cons c p ih =>
    rw [List.flatMap_cons, List.map_cons, ih]
    split <;> simp

theorem slashed_slashes (p : Str) : slashed (replaceChar '/' ['\\'] p) = slashed p := by
  unfold slashed
  simp only [replaceChar_one, List.map_map]
  refine List.map_congr_left fun c _ => ?_
  by_cases h : c = '/'
  · simp [h]
  · simp [h]

theorem slashed_slashed (p : Str) : slashed (replaceChar '\\' ['/'] p) = slashed p := by
  unfold slashed
  simp only [replaceChar_one, List.map_map]
  refine List.map_congr_left fun c _ => ?_
  by_cases h : c = '\\'
  · simp [h]
  · simp [h]

theorem isWindowsAbsPath_map (f : Char → Char) (p : Str)
    (h : ∀ c d, (d = 'c' ∨ d = 'C' ∨ d = ':') → (f c = d ↔ c = d)) :
    isWindowsAbsPath (p.map f) = isWindowsAbsPath p := by
  have e : ∀ c d, (d = 'c' ∨ d = 'C' ∨ d = ':') → (d == f c) = (d == c) := by
    intro c d hd
    rw [Bool.eq_iff_iff]
    simp only [beq_iff_eq]
    exact ⟨fun e => ((h c d hd).mp e.symm).symm, fun e => ((h c d hd).mpr e.symm).symm⟩
  unfold isWindowsAbsPath startsWith
  rcases p with _ | ⟨a, _ | ⟨b, p⟩⟩
  · rfl
  · simp [List.isPrefixOf]
  · simp [List.isPrefixOf, e]

theorem head_map_dollar (f : Char → Char) (p : Str) (h : ∀ c, f c = '$' ↔ c = '$') :
    (p.map f).head? = some '$' ↔ p.head? = some '$' := by
  cases p with
  | nil => simp
  | cons c p => simp [h]

theorem testPlace_seps (a b : Char) (ha : a = '/' ∨ a = '\\') (hb : b = '/' ∨ b = '\\') (l : Loc) (p : Str)
    (h : slashed (replaceChar a [b] p) = slashed p) : testPlace l (replaceChar a [b] p) = testPlace l p := by
  have key : ∀ c d : Char, d ≠ '/' → d ≠ '\\' → ((if c = a then b else c) = d ↔ c = d) := by
    intro c d h1 h2
    by_cases hc : c = a
    · rw [if_pos hc, hc]
      rcases ha with rfl | rfl <;> rcases hb with rfl | rfl <;> simp [Ne.symm h1, Ne.symm h2]
    · rw [if_neg hc]
  unfold testPlace
  have hd := head_map_dollar (fun c => if c = a then b else c) p (fun c => key c '$' (by decide) (by decide))
  rw [h, replaceChar_one, isWindowsAbsPath_map]
  · simp only [hd]
  · rintro c d (rfl | rfl | rfl) <;> exact key c _ (by decide) (by decide)

theorem slashed_append (a b : Str) : slashed (a ++ b) = slashed a ++ slashed b := by
  unfold slashed replaceChar
  exact List.flatMap_append

theorem walk_sep (l : Loc) {x y : Str} (hx : x ≠ []) (hy : y.head? ≠ some '/') :
    walk l (x ++ '/' :: y) = walk (walk l x) y := by
  unfold walk
  rw [if_neg hy, splitOn_append_sep, List.foldl_append]
  cases x with
  | nil => exact absurd rfl hx
  | cons c x => simp

theorem slashed_head {p : Str} : (slashed p).head? = some '/' ↔ p.head? = some '/' ∨ p.head? = some '\\' := by
  unfold slashed
  rw [replaceChar_one]
  cases p with
  | nil => simp
  | cons c p =>
    simp only [List.map_cons, List.head?_cons, Option.some.injEq]
    by_cases h : c = '\\'
    · simp [h]
    · simp [h]

theorem slashed_ne {p : Str} (h : p ≠ []) : slashed p ≠ [] := replaceChar_ne (by simp) h

theorem windowsAbs_append {a b : Str} (hb : b.head? = some '\\' ∨ b.head? = some '/') :
    isWindowsAbsPath (a ++ b) = isWindowsAbsPath a := by
  rcases b with _ | ⟨x, b⟩
  · simp at hb
  simp only [List.head?_cons, Option.some.injEq] at hb
  unfold isWindowsAbsPath startsWith
  rcases a with _ | ⟨c, _ | ⟨d, a⟩⟩
  · rcases hb with rfl | rfl <;> simp [List.isPrefixOf]
  · rcases hb with rfl | rfl <;> simp [List.isPrefixOf]
  · simp [List.isPrefixOf]

theorem isWindowsAbs_colon {p : Str} (h : isWindowsAbsPath p = true) : ':' ∈ p := by
  unfold isWindowsAbsPath startsWith at h
  rcases p with _ | ⟨c, _ | ⟨d, a⟩⟩
  · simp [List.isPrefixOf] at h
  · simp [List.isPrefixOf] at h
  · simp only [List.isPrefixOf, Bool.and_true, Bool.or_eq_true, Bool.and_eq_true, beq_iff_eq] at h
    rcases h with h | h <;> simp [← h.2]

/-- The laws of paths hold for the paths of the tests. -/
theorem testPaths_meaning (base : Str) : PathMeaning (testPaths base) testPlace where
  here l := by simp [testPlace, slashed, replaceChar, isWindowsAbsPath, startsWith, walk, splitOn, walkStep]
  norm l p hp _ := by
    unfold testPaths
    simp only
    by_cases h : '$' ∈ p ∨ ':' ∈ p
    · rw [if_pos h]
    · rw [if_neg h, testPlace_seps _ _ (by simp) (by simp) l _ (slashed_slashes _)]
      simp only [not_or] at h
      have hmem : ∀ c, c ≠ '/' → c ≠ '.' → c ∉ p → c ∉ normpath (slashed p) := by
        intro c h1 h2 hc hm
        rcases mem_normpath hm with hm | hm | hm
        · unfold slashed at hm
          rw [replaceChar_one] at hm
          obtain ⟨x, hx, e⟩ := List.mem_map.mp hm
          split at e
          · exact h1 e.symm
          · exact hc (e ▸ hx)
        · exact h1 hm
        · exact h2 hm
      have e1 : ∀ q : Str, '$' ∉ q → ':' ∉ q → ¬ (q.head? = some '$' ∨ isWindowsAbsPath q = true) := by
        intro q h1 h2 h3
        rcases h3 with h3 | h3
        · exact h1 (List.mem_of_mem_head? h3)
        · exact h2 (isWindowsAbs_colon h3)
      have e2 : slashed (normpath (slashed p)) = normpath (slashed p) := by
        unfold slashed
        apply replaceChar_of_notMem
        intro hm
        rcases mem_normpath hm with hm | hm | hm
        · rw [replaceChar_one] at hm
          obtain ⟨x, _, e⟩ := List.mem_map.mp hm
          split at e
          · cases e
          · rename_i h; exact h e
        · cases hm
        · cases hm
      unfold testPlace
      rw [if_neg (e1 _ (hmem '$' (by decide) (by decide) h.1) (hmem ':' (by decide) (by decide) h.2)),
        if_neg (e1 p h.1 h.2), e2, walk_normpath]
  join l a b hb h1 h2 h3 := by
    simp only [testPaths, decide_eq_false_iff_not, not_or] at h1
    unfold testPaths
    simp only
    have hpb : ∀ l, testPlace l b = walk l (slashed b) := by
      intro l
      unfold testPlace
      rw [if_neg (by simp [h2, h3])]
    by_cases ha : a = []
    · have e : testPlace l [] = l := by
        simp [testPlace, slashed, replaceChar, isWindowsAbsPath, startsWith, walk, splitOn, walkStep]
      rw [if_pos ha, ha, e]
    · rw [if_neg ha, hpb]
      unfold testPlace
      have e1 : (a ++ '\\' :: b).head? = a.head? := by
        cases a with
        | nil => exact absurd rfl ha
        | cons c a => rfl
      rw [e1, windowsAbs_append (.inl rfl), slashed_append]
      have e2 : slashed ('\\' :: b) = '/' :: slashed b := by simp [slashed, replaceChar]
      rw [e2, walk_sep _ (slashed_ne ha)]
      rw [Ne, slashed_head, not_or]
      exact h1
  joinNonempty a b hb := by
    unfold testPaths
    simp only
    by_cases ha : a = []
    · rw [if_pos ha]; exact hb
    · rw [if_neg ha]; simp
  absolute l l' p h := by
    simp only [testPaths, decide_eq_true_eq] at h
    unfold testPlace walk
    rw [if_pos (slashed_head.mpr h), if_pos (slashed_head.mpr h)]
  drive l l' p h := by simp [testPlace, h]
  macro_ l l' p h := by simp [testPlace, h]
  slash l p := testPlace_seps _ _ (by simp) (by simp) l p (slashed_slashes p)
  backslash l p := testPlace_seps _ _ (by simp) (by simp) l p (slashed_slashed p)
  ending l p c hc h1 h2 h3 := by
    have hp : p ≠ [] := by rintro rfl; simp at hc
    have key : ∀ s, s = '\\' ∨ s = '/' → testPlace l (p ++ [s]) = testPlace l p := by
      intro s hs
      unfold testPlace
      have e1 : (p ++ [s]).head? = p.head? := by
        cases p with
        | nil => exact absurd rfl hp
        | cons c a => rfl
      have e2 : slashed (p ++ [s]) = slashed p ++ '/' :: [] := by
        rw [slashed_append]
        rcases hs with rfl | rfl <;> rfl
      rw [e1, windowsAbs_append (by rcases hs with rfl | rfl <;> simp), e2, walk_sep _ (slashed_ne hp) (by simp)]
      simp [walk, splitOn, walkStep]
    exact ⟨key _ (.inl rfl), key _ (.inr rfl)⟩

/-- Two actions on one input, an action without inputs and a copy. -/
def testActions : List WinActionSpec :=
  [{ name := c!"gen", inputs := [c!"a.in", c!"tool.py"], outputs := [c!"$(OutDir)/a.h"],
     action := [c!"python", c!"tool.py", c!"-o", c!"x y"], cygwin := false },
   { name := c!"list", inputs := [c!"a.in"], outputs := [c!"a.txt"], action := [c!"cat", c!"a.in"],
     cygwin := false },
   { name := c!"plain", action := [c!"echo", c!"-n"], cygwin := true }]

def testCopies : List WinCopySpec := [⟨c!"out", [c!"b.txt"]⟩]

example : (targetItems (testPaths c!"..") false c!"cyg" c!"x.gyp" [] testActions testCopies).map
      (fun r => r.1.map fun i => (i.file, listed i.outputs, i.additionalInputs.map listed)) =
    some [(c!"..\\a.in", [c!"$(OutDir)\\a.h", c!"..\\a.txt"], some [c!"..\\tool.py"]),
      (c!"..\\x.gyp", [], none), (c!"..\\b.txt", [c!"..\\out\\b.txt"], none)] := by decide +kernel

example : (targetItems (testPaths c!"..") false c!"cyg" c!"x.gyp" [] testActions testCopies).map
      (fun r => r.1.map fun i => batchLines i.command) =
    some [[c!"call call \"python\" \"../tool.py\" \"-o\" \"../x y\"", stopLine,
        c!"call call \"type\" \"../a.in\"", stopLine],
      [c!"call call \"$(ProjectDir)..\\cyg\\setup_env.bat\" && set CYGWIN=nontsec&& bash -c \"\\\"echo\\\" \\\"-n\\\"\"",
        stopLine],
      [c!"call mkdir \"..\\out\" 2>nul & set ERRORLEVEL=0 & copy /Y \"..\\b.txt\" \"..\\out\\b.txt\"",
        stopLine]] := by decide +kernel

example : ∃ ran code, runBatch (fun c (w : Nat) => (w + 1, if c = c!"call b" then 2 else 0)) ⟨0, 0, none⟩
      [c!"call a", stopLine, c!"call b", stopLine, c!"call c", stopLine] = (ran, code) ∧
    UntilFailure (fun c (w : Nat) => (w + 1, if c = c!"call b" then 2 else 0)) 0
      [c!"call a", c!"call b", c!"call c"] ran code ∧ ran = [c!"call a", c!"call b"] ∧ code = 2 := by
  obtain ⟨ran, code, h1, h2⟩ := runBatch_checked (fun c (w : Nat) => (w + 1, if c = c!"call b" then 2 else 0))
    (cs := [c!"call a", c!"call b", c!"call c"]) (by decide) (by
      intro c hc ⟨x, y, e⟩
      have : c.length ≤ 6 := (by decide : ∀ c ∈ [c!"call a", c!"call b", c!"call c"], c.length ≤ 6) c hc
      rw [← e] at this
      simp at this
      omega) 0
  refine ⟨ran, code, h1, h2, ?_⟩
  cases h2 with
  | failed h => simp at h
  | next _ h2 =>
    cases h2 with
    | failed h => simp
    | next h _ => simp at h

example : ∃ line, buildCommandLine (testPaths c!"..") [] [c!"bin/gen", c!"-v", c!"sub\\..\\in put.txt"] false false
      true true = some line ∧
    ∃ xs, (batchPercent (c!"call " ++ line)).map argvWords =
        some (c!"call" :: c!"call" :: c!"bin\\gen" :: xs) ∧
      List.Forall₂ (ArgumentFor (testPaths c!"..") testPlace [c!"build", c!"p"])
        [c!"-v", c!"sub\\..\\in put.txt"] xs ∧ '\n' ∉ line := by
  refine ⟨_, rfl, C82_arguments (testPaths_meaning c!"..") [c!"build", c!"p"]
    (cygwinDir := []) (hasInput := false) (setup := true) rfl (by decide +kernel) ?_⟩
  intro i hi
  simp only [List.mem_cons, List.not_mem_nil, or_false] at hi
  rcases hi with rfl | rfl
  · exact ⟨by decide, fun _ => by decide, fun h => absurd (Or.inr (Or.inr (Or.inl rfl))) h⟩
  · refine ⟨by decide, fun h => ?_, fun _ => ?_⟩
    · exact absurd h (by unfold Switch; decide)
    · unfold QuotedPath; decide +kernel

example : ∃ output d s t, (copyStep (testPaths c!"..") c!"out" c!"sub/b.txt").inputs = [c!"sub/b.txt"] ∧
      (copyStep (testPaths c!"..") c!"out" c!"sub/b.txt").outputs = [output] ∧
      (splitOn '&' (copyStep (testPaths c!"..") c!"out" c!"sub/b.txt").command).map argvWords =
        [[c!"mkdir", d, c!"2>nul"], [c!"set", c!"ERRORLEVEL=0"], [c!"copy", c!"/Y", s, t]] ∧
      fixPath (testPaths c!"..") output = t ∧ testPlace [c!"build", c!"p"] d = [c!"out", c!"p"] ∧
      testPlace [c!"build", c!"p"] s = [c!"b.txt", c!"sub", c!"p"] ∧
      testPlace [c!"build", c!"p"] t = [c!"b.txt", c!"out", c!"p"] := by
  obtain ⟨output, d, s, t, h1, h2, h3, h4, h5, h6, h7⟩ := C82_copy (testPaths_meaning c!"..")
    [c!"build", c!"p"] (destination := c!"out") (src := c!"sub/b.txt") (by decide) (by decide) (by decide)
    (by unfold QuotedPath; decide +kernel) (by unfold QuotedPath; decide +kernel)
    (by unfold QuotedPath; decide +kernel) (by decide +kernel)
  exact ⟨output, d, s, t, h1, h2, h3, h4, by rw [h5]; decide +kernel, by rw [h6]; decide +kernel,
    by rw [h7]; decide +kernel⟩

/-! ### What the code does not do -/

/-- Every copy of a file sets the variable: it hides its own failure and the failures after it
(see `C82_unnoticed`). -/
theorem C82_copy_sets (w : WinPaths) (destination src : Str) (h : src.getLast? ≠ some '/') :
    setsErrorlevel (copyStep w destination src).command := by
  unfold setsErrorlevel copyStep
  simp only [h, if_false]
  exact ⟨c!"mkdir \"" ++ fixPath w destination ++ c!"\" 2>nul & ",
    c!" & copy /Y \"" ++ fixPath w src ++ c!"\" \"" ++ fixPath w (w.join destination (winBasename src)) ++
      c!"\"", by simp [List.append_assoc]⟩

/-- A failing copy followed by another command: both are run, and the exit code is that of the
second. -/
theorem C82_copy_fails : ∃ (exec : Str → Unit → Unit × Nat) (copy next : Str), setsErrorlevel copy ∧
    (exec copy ()).2 ≠ 0 ∧
    runBatch exec ⟨(), 0, none⟩ [copy, stopLine, next, stopLine] = ([copy, next], 0) := by
  let copy := (copyStep (testPaths c!"..") c!"out" c!"b.txt").command
  have hc : setsErrorlevel copy := C82_copy_sets _ _ _ (by decide)
  have h1 : copy ≠ stopLine := by decide +kernel
  have h2 : c!"call x" ≠ copy := by decide +kernel
  refine ⟨fun c _ => ((), if c = copy then 1 else 0), copy, c!"call x", hc, by simp, ?_⟩
  have := C82_unnoticed (fun c (_ : Unit) => ((), if c = copy then 1 else 0)) copy [c!"call x"] hc (by
    intro x hx
    simp only [List.mem_cons, List.not_mem_nil, or_false] at hx
    rcases hx with rfl | rfl
    · exact h1
    · decide) ()
  simpa [lastCode, h2] using this

/-- A word that is not a path is changed like a path. -/
theorem C82_word : buildCommandLine (testPaths c!"..") [] [c!"tool", c!"release"] false false true true =
    some c!"call \"tool\" \"../release\"" := by decide +kernel

/-- A quote in an argument is not protected: the program gets other arguments. -/
theorem C82_quote : (buildCommandLine (testPaths c!"..") [] [c!"tool", c!"-DX=\"a b\""] false false true true).map
    argvWords = some [c!"call", c!"tool", c!"-DX=a", c!"b"] := by decide +kernel

/-- A backslash at the end of a switch protects the closing quote. -/
theorem C82_backslash : (buildCommandLine (testPaths c!"..") [] [c!"tool", c!"-o=out\\", c!"-v"] false false true
    true).map argvWords = some [c!"call", c!"tool", c!"-o=out\" -v"] := by decide +kernel

/-- A directory is copied from its parent, but the place to copy it to is still written from the
directory of the project: the two commands of the line mean two places. -/
theorem C82_directory : (copyStep (testPaths c!"..") c!"out" c!"a/b/data/").command =
      c!"mkdir \"..\\out\\data\\\" 2>nul & cd \"..\\a\\b\" && xcopy /e /f /y \"data\" \"..\\out\\data\\\"" ∧
    testPlace [c!"build", c!"p"] c!"..\\out\\data\\" = [c!"data", c!"out", c!"p"] ∧
    testPlace (testPlace [c!"build", c!"p"] c!"..\\a\\b") c!"..\\out\\data\\" =
      [c!"data", c!"out", c!"a", c!"p"] := by decide +kernel

/-- A directory beside the build file is looked for in the directory of the project. -/
theorem C82_top_directory : (copyStep (testPaths c!"..") c!"out" c!"data/").command =
      c!"mkdir \"..\\out\\data\\\" 2>nul & cd \".\" && xcopy /e /f /y \"data\" \"..\\out\\data\\\"" ∧
    testPlace [c!"build", c!"p"] c!"." = [c!"build", c!"p"] ∧
    testPlace [c!"build", c!"p"] (testPaths c!"..").base = [c!"p"] := by decide +kernel

/-- Two spellings of one input give two items for one file. -/
theorem C82_spelling : (targetItems (testPaths c!"..") false [] c!"x.gyp" []
      [{ name := c!"a", inputs := [c!"a.in"], action := [c!"x"], cygwin := false },
       { name := c!"b", inputs := [c!"./a.in"], action := [c!"y"], cygwin := false }] []).map
      (fun r => r.1.map (·.file)) = some [c!"..\\a.in", c!"..\\a.in"] := by decide +kernel

/-- An action with no words ends the run. -/
theorem C82_no_words {w : WinPaths} {hosts : Bool} {cygwinDir gypFile : Str} {rules : List WinStep}
    {actions : List WinActionSpec} {copies : List WinCopySpec} {a : WinActionSpec} (ha : a ∈ actions)
    (h : a.cygwin = false) (hw : a.action = []) :
    targetItems w hosts cygwinDir gypFile rules actions copies = none := by
  cases e : targetItems w hosts cygwinDir gypFile rules actions copies with
  | none => rfl
  | some r =>
    obtain ⟨steps, keys, _, hs, _⟩ := C82_items (items := r.1) (handled := r.2) e
    obtain ⟨i, hi⟩ := List.mem_iff_getElem?.mp ha
    obtain ⟨s, first, _, _, hf⟩ := hs i a hi
    have := hf.command
    simp [buildCommandLine, h, hw] at this

end Gyp
