import Verif.Model.MsvsActions
import Verif.Spec.Cygwin
import Verif.Proofs.XcodeEnv
import Verif.Proofs.MakeActions
import Verif.Props.Build
/-
C82: the commands run by the shell of Cygwin.
-/
namespace Gyp

open Spec

theorem replaceStr_pieces {α : Type} {P v : Str} {f g : α → Str} {ps : List α}
    (h : ∀ p ∈ ps, ∀ r, replaceStr P v (f p ++ r) = g p ++ replaceStr P v r) :
    replaceStr P v (ps.flatMap f) = ps.flatMap g := by
  induction ps with
  | nil => simp [replaceStr]
  | cons p ps ih =>
    rw [List.flatMap_cons, List.flatMap_cons, h p (by simp), ih fun q hq => h q (by simp [hq])]

/-- The text that stands for a piece in the script, before its quotes are escaped. -/
def cygCall (name : Str) : Str := c!"`cygpath -m \"${" ++ (name ++ c!"}\"`")

theorem replaceStr_call {P v name : Str} (hP : P.head? = some '$') (hP2 : P.tail.head? = some '(')
    (hn : '$' ∉ name) (r : Str) :
    replaceStr P v (cygCall name ++ r) = cygCall name ++ replaceStr P v r := by
  unfold cygCall
  have e : c!"`cygpath -m \"${" = c!"`cygpath -m \"" ++ ('$' :: c!"{") := rfl
  rw [e]
  simp only [List.append_assoc]
  rw [replaceStr_skip hP (by decide)]
  have e2 : ('$' :: c!"{") ++ (name ++ (c!"}\"`" ++ r)) = '$' :: (c!"{" ++ (name ++ (c!"}\"`" ++ r))) := rfl
  rw [e2, replaceStr_pass, replaceStr_skip hP (by decide), replaceStr_skip hP hn, replaceStr_skip hP (by decide)]
  · rfl
  · match P, hP, hP2 with
    | a :: b :: rest, h1, h2 =>
      simp only [List.head?_cons, Option.some.injEq, List.tail_cons] at h1 h2
      subst h1; subst h2
      rfl

theorem replaceStr_other {P v : Str} {m : Str} {r : Str} (hP : P.head? = some '$')
    (hm : '$' ∉ m) (hne : P.isPrefixOf ('$' :: (m ++ r)) = false) :
    replaceStr P v ('$' :: m ++ r) = '$' :: m ++ replaceStr P v r := by
  rw [List.cons_append, replaceStr_pass hne, replaceStr_skip hP hm]
  rfl

/-- The pieces as they are in the script, before quotes are escaped. -/
def cygShell : CygPiece → Str
  | .text s => s
  | .intDir => cygCall c!"INTDIR"
  | .outDir => cygCall c!"OUTDIR"
  | .inputDir => cygCall c!"INPUTDIR"

theorem cygwinWord_pieces {ps : List CygPiece} (h : ∀ p ∈ ps, p.Plain) :
    cygwinWord false (ps.flatMap CygPiece.written) =
      c!"\\\"" ++ replaceChar '"' c!"\\\\\\\"" (ps.flatMap cygShell) ++ c!"\\\"" := by
  unfold cygwinWord
  simp only [Bool.false_eq_true, if_false]
  have h1 : replaceStr c!"$(IntDir)" c!"`cygpath -m \"${INTDIR}\"`" (ps.flatMap CygPiece.written) =
      ps.flatMap fun p => match p with
        | .intDir => cygCall c!"INTDIR"
        | p => p.written := by
    apply replaceStr_pieces
    intro p hp r
    cases p with
    | text s => exact replaceStr_skip rfl (h _ hp).1 r
    | intDir => exact replaceStr_here (by decide)
    | outDir => exact replaceStr_other rfl (by decide) rfl
    | inputDir => exact replaceStr_other rfl (by decide) rfl
  have h2 : replaceStr c!"$(OutDir)" c!"`cygpath -m \"${OUTDIR}\"`" (ps.flatMap fun p => match p with
        | .intDir => cygCall c!"INTDIR"
        | p => p.written) =
      ps.flatMap fun p => match p with
        | .inputDir => p.written
        | p => (cygShell p) := by
    apply replaceStr_pieces
    intro p hp r
    cases p with
    | text s => exact replaceStr_skip rfl (h _ hp).1 r
    | intDir => exact replaceStr_call rfl rfl (by decide) r
    | outDir => exact replaceStr_here (by decide)
    | inputDir => exact replaceStr_other rfl (by decide) rfl
  have h3 : replaceStr c!"$(InputDir)" c!"`cygpath -m \"${INPUTDIR}\"`" (ps.flatMap fun p => match p with
        | .inputDir => p.written
        | p => (cygShell p)) = ps.flatMap cygShell := by
    apply replaceStr_pieces
    intro p hp r
    cases p with
    | text s => exact replaceStr_skip rfl (h _ hp).1 r
    | intDir => exact replaceStr_call rfl rfl (by decide) r
    | outDir => exact replaceStr_call rfl rfl (by decide) r
    | inputDir => exact replaceStr_here (by decide)
  rw [h1, h2, h3]

/-- Escaped quotes, read by the program. -/
theorem argv_escaped {s : Str} (hs : '\\' ∉ s) (acc : Str) (d : List Str) :
    (replaceChar '"' c!"\\\\\\\"" s).foldl argvStep ⟨true, 0, some acc, d⟩ =
      ⟨true, 0, some (acc ++ replaceChar '"' c!"\\\"" s), d⟩ := by
  induction s generalizing acc with
  | nil => simp [replaceChar]
  | cons c s ih =>
    have hc : c ≠ '\\' := fun he => hs (by simp [he])
    have hs' : '\\' ∉ s := fun hm => hs (by simp [hm])
    by_cases hq : c = '"'
    · subst hq
      have e1 : replaceChar '"' c!"\\\\\\\"" ('"' :: s) = c!"\\\\\\\"" ++ replaceChar '"' c!"\\\\\\\"" s := rfl
      have e2 : replaceChar '"' c!"\\\"" ('"' :: s) = c!"\\\"" ++ replaceChar '"' c!"\\\"" s := rfl
      rw [e1, e2, List.foldl_append]
      have e3 : List.foldl argvStep ⟨true, 0, some acc, d⟩ c!"\\\\\\\"" =
          ⟨true, 0, some (acc ++ c!"\\\""), d⟩ := by
        simp [argvStep, ArgvSt.push]
      rw [e3, ih hs']
      simp
    · have e1 : ∀ x, replaceChar '"' x (c :: s) = c :: replaceChar '"' x s := by
        intro x
        simp [replaceChar, hq]
      rw [e1, e1, List.foldl_cons]
      have e3 : argvStep ⟨true, 0, some acc, d⟩ c = ⟨true, 0, some (acc ++ [c]), d⟩ := by
        simp [argvStep, hc, hq, ArgvSt.push]
      rw [e3, ih hs']
      simp

theorem argv_words {ws : List Str} (hw : ∀ s ∈ ws, '\\' ∉ s) (acc : Str) (d : List Str) :
    (joinWith c!" " (ws.map fun s => c!"\\\"" ++ replaceChar '"' c!"\\\\\\\"" s ++ c!"\\\"")).foldl argvStep
      ⟨true, 0, some acc, d⟩ =
    ⟨true, 0, some (acc ++ joinWith c!" " (ws.map fun s => c!"\"" ++ replaceChar '"' c!"\\\"" s ++ c!"\"")), d⟩ := by
  have hone : ∀ s, '\\' ∉ s → ∀ acc, (c!"\\\"" ++ replaceChar '"' c!"\\\\\\\"" s ++ c!"\\\"").foldl argvStep
      ⟨true, 0, some acc, d⟩ = ⟨true, 0, some (acc ++ (c!"\"" ++ replaceChar '"' c!"\\\"" s ++ c!"\"")), d⟩ := by
    intro s hs acc
    rw [List.foldl_append, List.foldl_append]
    have e3 : ∀ acc, List.foldl argvStep ⟨true, 0, some acc, d⟩ c!"\\\"" = ⟨true, 0, some (acc ++ c!"\""), d⟩ := by
      intro acc
      simp [argvStep, ArgvSt.push]
    rw [e3, argv_escaped hs, e3]
    simp
  induction ws generalizing acc with
  | nil => simp [joinWith]
  | cons s ws ih =>
    cases ws with
    | nil =>
      simp only [List.map_cons, List.map_nil, joinWith]
      exact hone s (hw s (by simp)) acc
    | cons t ws =>
      have e : ∀ a b l, joinWith c!" " (a :: b :: l) = a ++ c!" " ++ joinWith c!" " (b :: l) := fun a b l => by
        simp [joinWith]
      rw [List.map_cons, List.map_cons, List.map_cons, List.map_cons, e, e, List.foldl_append, List.foldl_append,
        hone s (hw s (by simp))]
      have e3 : ∀ acc, List.foldl argvStep ⟨true, 0, some acc, d⟩ c!" " = ⟨true, 0, some (acc ++ c!" "), d⟩ :=
        fun _ => rfl
      rw [e3]
      have := ih (fun s hs => hw s (by simp [hs])) (acc ++ (c!"\"" ++ replaceChar '"' c!"\\\"" s ++ c!"\"") ++ c!" ")
      simp only [List.map_cons] at this
      rw [this]
      simp

theorem bash_pieces (vars cyg : Str → Str) {ps : List CygPiece} (h : ∀ p ∈ ps, p.Plain) :
    BashQuoted vars cyg (replaceChar '"' c!"\\\"" (ps.flatMap cygShell))
      (ps.flatMap (CygPiece.meaning vars cyg)) := by
  have happ : ∀ a b : Str, replaceChar '"' c!"\\\"" (a ++ b) = replaceChar '"' c!"\\\"" a ++ replaceChar '"' c!"\\\"" b := by
    intro a b
    simp [replaceChar]
  induction ps with
  | nil => exact .nil
  | cons p ps ih =>
    have ih := ih fun q hq => h q (by simp [hq])
    rw [List.flatMap_cons, List.flatMap_cons, happ]
    cases p with
    | text s =>
      have hs : '$' ∉ s ∧ '\\' ∉ s ∧ '`' ∉ s := h (.text s) (by simp)
      simp only [cygShell, CygPiece.meaning]
      generalize hx : replaceChar '"' c!"\\\"" (ps.flatMap cygShell) = x at ih
      clear hx
      clear h
      induction s with
      | nil => exact ih
      | cons c s ihs =>
        simp only [List.mem_cons, not_or] at hs
        have hrec := ihs ⟨hs.1.2, hs.2.1.2, hs.2.2.2⟩
        by_cases hq : c = '"'
        · subst hq
          exact .quote hrec
        · have e1 : replaceChar '"' c!"\\\"" (c :: s) = c :: replaceChar '"' c!"\\\"" s := by
            simp [replaceChar, hq]
          rw [e1]
          refine .char ?_ hrec
          simp only [List.mem_cons, List.not_mem_nil, or_false, not_or]
          exact ⟨hq, Ne.symm hs.2.1.1, Ne.symm hs.2.2.1, Ne.symm hs.1.1⟩
    | intDir => exact .path (name := c!"INTDIR") (by decide) ih
    | outDir => exact .path (name := c!"OUTDIR") (by decide) ih
    | inputDir => exact .path (name := c!"INPUTDIR") (by decide) ih

theorem call_mem {name : Str} {ws : List (List CygPiece)} {ps : List CygPiece} {p : CygPiece} (hps : ps ∈ ws)
    (hp : p ∈ ps) (hs : (cygShell p) = cygCall name) (hn : '"' ∉ name) :
    hasSub name (joinWith c!" " (ws.map fun ps => c!"\\\"" ++ replaceChar '"' c!"\\\\\\\"" (ps.flatMap cygShell) ++ c!"\\\"")) = true := by
  rw [hasSub_iff]
  have hinf : ∀ (l : List Str) (x : Str), x ∈ l → x <:+: joinWith c!" " l := by
    intro l
    induction l with
    | nil => intro x hx; cases hx
    | cons a l ih =>
      intro x hx
      cases l with
      | nil =>
        simp only [List.mem_singleton] at hx
        subst hx
        exact List.infix_refl _
      | cons b l =>
        have e : joinWith c!" " (a :: b :: l) = a ++ (c!" " ++ joinWith c!" " (b :: l)) := by simp [joinWith]
        rw [e]
        rcases List.mem_cons.mp hx with rfl | hx
        · exact (List.prefix_append _ _).isInfix
        · exact (ih x hx).trans ((List.suffix_append _ _).trans (List.suffix_append _ _)).isInfix
  have h1 : name <:+: joinWith c!" " (ws.map fun ps => c!"\\\"" ++ replaceChar '"' c!"\\\\\\\"" (ps.flatMap cygShell) ++ c!"\\\"") := by
    refine List.IsInfix.trans ?_ (hinf _ _ (List.mem_map_of_mem hps))
    obtain ⟨a, b, rfl⟩ := List.append_of_mem hp
    rw [List.flatMap_append, List.flatMap_cons, hs]
    have happ : ∀ a b : Str, replaceChar '"' c!"\\\\\\\"" (a ++ b) = replaceChar '"' c!"\\\\\\\"" a ++ replaceChar '"' c!"\\\\\\\"" b := by
      intro a b
      simp [replaceChar]
    have hself : replaceChar '"' c!"\\\\\\\"" name = name := by
      clear hs
      induction name with
      | nil => rfl
      | cons c n ih =>
        simp only [List.mem_cons, not_or] at hn
        have e1 : replaceChar '"' c!"\\\\\\\"" (c :: n) = c :: replaceChar '"' c!"\\\\\\\"" n := by
          simp [replaceChar, Ne.symm hn.1]
        rw [e1, ih hn.2]
    unfold cygCall
    simp only [happ, hself]
    refine ⟨c!"\\\"" ++ replaceChar '"' c!"\\\\\\\"" (a.flatMap cygShell) ++
      replaceChar '"' c!"\\\\\\\"" c!"`cygpath -m \"${", replaceChar '"' c!"\\\\\\\"" c!"}\"`" ++
      replaceChar '"' c!"\\\\\\\"" (b.flatMap cygShell) ++ c!"\\\"", ?_⟩
    simp only [List.append_assoc]
  obtain ⟨a, b, e⟩ := h1
  exact ⟨a, b, e.symm⟩

/-- C82: an action that is run by the shell of Cygwin.  The shell gets one argument, a script, in
which every word of the action is between double quotes and is read as the word the author wrote,
with the directories of Visual Studio as Cygwin spells them.  Before the shell is run, every
variable the script uses is set to the directory it stands for, and the environment of Cygwin is
set up if it was not yet. -/
theorem C82_cygwin {w : WinPaths} {cygwinDir : Str} {quote setup : Bool} {ws : List (List CygPiece)}
    (h : ∀ ps ∈ ws, ∀ p ∈ ps, p.Plain) :
    ∃ line before arg scripts,
      buildCommandLine w cygwinDir (ws.map fun ps => ps.flatMap CygPiece.written) true false quote setup = some line ∧
      line = before ++ c!"bash -c " ++ arg ∧
      argvWords arg = [joinWith c!" " (scripts.map fun s => c!"\"" ++ s ++ c!"\"")] ∧
      List.Forall₂ (fun ps s => ∀ vars cyg, BashQuoted vars cyg s (ps.flatMap (CygPiece.meaning vars cyg))) ws scripts ∧
      (setup = true → c!"call \"$(ProjectDir)" ++ fixPath w cygwinDir ++ c!"\\setup_env.bat\" && " <:+: before) ∧
      (∀ ps ∈ ws, CygPiece.intDir ∈ ps → c!"set INTDIR=$(IntDir)&& " <:+: before) ∧
      (∀ ps ∈ ws, CygPiece.outDir ∈ ps → c!"set OUTDIR=$(OutDir)&& " <:+: before) ∧
      (∀ ps ∈ ws, CygPiece.inputDir ∈ ps → c!"set INPUTDIR=$(InputDir)\nif NOT DEFINED INPUTDIR set INPUTDIR=.\\\nset INPUTDIR=%INPUTDIR:~0,-1%\n" <+: before) := by
  have hdirect : (ws.map fun ps => ps.flatMap CygPiece.written).map (cygwinWord false) =
      ws.map fun ps => c!"\\\"" ++ replaceChar '"' c!"\\\\\\\"" (ps.flatMap cygShell) ++ c!"\\\"" := by
    rw [List.map_map]
    apply List.map_congr_left
    intro ps hps
    exact cygwinWord_pieces (h ps hps)
  have hback : ∀ s ∈ ws.map (fun ps => ps.flatMap cygShell), '\\' ∉ s := by
    intro s hs
    obtain ⟨ps, hps, rfl⟩ := List.mem_map.mp hs
    intro hm
    obtain ⟨p, hp, hm⟩ := List.mem_flatMap.mp hm
    cases p with
    | text s => exact (h ps hps _ hp).2.1 hm
    | intDir => revert hm; decide
    | outDir => revert hm; decide
    | inputDir => revert hm; decide
  have hargv := argv_words hback [] []
  rw [List.map_map, List.map_map] at hargv
  set direct := joinWith c!" " (ws.map fun ps => c!"\\\"" ++ replaceChar '"' c!"\\\\\\\"" (ps.flatMap cygShell) ++ c!"\\\"") with hd
  refine ⟨_, inputDirPreamble (ws.map fun ps => ps.flatMap CygPiece.written) ++
    ((if setup then c!"call \"$(ProjectDir)" ++ fixPath w cygwinDir ++ c!"\\setup_env.bat\" && " else [])
    ++ c!"set CYGWIN=nontsec&& "
    ++ (if hasSub c!"NUMBER_OF_PROCESSORS" direct then
          c!"set /a NUMBER_OF_PROCESSORS_PLUS_1=%NUMBER_OF_PROCESSORS%+1&& " else [])
    ++ (if hasSub c!"INTDIR" direct then c!"set INTDIR=$(IntDir)&& " else [])
    ++ (if hasSub c!"OUTDIR" direct then c!"set OUTDIR=$(OutDir)&& " else [])),
    c!"\"" ++ direct ++ c!"\"", ws.map fun ps => replaceChar '"' c!"\\\"" (ps.flatMap cygShell),
    rfl, ?_, ?_, ?_, ?_, ?_, ?_, ?_⟩
  · unfold cygwinCommand
    simp only [hdirect, ← hd, Bool.false_and, Bool.false_eq_true, if_false, List.append_nil, List.append_assoc]
    rfl
  · unfold argvWords
    rw [List.foldl_append, List.foldl_append]
    have e0 : List.foldl argvStep ⟨false, 0, none, []⟩ c!"\"" = ⟨true, 0, some [], []⟩ := rfl
    rw [e0]
    have e1 : direct = joinWith c!" " (ws.map ((fun s => c!"\\\"" ++ replaceChar '"' c!"\\\\\\\"" s ++ c!"\\\"") ∘
      fun ps => ps.flatMap cygShell)) := rfl
    rw [e1, hargv]
    have e2 : ∀ acc, List.foldl argvStep ⟨true, 0, some acc, []⟩ c!"\"" = ⟨false, 0, some acc, []⟩ := by
      intro acc
      simp [argvStep, ArgvSt.push]
    rw [e2]
    simp only [List.nil_append, Option.map_some, Option.toList_some, List.replicate_zero, List.append_nil,
      List.map_map]
    rfl
  · clear hdirect hback hargv hd direct
    induction ws with
    | nil => exact .nil
    | cons ps ws ih =>
      exact .cons (fun vars cyg => bash_pieces vars cyg (h ps (by simp))) (ih fun q hq => h q (by simp [hq]))
  · intro hs
    rw [if_pos hs]
    simp only [List.append_assoc]
    exact ⟨inputDirPreamble _, _, by simp only [List.append_assoc]; rfl⟩
  · intro ps hps hp
    have := call_mem hps hp (name := c!"INTDIR") rfl (by decide)
    rw [← hd] at this
    rw [if_pos this]
    exact List.infix_append_of_infix_right (List.infix_append_of_infix_left (List.suffix_append _ _).isInfix)
  · intro ps hps hp
    have := call_mem hps hp (name := c!"OUTDIR") rfl (by decide)
    rw [← hd] at this
    rw [if_pos this]
    exact List.infix_append_of_infix_right (List.suffix_append _ _).isInfix
  · intro ps hps hp
    have hsub : (ws.map fun ps => ps.flatMap CygPiece.written).any (hasSub c!"$(InputDir)") = true := by
      rw [List.any_eq_true]
      refine ⟨_, List.mem_map_of_mem hps, ?_⟩
      rw [hasSub_iff]
      obtain ⟨a, b, rfl⟩ := List.append_of_mem hp
      exact ⟨a.flatMap CygPiece.written, b.flatMap CygPiece.written, by
        rw [List.flatMap_append, List.flatMap_cons]; simp [CygPiece.written]⟩
    unfold inputDirPreamble
    rw [if_pos hsub]
    exact List.prefix_append _ _

/-- An action with a quote, a space and two of the directories. -/
example : (∀ ps ∈ [[CygPiece.text c!"gen"], [.text c!"--out=", .outDir, .text c!"/a b\".c"], [.intDir]],
      ∀ p ∈ ps, p.Plain) ∧
    buildCommandLine ⟨id, fun _ => false, fun a b => a ++ c!"\\" ++ b, c!".."⟩ c!"cyg"
      [c!"gen", c!"--out=$(OutDir)/a b\".c", c!"$(IntDir)"] true false true true =
    some c!"call \"$(ProjectDir)..\\cyg\\setup_env.bat\" && set CYGWIN=nontsec&& set INTDIR=$(IntDir)&& set OUTDIR=$(OutDir)&& bash -c \"\\\"gen\\\" \\\"--out=`cygpath -m \\\\\\\"${OUTDIR}\\\\\\\"`/a b\\\\\\\".c\\\" \\\"`cygpath -m \\\\\\\"${INTDIR}\\\\\\\"`\\\"\"" := by
  refine ⟨?_, by decide +kernel⟩
  simp [CygPiece.Plain]

end Gyp
