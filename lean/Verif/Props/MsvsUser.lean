import Verif.Model.MsvsUser
import Verif.Spec.MsvsUser
/-
C129: the user file of a Visual Studio project.
-/
namespace Gyp
open Spec

theorem quoteJoin_eq : ∀ a : Str, joinWith c!"\"\"" (splitOn '"' a) = replaceChar '"' c!"\"\"" a
  | [] => rfl
  | x :: xs => by
    have ih := quoteJoin_eq xs
    unfold replaceChar at ih ⊢
    rw [List.flatMap_cons, ← ih]
    conv_lhs => unfold splitOn
    by_cases hx : x = '"'
    · rw [if_pos hx, if_pos hx]
      cases h : splitOn '"' xs with
      | nil => exact absurd h splitOn_ne_nil
      | cons w ws => simp [joinWith]
    · rw [if_neg hx, if_neg hx]
      cases h : splitOn '"' xs with
      | nil => exact absurd h splitOn_ne_nil
      | cons w ws => cases ws <;> simp [joinWith]

theorem run_dbl (d : List Str) : ∀ (a x : Str), '\\' ∉ a →
    (replaceChar '"' c!"\"\"" a).foldl runStep ⟨true, false, 0, some x, d⟩ =
      ⟨true, false, 0, some (x ++ a), d⟩
  | [], x, _ => by simp [replaceChar]
  | c :: cs, x, h => by
    have hc : c ≠ '\\' := fun e => h (by simp [e])
    have hcs : '\\' ∉ cs := fun e => h (by simp [e])
    have e : replaceChar '"' c!"\"\"" (c :: cs) =
        (if c = '"' then c!"\"\"" else [c]) ++ replaceChar '"' c!"\"\"" cs := by
      simp [replaceChar]
    rw [e, List.foldl_append]
    have s : (if c = '"' then c!"\"\"" else [c]).foldl runStep ⟨true, false, 0, some x, d⟩ =
        ⟨true, false, 0, some (x ++ [c]), d⟩ := by
      by_cases hq : c = '"'
      · subst hq; simp [runStep, RunSt.put]
      · simp [hq, runStep, RunSt.put, hc]
    rw [s, run_dbl d cs _ hcs]
    simp

theorem run_plain : ∀ (a : Str) (s : RunSt), s.inQuote = false →
    '"' ∉ a → ' ' ∉ a → '\t' ∉ a →
    (a.foldl runStep s).inQuote = false ∧ (a.foldl runStep s).done = s.done ∧
      (a ≠ [] → (a.foldl runStep s).last =
        [s.cur.getD [] ++ List.replicate s.pend '\\' ++ a])
  | [], s, h, _, _, _ => by simp [h]
  | c :: cs, s, h, hq, hb, ht => by
    simp only [List.mem_cons, not_or] at hq hb ht
    have one : (runStep s c).inQuote = false ∧ (runStep s c).done = s.done ∧
        (runStep s c).cur.isSome ∧ (runStep s c).cur.getD [] ++ List.replicate (runStep s c).pend '\\' =
          s.cur.getD [] ++ List.replicate s.pend '\\' ++ [c] := by
      by_cases hc : c = '\\'
      · subst hc; simp [runStep, h, List.replicate_succ']
      · have h1 : c ≠ '"' := fun e => hq.1 e.symm
        have h2 : ¬ ((c = ' ' ∨ c = '\t') ∧ s.inQuote = false) := by
          rintro ⟨e | e, -⟩
          · exact hb.1 e.symm
          · exact ht.1 e.symm
        unfold runStep
        rw [if_neg hc, if_neg h1, if_neg h2]
        simp [RunSt.put, h]
    have ih := run_plain cs (runStep s c) one.1 hq.2 hb.2 ht.2
    rw [List.foldl_cons]
    refine ⟨ih.1, ih.2.1.trans one.2.1, fun _ => ?_⟩
    by_cases hcs : cs = []
    · subst hcs
      obtain ⟨v, hv⟩ := Option.isSome_iff_exists.mp one.2.2.1
      have := one.2.2.2
      simp only [List.foldl_nil, RunSt.last, hv, Option.map_some, Option.toList_some,
        Option.getD_some] at this ⊢
      rw [this]
    · rw [ih.2.2 hcs, one.2.2.2]; simp

theorem hasBlank_false {a : Str} : hasBlank a = false ↔ ' ' ∉ a ∧ '\t' ∉ a ∧ '\n' ∉ a := by
  unfold hasBlank
  induction a with
  | nil => simp
  | cons c cs ih =>
    rw [List.any_cons, Bool.or_eq_false_iff, ih]
    simp only [List.mem_cons, not_or, Bool.or_eq_false_iff, decide_eq_false_iff_not]
    constructor
    · rintro ⟨⟨⟨a, b⟩, d⟩, e, f, g⟩
      exact ⟨⟨Ne.symm a, e⟩, ⟨Ne.symm b, f⟩, ⟨Ne.symm d, g⟩⟩
    · rintro ⟨⟨a, e⟩, ⟨b, f⟩, ⟨d, g⟩⟩
      exact ⟨⟨⟨Ne.symm a, Ne.symm b⟩, Ne.symm d⟩, e, f, g⟩

theorem run_quoted (d : List Str) {a : Str} (h : '\\' ∉ a) :
    (c!"\"" ++ replaceChar '"' c!"\"\"" a ++ c!"\"").foldl runStep ⟨false, false, 0, none, d⟩ =
      ⟨false, true, 0, some a, d⟩ := by
  have h0 : (c!"\"").foldl runStep ⟨false, false, 0, none, d⟩ = ⟨true, false, 0, some [], d⟩ := by
    simp [runStep, RunSt.put]
  rw [List.foldl_append, List.foldl_append, h0, run_dbl d a [] h]
  simp [runStep, RunSt.put]

theorem replace_none {a : Str} (h : '"' ∉ a) : replaceChar '"' c!"\"\"" a = a := by
  unfold replaceChar
  induction a with
  | nil => rfl
  | cons c cs ih =>
    simp only [List.mem_cons, not_or] at h
    rw [List.flatMap_cons, ih h.2, if_neg (Ne.symm h.1)]; rfl

theorem run_arg (d : List Str) {a : Str} (h : PassedOn a) :
    ((quoteUserArg a).foldl runStep ⟨false, false, 0, none, d⟩).inQuote = false ∧
    ((quoteUserArg a).foldl runStep ⟨false, false, 0, none, d⟩).done = d ∧
    ((quoteUserArg a).foldl runStep ⟨false, false, 0, none, d⟩).last = [a] := by
  unfold quoteUserArg
  by_cases hq : '"' ∈ a
  · have hb : '\\' ∉ a := h.2.elim id (fun e => absurd hq e.1)
    rw [if_pos hq, quoteJoin_eq, run_quoted d hb]
    simp [RunSt.last]
  · rw [if_neg hq]
    cases hw : hasBlank a with
    | true =>
      have hb : '\\' ∉ a := h.2.elim id (fun e => by
        rw [hasBlank_false.mpr e.2] at hw; cases hw)
      have := run_quoted d hb
      rw [replace_none hq] at this
      rw [if_pos rfl, this]
      simp [RunSt.last]
    | false =>
      have hn := hasBlank_false.mp hw
      have := run_plain a ⟨false, false, 0, none, d⟩ rfl hq hn.1 hn.2.1
      rw [if_neg (by simp)]
      exact ⟨this.1, this.2.1, by simpa using this.2.2 h.1⟩

/-- The text is read as one argument, wherever it starts. -/
def ReadAsOne (t w : Str) : Prop := ∀ d : List Str,
  (t.foldl runStep ⟨false, false, 0, none, d⟩).inQuote = false ∧
  (t.foldl runStep ⟨false, false, 0, none, d⟩).done = d ∧
  (t.foldl runStep ⟨false, false, 0, none, d⟩).last = [w]

theorem run_args {α : Type} (f g : α → Str) : ∀ (as : List α) (d : List Str),
    (∀ a ∈ as, ReadAsOne (f a) (g a)) →
    ((joinWith c!" " (as.map f)).foldl runStep ⟨false, false, 0, none, d⟩).done ++
      ((joinWith c!" " (as.map f)).foldl runStep ⟨false, false, 0, none, d⟩).last = d ++ as.map g
  | [], d, _ => by simp [joinWith, RunSt.last]
  | [a], d, h => by
    have := h a (by simp) d
    simp only [List.map_cons, List.map_nil, joinWith]
    rw [this.2.1, this.2.2]
  | a :: b :: r, d, h => by
    have ha := h a (by simp) d
    have ih := run_args f g (b :: r) (d ++ [g a]) (fun x hx => h x (by simp [List.mem_cons.mp hx]))
    have e : joinWith c!" " ((a :: b :: r).map f) =
        f a ++ (c!" " ++ joinWith c!" " ((b :: r).map f)) := by
      simp [joinWith]
    rw [e, List.foldl_append, List.foldl_append]
    have s : (c!" ").foldl runStep ((f a).foldl runStep ⟨false, false, 0, none, d⟩) =
        ⟨false, false, 0, none, d ++ [g a]⟩ := by
      simp [runStep, ha.1, ha.2.1, ha.2.2]
    rw [s, ih]; simp

theorem run_key (d : List Str) : ∀ (a x : Str), '\\' ∉ a → '"' ∉ a → ' ' ∉ a → '\t' ∉ a →
    a.foldl runStep ⟨false, false, 0, some x, d⟩ = ⟨false, false, 0, some (x ++ a), d⟩
  | [], x, _, _, _, _ => by simp
  | c :: cs, x, h1, h2, h3, h4 => by
    simp only [List.mem_cons, not_or] at h1 h2 h3 h4
    have s : runStep ⟨false, false, 0, some x, d⟩ c = ⟨false, false, 0, some (x ++ [c]), d⟩ := by
      simp [runStep, RunSt.put, Ne.symm h1.1, Ne.symm h2.1, Ne.symm h3.1, Ne.symm h4.1]
    rw [List.foldl_cons, s, run_key d cs _ h1.2 h2.2 h3.2 h4.2]; simp

theorem run_env {k v : Str} (h : PlainVariable (k, v)) :
    ReadAsOne (k ++ c!"=\"" ++ v ++ c!"\"") (k ++ c!"=" ++ v) := by
  intro d
  obtain ⟨⟨k1, k2, k3, k4⟩, v1, v2⟩ := h
  have hk : (k ++ c!"=").foldl runStep ⟨false, false, 0, none, d⟩ =
      ⟨false, false, 0, some (k ++ c!"="), d⟩ := by
    have n : ∀ a : Str, a ≠ [] → '\\' ∉ a → '"' ∉ a → ' ' ∉ a → '\t' ∉ a →
        a.foldl runStep ⟨false, false, 0, none, d⟩ = ⟨false, false, 0, some a, d⟩ := by
      intro a ha h1 h2 h3 h4
      cases a with
      | nil => exact absurd rfl ha
      | cons c cs =>
        simp only [List.mem_cons, not_or] at h1 h2 h3 h4
        have s : runStep ⟨false, false, 0, none, d⟩ c = ⟨false, false, 0, some [c], d⟩ := by
          simp [runStep, RunSt.put, Ne.symm h1.1, Ne.symm h2.1, Ne.symm h3.1, Ne.symm h4.1]
        rw [List.foldl_cons, s, run_key d cs _ h1.2 h2.2 h3.2 h4.2]; simp
    exact n _ (by simp) (by simpa using k1) (by simpa using k2) (by simpa using k3) (by simpa using k4)
  have hv := run_dbl d v (k ++ c!"=") v1
  rw [replace_none v2] at hv
  have e : k ++ c!"=\"" ++ v ++ c!"\"" = (k ++ c!"=") ++ (c!"\"" ++ (v ++ c!"\"")) := by simp
  have o : (c!"\"").foldl runStep ⟨false, false, 0, some (k ++ c!"="), d⟩ =
      ⟨true, false, 0, some (k ++ c!"="), d⟩ := by simp [runStep, RunSt.put]
  have fin : (k ++ c!"=\"" ++ v ++ c!"\"").foldl runStep ⟨false, false, 0, none, d⟩ =
      ⟨false, true, 0, some (k ++ c!"=" ++ v), d⟩ := by
    rw [e, List.foldl_append, hk, List.foldl_append, o, List.foldl_append, hv]
    simp [runStep, RunSt.put]
  rw [fin]
  simp [RunSt.last]

/-- The environment in the settings is exactly the variables of the target, if names have
no quotes, backslashes and blanks and values no quotes and backslashes. -/
theorem C129_environment {canRun : Str → Bool} {dirs args : List Str} {cmd wd : Str}
    {env : List (Str × Str)} (h : ∀ e ∈ env, PlainVariable e) :
    ∃ s, debugSettings canRun dirs (cmd :: args) env wd = some s ∧
      runWords s.environment = env.map fun e => e.1 ++ c!"=" ++ e.2 :=
  ⟨_, rfl, by
    have := run_args (fun e : Str × Str => e.1 ++ c!"=\"" ++ e.2 ++ c!"\"")
      (fun e => e.1 ++ c!"=" ++ e.2) env [] (fun e he => run_env (h e he))
    simpa [runWords, userEnvironment] using this⟩

example : ∀ e ∈ [(c!"A", c!"x y"), (c!"B", [])], PlainVariable e := by unfold PlainVariable; decide

/-- The program started by the debugger gets exactly the arguments of the action.
Partial: only for arguments that are not empty and have no backslash if they have a quote
or blank (`C129_empty_argument`, `C129_backslash`). -/
theorem C129_arguments_partial {canRun : Str → Bool} {dirs : List Str} {cmd wd : Str}
    {args : List Str} {env : List (Str × Str)} (h : ∀ a ∈ args, PassedOn a) :
    ∃ s, debugSettings canRun dirs (cmd :: args) env wd = some s ∧ runWords s.arguments = args ∧
      s.workingDirectory = wd :=
  ⟨_, rfl, by
    simpa [runWords] using run_args quoteUserArg id args [] (fun a ha d => run_arg d (h a ha)), rfl⟩

example : ∀ a ∈ [c!"--x", c!"a \"b\"", c!"c:\\d"], PassedOn a := by
  unfold PassedOn; decide
example : runWords c!"--x \"a \"\"b\"\"\" c:\\d" = [c!"--x", c!"a \"b\"", c!"c:\\d"] := by decide

/-- An empty argument is lost. -/
theorem C129_empty_argument : ∃ s, debugSettings (fun _ => false) [] [c!"t", [], c!"x"] [] c!"." = some s ∧
    runWords s.arguments = [c!"x"] := ⟨_, rfl, by decide⟩

/-- A backslash at the end of an argument with a blank joins it with the next one. -/
theorem C129_backslash : ∃ s,
    debugSettings (fun _ => false) [] [c!"t", c!"a b\\", c!"x"] [] c!"." = some s ∧
    runWords s.arguments = [c!"a b\" x"] := ⟨_, rfl, by decide⟩

/-- There are settings exactly if the action is not empty. -/
theorem C129_stops {canRun : Str → Bool} {dirs action : List Str} {env : List (Str × Str)} {wd : Str} :
    debugSettings canRun dirs action env wd = none ↔ action = [] := by
  cases action <;> simp [debugSettings]

theorem searchPath_found {canRun : Str → Bool} {c : Str} : ∀ {pre : List Str} {d : Str} {post : List Str},
    (∀ p ∈ pre, canRun (pathJoin p c) = false) → canRun (pathJoin d c) = true →
    searchPath canRun c (pre ++ d :: post) = pathJoin d c
  | [], d, post, _, h => by simp [searchPath, h]
  | p :: ps, d, post, hp, h => by
    have := searchPath_found (pre := ps) (post := post) (fun q hq => hp q (by simp [hq])) h
    simp [searchPath, hp p (by simp), this]

theorem searchPath_none {canRun : Str → Bool} {c : Str} : ∀ {dirs : List Str},
    (∀ p ∈ dirs, canRun (pathJoin p c) = false) → searchPath canRun c dirs = c
  | [], _ => rfl
  | p :: ps, hp => by
    have := searchPath_none (dirs := ps) (fun q hq => hp q (by simp [hq]))
    simp [searchPath, hp p (by simp), this]

/-- A program named without a directory (and without quotes or blanks) is the first one
of this name in PATH that can be run; if there is none, or a directory is given, the name
is kept. -/
theorem C129_command {canRun : Str → Bool} {dirs args : List Str} {cmd wd : Str}
    {env : List (Str × Str)} (hq : '"' ∉ cmd) (hb : ' ' ∉ cmd ∧ '\t' ∉ cmd ∧ '\n' ∉ cmd) :
    ∃ s, debugSettings canRun dirs (cmd :: args) env wd = some s ∧
      (('/' ∈ cmd ∨ '\\' ∈ cmd) → s.command = cmd) ∧
      ('/' ∉ cmd → '\\' ∉ cmd →
        (∀ pre d post, dirs = pre ++ d :: post → (∀ p ∈ pre, canRun (pathJoin p cmd) = false) →
          canRun (pathJoin d cmd) = true → s.command = pathJoin d cmd) ∧
        ((∀ p ∈ dirs, canRun (pathJoin p cmd) = false) → s.command = cmd)) := by
  have e : quoteUserArg cmd = cmd := by
    unfold quoteUserArg
    rw [if_neg hq, hasBlank_false.mpr hb]; rfl
  refine ⟨_, rfl, fun h => ?_, fun h1 h2 => ⟨?_, fun h => ?_⟩⟩
  · show findCommand canRun dirs (quoteUserArg cmd) = cmd
    rw [e]; unfold findCommand; rw [if_pos h]
  · rintro pre d post rfl hp hd
    show findCommand canRun _ (quoteUserArg cmd) = _
    rw [e]; unfold findCommand
    rw [if_neg (by simp [h1, h2])]
    exact searchPath_found hp hd
  · show findCommand canRun dirs (quoteUserArg cmd) = cmd
    rw [e]; unfold findCommand
    rw [if_neg (by simp [h1, h2])]
    exact searchPath_none h

example : (debugSettings (fun p => p = c!"/b/t") [c!"/a", c!"/b"] [c!"t", c!"x y"] [] c!".") =
    some ⟨c!"/b/t", c!".", c!"\"x y\"", []⟩ := by decide

/-- A program with a blank in its name is looked for with the quotes and not found. -/
theorem C129_quoted_command :
    (debugSettings (fun p => p = c!"/b/my t") [c!"/b"] [c!"my t"] [] c!".").map (·.command) =
      some c!"\"my t\"" := by decide

/-- A user file is written exactly for targets with `run_as` and tests; `run_as` goes
first, and the directory is that of the project if none is given. -/
theorem C129_written (runAs : Option RunAs) (test : Bool) :
    ((userRun runAs test).isSome ↔ (runAs.isSome ∨ test = true)) ∧
    (∀ r, runAs = some r → ∃ wd, userRun runAs test = some (r.action, r.environment, wd) ∧
      (r.workingDirectory = none → wd = c!".") ∧ ∀ w, r.workingDirectory = some w → wd = w) ∧
    (runAs = none → test = true → ∃ args, userRun runAs test = some (c!"$(TargetPath)" :: args, [], c!".")) := by
  refine ⟨?_, ?_, ?_⟩
  · cases runAs <;> cases test <;> simp [userRun]
  · rintro r rfl
    refine ⟨_, rfl, fun h => by simp [h], fun w h => by simp [h]⟩
  · rintro rfl rfl
    exact ⟨_, rfl⟩

example : userRun (some ⟨[c!"t"], [], some c!"d"⟩) true = some ([c!"t"], [], c!"d") := by
  simp [userRun]

end Gyp
