import Verif.Spec.Cli
import Mathlib.Data.List.Nodup
/-
C49: the command line; C50: running the commands.
-/
namespace Gyp
open Spec

/-! ### C49 -/

theorem isCliCommand_mapAlias (w : Str) :
    (isCliCommand (mapAlias w) = true ↔ ∃ n, commandFor w = some n) ∧
    (∀ n, commandFor w = some n → mapAlias w = .text n) ∧
    (commandFor w = none → w ∉ inheritedNames → mapAlias w = .text w) := by
  unfold commandFor
  by_cases h1 : w ∈ [c!"build", c!"clean", c!"configure", c!"rebuild", c!"install", c!"list", c!"remove"]
  · rw [if_pos h1]
    have : ∀ x ∈ [c!"build", c!"clean", c!"configure", c!"rebuild", c!"install", c!"list", c!"remove"],
        isCliCommand (mapAlias x) = true ∧ mapAlias x = .text x := by decide
    obtain ⟨a, b⟩ := this w h1
    refine ⟨⟨fun _ => ⟨w, rfl⟩, fun _ => a⟩, ?_, fun h => by cases h⟩
    intro n hn
    rw [b, Option.some.inj hn]
  · rw [if_neg h1]
    by_cases h2 : w = c!"ls"
    · subst h2
      rw [if_pos rfl]
      refine ⟨⟨fun _ => ⟨_, rfl⟩, fun _ => by decide⟩, ?_, fun h => by cases h⟩
      intro n hn
      rw [← Option.some.inj hn]; decide
    · rw [if_neg h2]
      by_cases h3 : w = c!"rm"
      · subst h3
        rw [if_pos rfl]
        refine ⟨⟨fun _ => ⟨_, rfl⟩, fun _ => by decide⟩, ?_, fun h => by cases h⟩
        intro n hn
        rw [← Option.some.inj hn]; decide
      · rw [if_neg h3]
        have hal : aget cliAliases w = none := by
          unfold cliAliases
          simp only [aget]
          rw [if_neg (fun e => h2 e.symm), if_neg (fun e => h3 e.symm)]
        have hp : objectProto = inheritedNames := rfl
        have hc : cliCommands =
          [c!"build", c!"clean", c!"configure", c!"rebuild", c!"install", c!"list", c!"remove"] := rfl
        have hm : mapAlias w = if w ∈ objectProto then .inherited w else .text w := by
          unfold mapAlias; rw [hal]
        rw [hm, hp]
        refine ⟨?_, fun n h => (by cases h), ?_⟩
        · constructor
          · intro h
            exfalso
            by_cases hi : w ∈ inheritedNames
            · rw [if_pos hi] at h; exact absurd h (by simp [isCliCommand])
            · rw [if_neg hi] at h
              unfold isCliCommand at h
              rw [hp, hc] at h
              simp only [Bool.or_eq_true, decide_eq_true_eq] at h
              rcases h with h | h
              · exact h1 h
              · exact hi h
          · rintro ⟨n, h⟩; cases h
        · intro _ hi; rw [if_neg hi]

/-- Pending words and commands of a mapped vector. -/
def segs : List CliWord → List CliWord × List CliCmd
  | [] => ([], [])
  | a :: l => if isCliCommand a = true then ([], ⟨a, (segs l).1⟩ :: (segs l).2)
    else (a :: (segs l).1, (segs l).2)

theorem setLastArgs_snoc (cs : List CliCmd) (c : CliCmd) (args : List CliWord) :
    setLastArgs (cs ++ [c]) args = cs ++ [{ c with args := args }] := by
  induction cs with
  | nil => rfl
  | cons d cs ih =>
    cases cs with
    | nil => rfl
    | cons e cs =>
      show d :: setLastArgs (e :: cs ++ [c]) args = _
      rw [ih]; rfl

theorem setLastArgs_length (cs : List CliCmd) (args : List CliWord) :
    (setLastArgs cs args).length = cs.length := by
  induction cs with
  | nil => rfl
  | cons d cs ih =>
    cases cs with
    | nil => rfl
    | cons e cs => show (setLastArgs (e :: cs) args).length + 1 = _; rw [ih]; rfl

/-- `if (commands.length > 0)` -/
def closeArgs (cs : List CliCmd) (args : List CliWord) : List CliCmd :=
  if cs.length > 0 then setLastArgs cs args else cs

theorem closeArgs_snoc (cs : List CliCmd) (c : CliCmd) (args : List CliWord) :
    closeArgs (cs ++ [c]) args = cs ++ [{ c with args := args }] := by
  unfold closeArgs
  rw [if_pos (by simp), setLastArgs_snoc]

theorem cli_loop : ∀ (suf pend : List CliWord) (cmds : List CliCmd),
    (∀ a ∈ pend, isCliCommand a = false) →
    closeArgs (suf.foldl cliStep (pend ++ suf, cmds)).2 (suf.foldl cliStep (pend ++ suf, cmds)).1 =
      closeArgs cmds (pend ++ (segs suf).1) ++ (segs suf).2
  | [], pend, cmds, _ => by simp [segs]
  | a :: suf, pend, cmds, hp => by
    rw [List.foldl_cons]
    by_cases ha : isCliCommand a = true
    · have hnot : a ∉ pend := fun h => by rw [hp a h] at ha; cases ha
      have hidx : (pend ++ a :: suf).idxOf a = pend.length := by
        rw [List.idxOf_append_of_notMem hnot, List.idxOf_cons_self]; rfl
      have hs : cliStep (pend ++ a :: suf, cmds) a =
          (suf, closeArgs cmds pend ++ [{ name := a, args := [] }]) := by
        unfold cliStep closeArgs
        rw [if_pos ha]
        simp only
        rw [if_pos (by simp), hidx]
        simp
      rw [hs]
      have := cli_loop suf [] (closeArgs cmds pend ++ [{ name := a, args := [] }]) (by simp)
      rw [List.nil_append] at this
      rw [this, closeArgs_snoc]
      simp only [segs, ha, if_true, List.append_nil, List.nil_append, List.append_assoc,
        List.singleton_append]
    · have ha' : isCliCommand a = false := by simpa using ha
      have hs : cliStep (pend ++ a :: suf, cmds) a = ((pend ++ [a]) ++ suf, cmds) := by
        unfold cliStep; rw [if_neg ha]; simp
      rw [hs, cli_loop suf (pend ++ [a]) cmds]
      · simp [segs, ha']
      · intro b hb
        rcases List.mem_append.mp hb with h | h
        · exact hp b h
        · rw [List.mem_singleton.mp h]; exact ha'

theorem parseCommands_segs (words : List Str) :
    parseCommands words = (segs (words.map mapAlias)).2 := by
  have h := cli_loop (words.map mapAlias) [] [] (by simp)
  rw [List.nil_append] at h
  have e : closeArgs [] ([] ++ (segs (words.map mapAlias)).1) = [] := rfl
  rw [e, List.nil_append] at h
  exact h

theorem segs_append : ∀ (pre l : List CliWord), (∀ a ∈ pre, isCliCommand a = false) →
    segs (pre ++ l) = (pre ++ (segs l).1, (segs l).2)
  | [], l, _ => rfl
  | a :: pre, l, h => by
    have ha : isCliCommand a = false := h a (by simp)
    have ih := segs_append pre l (fun b hb => h b (by simp [hb]))
    simp [segs, ha, ih]

theorem spelled_segs : ∀ (cmds : List CliCmd) (ws : List Str), (∀ w ∈ ws, w ∉ inheritedNames) →
    SpelledBy cmds ws → segs (ws.map mapAlias) = ([], cmds)
  | [], ws, _, h => by rw [show ws = [] from h]; rfl
  | c :: cs, ws, hi, h => by
    obtain ⟨w, args, rest, n, rfl, hw, hn, ha, hnone, hrest⟩ := h
    have hc : isCliCommand (mapAlias w) = true := (isCliCommand_mapAlias w).1.mpr ⟨n, hw⟩
    have ih := spelled_segs cs rest (fun x hx => hi x (by simp [hx])) hrest
    have hargs : args.map mapAlias = args.map .text := by
      apply List.map_congr_left
      intro x hx
      exact (isCliCommand_mapAlias x).2.2 (hnone x hx) (hi x (by simp [hx]))
    rw [List.map_cons, List.map_append, segs, if_pos hc, segs_append, ih]
    · simp only [List.append_nil]
      rw [(isCliCommand_mapAlias w).2.1 n hw, hargs]
      cases c; simp_all
    · intro x hx
      obtain ⟨y, hy, rfl⟩ := List.mem_map.mp hx
      have := (isCliCommand_mapAlias y).1
      rw [hnone y hy] at this
      rw [← Bool.not_eq_true, this]
      rintro ⟨_, h⟩; cases h

theorem spelled_exists : ∀ ws : List Str, ∃ pre rest cmds, ws = pre ++ rest ∧
    (∀ a ∈ pre, commandFor a = none) ∧ SpelledBy cmds rest
  | [] => ⟨[], [], [], rfl, by simp, rfl⟩
  | w :: ws => by
    obtain ⟨pre, rest, cmds, rfl, hp, hs⟩ := spelled_exists ws
    cases h : commandFor w with
    | none =>
      refine ⟨w :: pre, rest, cmds, rfl, ?_, hs⟩
      intro a ha
      rcases List.mem_cons.mp ha with rfl | ha
      · exact h
      · exact hp a ha
    | some n =>
      exact ⟨[], w :: (pre ++ rest), ⟨.text n, pre.map .text⟩ :: cmds, rfl, by simp,
        w, pre, rest, n, rfl, h, rfl, rfl, hp, hs⟩

/-- C49: the queued commands are exactly those spelled by the words, each with the words up to
the next command as its arguments; only words before the first command are dropped. -/
theorem C49_split {words : List Str} (hi : ∀ w ∈ words, w ∉ inheritedNames) (cmds : List CliCmd) :
    parseCommands words = cmds ↔
      ∃ pre rest, words = pre ++ rest ∧ (∀ a ∈ pre, commandFor a = none) ∧ SpelledBy cmds rest := by
  have key : ∀ pre rest cmds, words = pre ++ rest → (∀ a ∈ pre, commandFor a = none) →
      SpelledBy cmds rest → parseCommands words = cmds := by
    intro pre rest cmds he hp hs
    rw [parseCommands_segs, he, List.map_append, segs_append,
      spelled_segs cmds rest (fun w hw => hi w (by simp [he, hw])) hs]
    intro x hx
    obtain ⟨y, hy, rfl⟩ := List.mem_map.mp hx
    have := (isCliCommand_mapAlias y).1
    rw [hp y hy] at this
    rw [← Bool.not_eq_true, this]
    rintro ⟨_, h⟩; cases h
  constructor
  · intro h
    obtain ⟨pre, rest, cmds', he, hp, hs⟩ := spelled_exists words
    have := key pre rest cmds' he hp hs
    rw [← h, this]
    exact ⟨pre, rest, he, hp, hs⟩
  · rintro ⟨pre, rest, he, hp, hs⟩
    exact key pre rest cmds he hp hs

/-- C49: whatever the words are, the names in the queue are the commands among them, in order. -/
theorem C49_names (words : List Str) :
    (parseCommands words).map CliCmd.name = (words.filterMap commandFor).map CliWord.text := by
  rw [parseCommands_segs]
  induction words with
  | nil => rfl
  | cons w ws ih =>
    have h := isCliCommand_mapAlias w
    rw [List.map_cons, segs]
    cases hw : commandFor w with
    | none =>
      rw [hw] at h
      rw [if_neg (fun hc => by obtain ⟨_, e⟩ := h.1.mp hc; cases e)]
      rw [List.filterMap_cons_none hw]
      exact ih
    | some n =>
      rw [if_pos (h.1.mpr ⟨n, hw⟩), List.filterMap_cons_some hw, List.map_cons, List.map_cons,
        h.2.1 n hw]
      rw [ih]

/-- C49: without a recognised command nothing runs. -/
theorem C49_nothing {W : Type} (exec : CliCmd → W → W × List CliCmd × Bool) (fuel : Nat)
    (words : List Str) (w : W) (h : ∀ a ∈ words, commandFor a = none) :
    cliMain exec fuel (parseCommands words) w = some (.info, [], w) := by
  have h0 : parseCommands words = [] := by
    have h2 : words.filterMap commandFor = [] := List.filterMap_eq_nil_iff.mpr h
    have := C49_names words
    rw [h2] at this
    exact List.map_eq_nil_iff.mp this
  rw [h0]; rfl

/-- A word that is the name of an inherited member loses its text: this is why `C49_split`
excludes these names. -/
theorem C49_inherited_word :
    parseCommands [c!"build", c!"toString"] =
      [⟨.text c!"build", [.inherited c!"toString"]⟩] := by decide

theorem replaceChar_map (s : Str) :
    replaceChar '_' c!"-" s = s.map fun c => if c = '_' then '-' else c := by
  unfold replaceChar
  induction s with
  | nil => rfl
  | cons c s ih =>
    rw [List.flatMap_cons, ih, List.map_cons]
    by_cases h : c = '_'
    · simp [h]
    · simp [h]

theorem setsOption_iff (e n : Str) : SetsOption e n ↔
    startsWith e npmPrefix = true ∧ e ≠ npmPrefix ++ c!"loglevel" ∧ e.drop npmPrefix.length ≠ [] ∧
      n = replaceChar '_' c!"-" (e.drop npmPrefix.length) := by
  unfold SetsOption startsWith
  rw [List.isPrefixOf_iff_prefix]
  constructor
  · rintro ⟨r, rfl, h1, h2, h3⟩
    have : (c!"npm_config_" ++ r).drop npmPrefix.length = r := List.drop_left' rfl
    rw [this, replaceChar_map]
    refine ⟨⟨r, rfl⟩, ?_, h1, h3⟩
    intro e
    exact h2 (List.append_cancel_left e)
  · rintro ⟨⟨r, rfl⟩, h1, h2, h3⟩
    have : (npmPrefix ++ r).drop npmPrefix.length = r := List.drop_left' rfl
    rw [this] at h2 h3
    rw [replaceChar_map] at h3
    exact ⟨r, rfl, h2, fun e => h1 (by rw [e]), h3⟩

theorem npmStep_opts (st : List (Str × OptVal) × Option OptVal) (e : Str × Str) (n : Str) :
    (SetsOption e.1 n → aget (npmStep st e).1 n = some (.text e.2)) ∧
    (¬ SetsOption e.1 n → aget (npmStep st e).1 n = aget st.1 n) := by
  rw [setsOption_iff]
  unfold npmStep
  by_cases h1 : startsWith e.1 npmPrefix = false
  · rw [if_pos h1]; exact ⟨fun h => (by rw [h1] at h; cases h.1), fun _ => rfl⟩
  · rw [if_neg h1]
    have h1' : startsWith e.1 npmPrefix = true := by simpa using h1
    by_cases h2 : e.1 = npmPrefix ++ c!"loglevel"
    · rw [if_pos h2]; exact ⟨fun h => absurd h2 h.2.1, fun _ => rfl⟩
    · rw [if_neg h2]
      simp only
      by_cases h3 : e.1.drop npmPrefix.length ≠ []
      · rw [if_pos h3]
        simp only [aget_aset]
        constructor
        · rintro ⟨-, -, -, h⟩; rw [if_pos h]
        · intro h; rw [if_neg (fun he => h ⟨h1', h2, h3, he⟩)]
      · rw [if_neg h3]; exact ⟨fun h => absurd h.2.2.1 h3, fun _ => rfl⟩

theorem npm_fold_opts (env : List (Str × Str)) (st : List (Str × OptVal) × Option OptVal) (n : Str)
    (v : OptVal) :
    aget (env.foldl npmStep st).1 n = some v ↔
      (∃ a e x b, env = a ++ (e, x) :: b ∧ SetsOption e n ∧ v = .text x ∧
        ∀ p ∈ b, ¬ SetsOption p.1 n) ∨
      ((∀ p ∈ env, ¬ SetsOption p.1 n) ∧ aget st.1 n = some v) := by
  induction env generalizing st with
  | nil => simp
  | cons q env ih =>
    rw [List.foldl_cons, ih]
    constructor
    · rintro (⟨a, e, x, b, rfl, h⟩ | ⟨h1, h2⟩)
      · exact Or.inl ⟨q :: a, e, x, b, rfl, h⟩
      · by_cases hq : SetsOption q.1 n
        · rw [(npmStep_opts st q n).1 hq] at h2
          exact Or.inl ⟨[], q.1, q.2, env, rfl, hq, (Option.some.inj h2).symm, h1⟩
        · rw [(npmStep_opts st q n).2 hq] at h2
          refine Or.inr ⟨?_, h2⟩
          intro p hp
          rcases List.mem_cons.mp hp with rfl | hp
          · exact hq
          · exact h1 p hp
    · rintro (⟨a, e, x, b, he, h⟩ | ⟨h1, h2⟩)
      · cases a with
        | nil =>
          rw [List.nil_append] at he
          cases he
          refine Or.inr ⟨h.2.2, ?_⟩
          rw [(npmStep_opts st _ n).1 h.1, h.2.1]
        | cons r a =>
          rw [List.cons_append] at he
          cases he
          exact Or.inl ⟨a, e, x, b, rfl, h⟩
      · refine Or.inr ⟨fun p hp => h1 p (by simp [hp]), ?_⟩
        rw [(npmStep_opts st q n).2 (h1 q (by simp))]
        exact h2

theorem npmOptions_fst (env : List (Str × Str)) (opts : List (Str × OptVal)) (level : Option OptVal) :
    (npmOptions env opts level).1 = (env.foldl npmStep (opts, level)).1 := by
  unfold npmOptions
  simp only
  split
  · split <;> rfl
  · rfl

/-- C49: every `npm_config_` variable sets the option of its name, the last one in the order of
the environment if several set the same option; other options keep the value of the command
line.  (So the environment wins over the command line.) -/
theorem C49_env (env : List (Str × Str)) (opts : List (Str × OptVal)) (level : Option OptVal)
    (n : Str) (v : OptVal) :
    aget (npmOptions env opts level).1 n = some v ↔
      (∃ a e x b, env = a ++ (e, x) :: b ∧ SetsOption e n ∧ v = .text x ∧
        ∀ p ∈ b, ¬ SetsOption p.1 n) ∨
      ((∀ p ∈ env, ¬ SetsOption p.1 n) ∧ aget opts n = some v) := by
  rw [npmOptions_fst]; exact npm_fold_opts env (opts, level) n v

theorem not_sets_loglevel (e : Str) : ¬ SetsOption e c!"loglevel" := by
  rintro ⟨r, -, -, h, e⟩
  apply h
  have hmem : ∀ c ∈ r, c ≠ '_' := by
    intro c hc hu
    have : '-' ∈ r.map fun c => if c = '_' then '-' else c :=
      List.mem_map.mpr ⟨c, hc, by rw [if_pos hu]⟩
    rw [← e] at this
    exact absurd this (by decide)
  have : r.map (fun c => if c = '_' then '-' else c) = r := by
    conv_rhs => rw [← List.map_id r]
    apply List.map_congr_left
    intro c hc
    rw [if_neg (hmem c hc)]; rfl
  rw [this] at e
  exact e.symm

theorem npm_fold_level (env : List (Str × Str)) (st : List (Str × OptVal) × Option OptVal) :
    (env.foldl npmStep st).2 =
      match aget env.reverse c!"npm_config_loglevel" with
      | some x => some (.text x)
      | none => st.2 := by
  have hstep : ∀ st e, (npmStep st e).2 =
      if e.1 = c!"npm_config_loglevel" then some (.text e.2) else st.2 := by
    intro st e
    unfold npmStep
    by_cases h : e.1 = c!"npm_config_loglevel"
    · rw [if_pos h]
      have h1 : startsWith e.1 npmPrefix = true := by rw [h]; decide
      rw [if_neg (by rw [h1]; simp), if_pos (by rw [h]; rfl)]
    · rw [if_neg h]
      by_cases h1 : startsWith e.1 npmPrefix = false
      · rw [if_pos h1]
      · rw [if_neg h1, if_neg (fun e => h (by rw [e]; rfl))]
        simp only
        split <;> rfl
  have happ : ∀ (a b : List (Str × Str)) (k : Str), aget (a ++ b) k =
      match aget a k with | some v => some v | none => aget b k := by
    intro a b k
    induction a with
    | nil => rfl
    | cons p a ih =>
      obtain ⟨x, y⟩ := p
      simp only [List.cons_append, aget]
      by_cases h : x = k
      · rw [if_pos h, if_pos h]
      · rw [if_neg h, if_neg h]; exact ih
  induction env generalizing st with
  | nil => rfl
  | cons q env ih =>
    rw [List.foldl_cons, ih, List.reverse_cons, happ, hstep]
    cases aget env.reverse c!"npm_config_loglevel" with
    | some x => rfl
    | none =>
      obtain ⟨k, x⟩ := q
      simp only [aget]
      by_cases h : k = c!"npm_config_loglevel"
      · rw [if_pos h, if_pos h]
      · rw [if_neg h, if_neg h]

/-- C49: the level of the log is that of the command line, if it names one; else that of the
environment. -/
theorem C49_loglevel (env : List (Str × Str)) (opts : List (Str × OptVal)) (level : Option OptVal)
    (hn : (env.map Prod.fst).Nodup) :
    (∀ s, s ≠ [] → aget opts c!"loglevel" = some (.text s) →
      (npmOptions env opts level).2 = some (.text s)) ∧
    (aget opts c!"loglevel" = none → ∀ s, (c!"npm_config_loglevel", s) ∈ env →
      (npmOptions env opts level).2 = some (.text s)) ∧
    (aget opts c!"loglevel" = none → c!"npm_config_loglevel" ∉ env.map Prod.fst →
      (npmOptions env opts level).2 = level) := by
  have hget : aget (env.foldl npmStep (opts, level)).1 c!"loglevel" = aget opts c!"loglevel" := by
    cases h : aget opts c!"loglevel" with
    | some v =>
      exact (npm_fold_opts env (opts, level) c!"loglevel" v).mpr
        (Or.inr ⟨fun p _ => not_sets_loglevel p.1, h⟩)
    | none =>
      cases h' : aget (env.foldl npmStep (opts, level)).1 c!"loglevel" with
      | none => rfl
      | some v =>
        rcases (npm_fold_opts env (opts, level) c!"loglevel" v).mp h' with
          ⟨_, e, _, _, _, hs, _⟩ | ⟨_, h2⟩
        · exact absurd hs (not_sets_loglevel e)
        · rw [h] at h2; cases h2
  have hnr : (akeys env.reverse).Nodup := by
    unfold akeys; rw [List.map_reverse]; exact List.nodup_reverse.mpr hn
  refine ⟨?_, ?_, ?_⟩
  · intro s hs h
    unfold npmOptions
    simp only
    rw [hget, h]
    simp only
    rw [if_pos (by simp [OptVal.truthy, hs])]
  · intro h s hs
    unfold npmOptions
    simp only
    rw [hget, h]
    simp only
    rw [npm_fold_level, aget_of_mem hnr (List.mem_reverse.mpr hs)]
  · intro h hk
    unfold npmOptions
    simp only
    rw [hget, h]
    simp only
    rw [npm_fold_level]
    have : aget env.reverse c!"npm_config_loglevel" = none := by
      cases h : aget env.reverse c!"npm_config_loglevel" with
      | none => rfl
      | some v =>
        exact absurd (List.mem_map.mpr ⟨_, List.mem_reverse.mp (aget_some_mem h), rfl⟩) hk
    rw [this]

/-- The environment wins over the command line. -/
theorem C49_env_wins :
    aget (npmOptions [(c!"npm_config_python", c!"/env/python")]
      [(c!"python", .text c!"/given/python")] none).1 c!"python" =
      some (.text c!"/env/python") := by decide

example : parseCommands [c!"x", c!"rebuild", c!"a", c!"b", c!"ls", c!"rm", c!"v1"] =
    [⟨.text c!"rebuild", [.text c!"a", .text c!"b"]⟩, ⟨.text c!"list", []⟩,
      ⟨.text c!"remove", [.text c!"v1"]⟩] := by decide

example : ∀ w ∈ [c!"x", c!"rebuild", c!"a"], w ∉ inheritedNames := by decide

example : aget (npmOptions [(c!"npm_config_", c!"1"), (c!"npm_config_force_process_config", c!"true"),
    (c!"npm_config_loglevel", c!"silly"), (c!"PATH", c!"x")] [(c!"jobs", .text c!"4")] none).1
    c!"force-process-config" = some (.text c!"true") := by decide

/-! ### C50 -/

/-- C50: commands start in the order of the queue, what a command appends coming after all that
was already queued; the run ends well exactly when every command of the queue, appended ones
included, ran and succeeded; otherwise the last command started is the one that failed, and it
is the only one. -/
theorem C50_run {W : Type} (exec : CliCmd → W → W × List CliCmd × Bool) (fuel : Nat)
    (todo : List CliCmd) (w : W) {e : CliExit} {started : List CliCmd} {w' : W}
    (h : runQueue exec fuel todo w = some (e, started, w')) :
    ∃ log, History exec w log w' ∧ started = log.map (·.1) ∧
      ((e = .ok ∧ (∀ p ∈ log, p.2.2 = true) ∧ started = todo ++ log.flatMap (·.2.1)) ∨
       (e = .failed ∧ ∃ done last, log = done ++ [last] ∧ (∀ p ∈ done, p.2.2 = true) ∧
         last.2.2 = false ∧ started <+: todo ++ done.flatMap (·.2.1))) := by
  induction fuel generalizing todo w e started w' with
  | zero =>
    cases todo with
    | nil =>
      simp only [runQueue, Option.some.injEq, Prod.mk.injEq] at h
      obtain ⟨rfl, rfl, rfl⟩ := h
      exact ⟨[], rfl, rfl, Or.inl ⟨rfl, by simp, rfl⟩⟩
    | cons c todo => simp [runQueue] at h
  | succ fuel ih =>
    cases todo with
    | nil =>
      simp only [runQueue, Option.some.injEq, Prod.mk.injEq] at h
      obtain ⟨rfl, rfl, rfl⟩ := h
      exact ⟨[], rfl, rfl, Or.inl ⟨rfl, by simp, rfl⟩⟩
    | cons c todo =>
      unfold runQueue at h
      rcases hx : exec c w with ⟨w1, pushed, ok⟩
      rw [hx] at h
      cases ok with
      | false =>
        simp only [Option.some.injEq, Prod.mk.injEq] at h
        obtain ⟨rfl, rfl, rfl⟩ := h
        refine ⟨[(c, pushed, false)], ⟨w1, hx, rfl⟩, rfl, Or.inr ⟨rfl, [], _, rfl, by simp, rfl, ?_⟩⟩
        simp
      | true =>
        simp only at h
        cases hr : runQueue exec fuel (todo ++ pushed) w1 with
        | none => rw [hr] at h; cases h
        | some r =>
          obtain ⟨e1, s1, w2⟩ := r
          rw [hr] at h
          simp only [Option.some.injEq, Prod.mk.injEq] at h
          obtain ⟨rfl, rfl, rfl⟩ := h
          obtain ⟨log, hh, hs, hcase⟩ := ih _ _ hr
          refine ⟨(c, pushed, true) :: log, ⟨w1, hx, hh⟩, by rw [hs]; rfl, ?_⟩
          rcases hcase with ⟨h1, h2, h3⟩ | ⟨h1, done, last, h2, h3, h4, h5⟩
          · refine Or.inl ⟨h1, ?_, by rw [h3]; simp⟩
            intro p hp
            rcases List.mem_cons.mp hp with rfl | hp
            · rfl
            · exact h2 p hp
          · refine Or.inr ⟨h1, (c, pushed, true) :: done, last, by rw [h2]; rfl, ?_, h4, ?_⟩
            · intro p hp
              rcases List.mem_cons.mp hp with rfl | hp
              · rfl
              · exact h3 p hp
            · obtain ⟨r, hr⟩ := h5
              exact ⟨r, by rw [List.cons_append, hr]; simp⟩

/-- The number of commands a queue can lead to. -/
def cliWeight (c : CliCmd) : Nat :=
  if c.name = .text c!"rebuild" then 5
  else if c.name = .text c!"install" ∨ c.name = .text c!"configure" then 2 else 1

theorem cliPushes_weight (r : Option (List CliWord)) (c : CliCmd) :
    ((cliPushes r c).map cliWeight).sum < cliWeight c := by
  unfold cliPushes cliWeight
  by_cases h1 : c.name = .text c!"rebuild"
  · rw [if_pos h1, if_pos h1]
    simp only [rebuildPushes, List.map_cons, List.map_nil]
    decide
  · rw [if_neg h1, if_neg h1]
    by_cases h2 : c.name = .text c!"install" ∨ c.name = .text c!"configure"
    · rw [if_pos h2, if_pos h2]
      cases r with
      | none => decide
      | some a =>
        simp only [List.map_cons, List.map_nil]
        rw [if_neg (by decide), if_neg (by decide)]
        decide
    · rw [if_neg h2, if_neg h2]; decide

/-- C50: the run always ends, after at most five commands for each one queued. -/
theorem C50_ends {W : Type} (body : CliCmd → W → W × Option (List CliWord) × Bool)
    (todo : List CliCmd) (w : W) (fuel : Nat) (hf : 5 * todo.length ≤ fuel) :
    ∃ r, runQueue (gypExec body) fuel todo w = some r := by
  have key : ∀ fuel todo w, (todo.map cliWeight).sum ≤ fuel →
      ∃ r, runQueue (gypExec body) fuel todo w = some r := by
    intro fuel
    induction fuel with
    | zero =>
      intro todo w h
      cases todo with
      | nil => exact ⟨_, rfl⟩
      | cons c todo =>
        exfalso
        have := cliPushes_weight none c
        simp only [List.map_cons, List.sum_cons] at h
        omega
    | succ fuel ih =>
      intro todo w h
      cases todo with
      | nil => exact ⟨_, rfl⟩
      | cons c todo =>
        unfold runQueue
        rcases hx : gypExec body c w with ⟨w1, pushed, ok⟩
        cases ok with
        | false => exact ⟨_, rfl⟩
        | true =>
          simp only
          have hp : ∃ r, pushed = cliPushes r c := by
            unfold gypExec at hx
            simp only at hx
            by_cases hc : c.name = .text c!"rebuild"
            · rw [if_pos hc] at hx; exact ⟨_, (congrArg (·.2.1) hx).symm⟩
            · rw [if_neg hc] at hx; exact ⟨_, (congrArg (·.2.1) hx).symm⟩
          obtain ⟨r, rfl⟩ := hp
          have hw := cliPushes_weight r c
          obtain ⟨r', hr⟩ := ih (todo ++ cliPushes r c) w1 (by
            simp only [List.map_cons, List.sum_cons, List.map_append, List.sum_append] at h ⊢
            omega)
          rw [hr]; exact ⟨_, rfl⟩
  apply key
  have hle : ∀ l : List CliCmd, (l.map cliWeight).sum ≤ 5 * l.length := by
    intro l
    induction l with
    | nil => simp
    | cons c l ih =>
      have : cliWeight c ≤ 5 := by unfold cliWeight; split <;> [omega; split <;> omega]
      simp only [List.map_cons, List.sum_cons, List.length_cons]
      omega
  exact Nat.le_trans (hle todo) hf

/-- C50: a successful `rebuild` cleans, configures with the given arguments and builds, in this
order, after whatever else was queued. -/
theorem C50_rebuild {W : Type} (body : CliCmd → W → W × Option (List CliWord) × Bool)
    (args : List CliWord) (others : List CliCmd)
    (hothers : ∀ c ∈ others, c.name = .text c!"list" ∨ c.name = .text c!"remove" ∨
      c.name = .text c!"clean" ∨ c.name = .text c!"build")
    (fuel : Nat) (w : W) {started : List CliCmd} {w' : W}
    (h : runQueue (gypExec body) fuel (⟨.text c!"rebuild", args⟩ :: others) w =
      some (.ok, started, w')) :
    ∃ removal, started = ⟨.text c!"rebuild", args⟩ :: (others ++
      [⟨.text c!"clean", []⟩, ⟨.text c!"configure", args⟩, ⟨.text c!"build", []⟩] ++ removal) ∧
      (removal = [] ∨ ∃ a, removal = [⟨.text c!"remove", a⟩]) := by
  -- running commands that append nothing
  have hplain : ∀ (c : CliCmd), (c.name = .text c!"list" ∨ c.name = .text c!"remove" ∨
      c.name = .text c!"clean" ∨ c.name = .text c!"build") → ∀ r, cliPushes r c = [] := by
    intro c hc r
    unfold cliPushes
    rw [if_neg, if_neg]
    · rintro (h | h) <;> rcases hc with h' | h' | h' | h' <;> rw [h] at h' <;> exact absurd h' (by decide)
    · intro h; rcases hc with h' | h' | h' | h' <;> rw [h] at h' <;> exact absurd h' (by decide)
  have hstep : ∀ fuel c todo w started w',
      runQueue (gypExec body) fuel (c :: todo) w = some (.ok, started, w') →
      ∃ fuel' r w1 s, started = c :: s ∧
        runQueue (gypExec body) fuel' (todo ++ cliPushes r c) w1 = some (.ok, s, w') := by
    intro fuel c todo w started w' h
    cases fuel with
    | zero => simp [runQueue] at h
    | succ fuel =>
      unfold runQueue at h
      rcases hx : gypExec body c w with ⟨w1, pushed, ok⟩
      have hp : pushed = cliPushes (body c w).2.1 c := by
        unfold gypExec at hx
        simp only at hx
        by_cases hc : c.name = .text c!"rebuild"
        · rw [if_pos hc] at hx; exact (congrArg (·.2.1) hx).symm
        · rw [if_neg hc] at hx; exact (congrArg (·.2.1) hx).symm
      rw [hx] at h
      cases ok with
      | false => simp at h
      | true =>
        simp only at h
        cases hr : runQueue (gypExec body) fuel (todo ++ pushed) w1 with
        | none => rw [hr] at h; cases h
        | some r =>
          obtain ⟨e1, s1, w2⟩ := r
          rw [hr] at h
          simp only [Option.some.injEq, Prod.mk.injEq] at h
          obtain ⟨rfl, rfl, rfl⟩ := h
          exact ⟨fuel, (body c w).2.1, w1, s1, rfl, hp ▸ hr⟩
  have hskip : ∀ (l : List CliCmd), (∀ c ∈ l, c.name = .text c!"list" ∨ c.name = .text c!"remove" ∨
      c.name = .text c!"clean" ∨ c.name = .text c!"build") → ∀ fuel todo w started w',
      runQueue (gypExec body) fuel (l ++ todo) w = some (.ok, started, w') →
      ∃ fuel' w1 s, started = l ++ s ∧
        runQueue (gypExec body) fuel' todo w1 = some (.ok, s, w') := by
    intro l
    induction l with
    | nil => intro _ fuel todo w started w' h; exact ⟨fuel, w, started, rfl, h⟩
    | cons c l ih =>
      intro hl fuel todo w started w' h
      obtain ⟨f1, r, w1, s, rfl, h1⟩ := hstep fuel c (l ++ todo) w started w' h
      rw [hplain c (hl c (by simp)) r, List.append_nil] at h1
      obtain ⟨f2, w2, s2, rfl, h2⟩ := ih (fun d hd => hl d (by simp [hd])) _ _ _ _ _ h1
      exact ⟨f2, w2, s2, rfl, h2⟩
  obtain ⟨f1, r1, w1, s1, rfl, h1⟩ := hstep _ _ _ _ _ _ h
  have e1 : cliPushes r1 ⟨.text c!"rebuild", args⟩ =
      [⟨.text c!"clean", []⟩, ⟨.text c!"configure", args⟩, ⟨.text c!"build", []⟩] := by
    unfold cliPushes; rw [if_pos rfl]; rfl
  rw [e1] at h1
  obtain ⟨f2, w2, s2, rfl, h2⟩ := hskip others hothers _ _ _ _ _ h1
  obtain ⟨f3, w3, s3, rfl, h3⟩ := hskip [⟨.text c!"clean", []⟩] (by decide) _
    [⟨.text c!"configure", args⟩, ⟨.text c!"build", []⟩] _ _ _ h2
  obtain ⟨f4, r4, w4, s4, rfl, h4⟩ := hstep _ _ _ _ _ _ h3
  have e4 : cliPushes r4 ⟨.text c!"configure", args⟩ = match r4 with
      | some args => [⟨.text c!"remove", args⟩]
      | none => [] := by
    unfold cliPushes; rw [if_neg (by simp), if_pos (Or.inr rfl)]; cases r4 <;> rfl
  rw [e4] at h4
  obtain ⟨f5, w5, s5, rfl, h5⟩ := hskip [⟨.text c!"build", []⟩] (by decide) _ _ _ _ _ h4
  have hnil : ∀ f w s w', runQueue (gypExec body) f [] w = some (.ok, s, w') → s = [] := by
    intro f w s w' h
    cases f <;> · simp only [runQueue, Option.some.injEq, Prod.mk.injEq] at h; exact h.2.1.symm
  cases r4 with
  | none =>
    have := hnil _ _ _ _ h5
    exact ⟨[], by rw [this]; simp, Or.inl rfl⟩
  | some a =>
    obtain ⟨f6, w6, s6, rfl, h6⟩ := hskip [⟨.text c!"remove", a⟩] (by intro c hc; rw [List.mem_singleton.mp hc]; exact Or.inr (Or.inl rfl)) _ [] _ _ _
      (by simpa using h5)
    have := hnil _ _ _ _ h6
    exact ⟨[⟨.text c!"remove", a⟩], by rw [this]; simp, Or.inr ⟨a, rfl⟩⟩

/-- A world that counts commands and in which `build` fails. -/
def cliSample (c : CliCmd) (w : Nat) : Nat × Option (List CliWord) × Bool :=
  (w + 1, none, decide (c.name ≠ .text c!"build"))

example : runQueue (gypExec cliSample) 20
    [⟨.text c!"rebuild", [.text c!"x"]⟩, ⟨.text c!"list", []⟩] 0 =
    some (.failed, [⟨.text c!"rebuild", [.text c!"x"]⟩, ⟨.text c!"list", []⟩, ⟨.text c!"clean", []⟩,
      ⟨.text c!"configure", [.text c!"x"]⟩, ⟨.text c!"build", []⟩], 5) := by decide

example : runQueue (gypExec cliSample) 20 [⟨.text c!"clean", []⟩, ⟨.text c!"list", []⟩] 0 =
    some (.ok, [⟨.text c!"clean", []⟩, ⟨.text c!"list", []⟩], 2) := by decide

end Gyp
