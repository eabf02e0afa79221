import Verif.Proofs.MakeHeader
/-
What the canned recipe expands to.
-/
namespace Gyp
open Spec

set_option linter.unusedSimpArgs false

theorem replaceStr_one (a : Char) (x s : Str) :
    replaceStr [a] x s = s.flatMap fun c => if c = a then x else [c] := by
  induction s with
  | nil => rw [replaceStr]; rfl
  | cons c s ih =>
    rw [replaceStr]
    by_cases h : c = a
    · subst h
      simp [ih, List.isPrefixOf]
    · have : (List.isPrefixOf [a] (c :: s)) = false := by
        simp [List.isPrefixOf, Ne.symm h]
      simp [this, h, ih]

section
variable (look : Str → List Str → Str) (given : List Str) (a r : MkExp) (s : Str)

theorem value_nil : valueIn look given .nil = [] := rfl
theorem value_lit : valueIn look given (.lit s r) = s ++ valueIn look given r := rfl
theorem value_ref : valueIn look given (.ref a r) = look (valueIn look given a) given ++ valueIn look given r := rfl
theorem value_call : valueIn look given (.fn c!"call" a r) =
    look (stripText ((valuesIn look given a).headD [])) ((valuesIn look given a).drop 1) ++ valueIn look given r := rfl
theorem value_subst : valueIn look given (.fn c!"subst" a r) =
    functionResult c!"subst" (valuesIn look given a) ++ valueIn look given r := rfl
theorem value_findstring : valueIn look given (.fn c!"findstring" a r) =
    functionResult c!"findstring" (valuesIn look given a) ++ valueIn look given r := rfl
theorem value_filterout : valueIn look given (.fn c!"filter-out" a r) =
    functionResult c!"filter-out" (valuesIn look given a) ++ valueIn look given r := rfl
theorem value_word : valueIn look given (.fn c!"word" a r) =
    functionResult c!"word" (valuesIn look given a) ++ valueIn look given r := rfl
theorem value_dir : valueIn look given (.fn c!"dir" a r) =
    functionResult c!"dir" (valuesIn look given a) ++ valueIn look given r := rfl
theorem value_notdir : valueIn look given (.fn c!"notdir" a r) =
    functionResult c!"notdir" (valuesIn look given a) ++ valueIn look given r := rfl
theorem value_if : valueIn look given (.fn c!"if" a r) =
    functionResult c!"if" (valuesIn look given a) ++ valueIn look given r := rfl
theorem value_or : valueIn look given (.fn c!"or" a r) =
    functionResult c!"or" (valuesIn look given a) ++ valueIn look given r := rfl
theorem value_and : valueIn look given (.fn c!"and" a r) =
    functionResult c!"and" (valuesIn look given a) ++ valueIn look given r := rfl
theorem values_nil : valuesIn look given .nil = [] := rfl
theorem values_arg : valuesIn look given (.arg a r) = valueIn look given a :: valuesIn look given r := rfl

end

section
variable {flavor : Str} {vals : Str → Str} {n : Nat} {given : List Str} {name : Str}

theorem look_def {e : MkExp} (h1 : givenArg given name = none) (h2 : headerDefs flavor name = some e) :
    lookUp (headerDefs flavor) vals (n + 1) name given = valueIn (lookUp (headerDefs flavor) vals n) given e := by
  rw [lookUp, h1]
  simp only [h2]

theorem look_val (h1 : givenArg given name = none) (h2 : headerDefs flavor name = none) :
    lookUp (headerDefs flavor) vals n name given = vals name := by
  rw [lookUp.eq_def]
  simp only [h1, h2]

theorem look_arg {x : Str} (h1 : givenArg given name = some x) :
    lookUp (headerDefs flavor) vals n name given = x := by
  rw [lookUp.eq_def]
  simp only [h1]

theorem headerDefs_none (h : name ∉
      [c!"space", c!"replace_spaces", c!"unreplace_spaces", c!"dirx", c!"depfile", c!"escape_quotes",
       c!"escape_vars", c!"exact_echo", c!"command_changed", c!"prereq_changed", c!"fixup_dep", c!"do_cmd"]) :
    headerDefs flavor name = none := by
  unfold headerDefs macroDefs
  rw [List.lookup_eq_none_iff.mpr]
  · rfl
  · intro p hp
    rw [← header_keys flavor] at h
    rw [bne_iff_ne]
    intro e
    exact h (e ▸ List.mem_map_of_mem hp)

theorem headerDefs_cmd (x : Str) : headerDefs flavor (c!"cmd_" ++ x) = none := by
  apply headerDefs_none
  simp

theorem headerDefs_quiet (x : Str) : headerDefs flavor (c!"quiet_cmd_" ++ x) = none := by
  apply headerDefs_none
  simp

/-- What is known of the variables of the header. -/
structure HeaderVals (vals : Str → Str) : Prop where
  empty : vals c!"empty" = []
  quiet : vals c!"quiet" = [] ∨ vals c!"quiet" = c!"quiet_"

variable (hv : HeaderVals vals)
include hv

theorem space_value : lookUp (headerDefs flavor) vals (n + 1) c!"space" given = [' '] := by
  rw [look_def rfl (headerDefs_space flavor)]
  simp only [spaceExp, value_nil, value_lit, value_ref, value_call, value_subst, value_findstring, value_filterout, value_word, value_dir, value_notdir, value_if, value_or, value_and, values_nil, values_arg, List.append_nil, List.headD_cons, List.drop_succ_cons, List.drop_zero]
  rw [look_val rfl (headerDefs_none (by decide)), hv.empty]
  rfl

theorem replace_value (x : Str) :
    lookUp (headerDefs flavor) vals (n + 2) c!"replace_spaces" [x] = replaceStr [' '] ['?'] x := by
  rw [look_def rfl (headerDefs_replace_spaces flavor)]
  simp only [replaceSpacesExp, value_nil, value_lit, value_ref, value_call, value_subst, value_findstring, value_filterout, value_word, value_dir, value_notdir, value_if, value_or, value_and, values_nil, values_arg, List.append_nil, List.headD_cons, List.drop_succ_cons, List.drop_zero]
  rw [space_value hv, look_arg (x := x) (name := c!"1") rfl]
  rfl

theorem unreplace_value (x : Str) :
    lookUp (headerDefs flavor) vals (n + 2) c!"unreplace_spaces" [x] = replaceStr ['?'] [' '] x := by
  rw [look_def rfl (headerDefs_unreplace_spaces flavor)]
  simp only [unreplaceSpacesExp, value_nil, value_lit, value_ref, value_call, value_subst, value_findstring, value_filterout, value_word, value_dir, value_notdir, value_if, value_or, value_and, values_nil, values_arg, List.append_nil, List.headD_cons, List.drop_succ_cons, List.drop_zero]
  rw [space_value hv, look_arg (x := x) (name := c!"1") rfl]
  rfl

theorem dirx_value (x : Str) :
    lookUp (headerDefs flavor) vals (n + 3) c!"dirx" [x] =
      replaceStr ['?'] [' '] (joinWith [' '] ((makeWords (replaceStr [' '] ['?'] x)).map dirPart)) := by
  rw [look_def rfl (headerDefs_dirx flavor)]
  simp only [dirxExp, value_nil, value_lit, value_ref, value_call, value_subst, value_findstring, value_filterout, value_word, value_dir, value_notdir, value_if, value_or, value_and, values_nil, values_arg, List.append_nil, List.headD_cons, List.drop_succ_cons, List.drop_zero]
  rw [look_arg (x := x) (name := c!"1") rfl]
  rw [show stripText c!"replace_spaces" = c!"replace_spaces" from rfl,
    show stripText c!"unreplace_spaces" = c!"unreplace_spaces" from rfl, replace_value hv, unreplace_value hv]
  rfl

theorem depfile_value :
    lookUp (headerDefs flavor) vals (n + 3) c!"depfile" given =
      vals c!"depsdir" ++ (c!"/" ++ (replaceStr [' '] ['?'] (vals c!"@") ++ c!".d")) := by
  rw [look_def rfl (headerDefs_depfile flavor)]
  simp only [depfileExp, value_nil, value_lit, value_ref, value_call, value_subst, value_findstring, value_filterout, value_word, value_dir, value_notdir, value_if, value_or, value_and, values_nil, values_arg, List.append_nil, List.headD_cons, List.drop_succ_cons, List.drop_zero]
  rw [look_val (name := c!"depsdir") rfl (headerDefs_none (by decide)),
    look_val (name := c!"@") rfl (headerDefs_none (by decide)),
    show stripText c!"replace_spaces" = c!"replace_spaces" from rfl, replace_value hv]

omit hv in
theorem quotes_value (x : Str) :
    lookUp (headerDefs flavor) vals (n + 1) c!"escape_quotes" [x] = replaceStr ['\''] c!"'\\''" x := by
  rw [look_def rfl (headerDefs_escape_quotes flavor)]
  simp only [escapeQuotesExp, value_nil, value_lit, value_ref, value_call, value_subst, value_findstring, value_filterout, value_word, value_dir, value_notdir, value_if, value_or, value_and, values_nil, values_arg, List.append_nil, List.headD_cons, List.drop_succ_cons, List.drop_zero]
  rw [look_arg (x := x) (name := c!"1") rfl]
  rfl

omit hv in
theorem vars_value (x : Str) :
    lookUp (headerDefs flavor) vals (n + 1) c!"escape_vars" [x] = replaceStr ['$'] c!"$$" x := by
  rw [look_def rfl (headerDefs_escape_vars flavor)]
  simp only [escapeVarsExp, value_nil, value_lit, value_ref, value_call, value_subst, value_findstring, value_filterout, value_word, value_dir, value_notdir, value_if, value_or, value_and, values_nil, values_arg, List.append_nil, List.headD_cons, List.drop_succ_cons, List.drop_zero]
  rw [look_arg (x := x) (name := c!"1") rfl]
  rfl

omit hv in
theorem echo_value (x : Str) :
    lookUp (headerDefs flavor) vals (n + 2) c!"exact_echo" [x] =
      c!"printf '%s\\n' '" ++ (replaceStr ['\''] c!"'\\''" x ++ c!"'") := by
  rw [look_def rfl (headerDefs_exact_echo flavor)]
  simp only [exactEchoExp, value_nil, value_lit, value_ref, value_call, value_subst, value_findstring, value_filterout, value_word, value_dir, value_notdir, value_if, value_or, value_and, values_nil, values_arg, List.append_nil, List.headD_cons, List.drop_succ_cons, List.drop_zero]
  rw [look_arg (x := x) (name := c!"1") rfl, show stripText c!"escape_quotes" = c!"escape_quotes" from rfl, quotes_value]

theorem changed_value (cmd : Str) (rest : List Str) :
    lookUp (headerDefs flavor) vals (n + 3) c!"command_changed" (cmd :: rest) =
      functionResult c!"or"
        [makeSubst (vals (c!"cmd_" ++ cmd)) [] (vals (c!"cmd_" ++ replaceStr [' '] ['?'] (vals c!"@"))),
         makeSubst (vals (c!"cmd_" ++ replaceStr [' '] ['?'] (vals c!"@"))) [] (vals (c!"cmd_" ++ cmd))] := by
  rw [look_def rfl (headerDefs_command_changed flavor)]
  simp only [commandChangedExp, value_nil, value_lit, value_ref, value_call, value_subst, value_findstring, value_filterout, value_word, value_dir, value_notdir, value_if, value_or, value_and, values_nil, values_arg, List.append_nil, List.headD_cons, List.drop_succ_cons, List.drop_zero]
  rw [look_val (name := c!"@") rfl (headerDefs_none (by decide)),
    show stripText c!"replace_spaces" = c!"replace_spaces" from rfl, replace_value hv,
    look_arg (x := cmd) (name := c!"1") rfl, look_val rfl (headerDefs_cmd _), look_val rfl (headerDefs_cmd _)]
  rfl

omit hv in
theorem prereq_value :
    lookUp (headerDefs flavor) vals (n + 1) c!"prereq_changed" given =
      filterOut c!"FORCE_DO_CMD" (filterOut (vals c!"|") (vals c!"?")) := by
  rw [look_def rfl (headerDefs_prereq_changed flavor)]
  simp only [prereqChangedExp, value_nil, value_lit, value_ref, value_call, value_subst, value_findstring, value_filterout, value_word, value_dir, value_notdir, value_if, value_or, value_and, values_nil, values_arg, List.append_nil, List.headD_cons, List.drop_succ_cons, List.drop_zero]
  rw [look_val (name := c!"|") rfl (headerDefs_none (by decide)),
    look_val (name := c!"?") rfl (headerDefs_none (by decide))]
  rfl

/-- The name of the file with what is known of an output. -/
def depfileOf (vals : Str → Str) : Str :=
  vals c!"depsdir" ++ (c!"/" ++ (replaceStr [' '] ['?'] (vals c!"@") ++ c!".d"))

/-- What is recorded for an output. -/
def recordOf (vals : Str → Str) (command : Str) : Str :=
  replaceStr ['$'] c!"$$" (c!"cmd_" ++ (replaceStr [' '] ['?'] (vals c!"@") ++ (c!" := " ++ command)))

/-- Text in single quotes. -/
def echoOf (x : Str) : Str := c!"printf '%s\\n' '" ++ (replaceStr ['\''] c!"'\\''" x ++ c!"'")

/-- The recipe, if something has changed. -/
def doCmdLines (k : Nat) (vals : Str → Str) (fixup : Str) (cmd : Str) (dep : Str) : Str :=
  let new := vals (c!"cmd_" ++ cmd)
  c!"\n  @" ++ (echoOf (c!"  " ++ vals (vals c!"quiet" ++ (c!"cmd_" ++ cmd))) ++
    (c!"\n  @mkdir -p \"" ++
      (replaceStr ['?'] [' '] (joinWith [' '] ((makeWords (replaceStr [' '] ['?'] (vals c!"@"))).map dirPart)) ++
      (c!"\" \"" ++ (joinWith [' '] ((makeWords (depfileOf vals)).map dirPart) ++
      (c!"\"\n  " ++
      (functionResult c!"if" [functionResult c!"findstring" [c!"flock", functionResult c!"word" [natStr k, new]],
        c!"\n    @" ++ (new ++ (c!"\n    @echo \"  " ++ (vals (c!"quiet_cmd_" ++ cmd) ++ c!": Finished\""))),
        c!"\n    @" ++ (new ++ c!"\n  ")] ++
      (c!"\n  @" ++ (echoOf (recordOf vals new) ++ (c!" > " ++ (depfileOf vals ++
      (c!"\n  @" ++ (functionResult c!"if" [dep, fixup] ++ c!"\n  \n")))))))))))))

theorem doCmd_value {cmd dep : Str} :
    lookUp (headerDefs flavor) vals (n + 6) c!"do_cmd" [cmd, dep] =
      functionResult c!"if"
        [functionResult c!"or" [lookUp (headerDefs flavor) vals (n + 5) c!"command_changed" [cmd, dep],
          lookUp (headerDefs flavor) vals (n + 5) c!"prereq_changed" [cmd, dep]],
         doCmdLines (flockIndex flavor) vals (lookUp (headerDefs flavor) vals (n + 5) c!"fixup_dep" [cmd, dep]) cmd dep] := by
  rw [look_def rfl (headerDefs_do_cmd flavor)]
  simp only [doCmdExp, value_nil, value_lit, value_ref, value_call, value_subst, value_findstring, value_filterout, value_word, value_dir, value_notdir, value_if, value_or, value_and, values_nil, values_arg, List.append_nil, List.headD_cons, List.drop_succ_cons, List.drop_zero]
  simp only [show stripText c!"replace_spaces" = c!"replace_spaces" from rfl, show stripText c!"exact_echo" = c!"exact_echo" from rfl,
    show stripText c!"dirx" = c!"dirx" from rfl, show stripText c!"escape_vars" = c!"escape_vars" from rfl]
  rw [look_arg (x := cmd) (name := c!"1") rfl, look_arg (x := dep) (name := c!"2") rfl, look_arg (x := []) (name := c!"3") rfl,
    look_val (name := c!"@") rfl (headerDefs_none (by decide)), replace_value hv, dirx_value hv, depfile_value hv,
    look_val (name := c!"cmd_" ++ cmd) rfl (headerDefs_cmd _), look_val (name := c!"quiet_cmd_" ++ cmd) rfl (headerDefs_quiet _),
    vars_value, echo_value, echo_value, look_val (name := c!"quiet") rfl (headerDefs_none (by decide))]
  have hq : ∀ g, lookUp (headerDefs flavor) vals (n + 5) (vals c!"quiet" ++ (c!"cmd_" ++ cmd)) g =
      vals (vals c!"quiet" ++ (c!"cmd_" ++ cmd)) := by
    intro g
    rcases hv.quiet with h | h <;> rw [h]
    · exact look_val rfl (headerDefs_cmd _)
    · exact look_val rfl (headerDefs_quiet _)
  rw [hq]
  rfl

end

end Gyp
