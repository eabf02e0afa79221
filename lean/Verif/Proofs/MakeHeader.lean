import Verif.Spec.MakeRemake
import Verif.Model.MakeHeader
import Verif.Proofs.MakeActions
/-
The values of the texts of the header.
-/
namespace Gyp
open Spec

/-- The definitions of the header. -/
abbrev headerDefs (flavor : Str) : Str → Option MkExp := macroDefs headerMacros (headerDefines flavor)

theorem flockIndex_cases (flavor : Str) : flockIndex flavor = 1 ∨ flockIndex flavor = 2 := by
  unfold flockIndex
  split <;> simp

theorem header_keys (flavor : Str) :
    (headerMacros.filterMap laterAssignment ++ headerDefines flavor).map (·.1) =
      [c!"space", c!"replace_spaces", c!"unreplace_spaces", c!"dirx", c!"depfile", c!"escape_quotes",
       c!"escape_vars", c!"exact_echo", c!"command_changed", c!"prereq_changed", c!"fixup_dep", c!"do_cmd"] := by
  have h : (headerMacros.filterMap laterAssignment).map (·.1) =
      [c!"space", c!"replace_spaces", c!"unreplace_spaces", c!"dirx", c!"depfile", c!"escape_quotes",
       c!"escape_vars", c!"exact_echo", c!"command_changed", c!"prereq_changed"] := by decide +kernel
  rw [List.map_append, h]
  rfl

def spaceExp : MkExp :=
  (.ref (.lit c!"empty" .nil) (.lit c!" " (.ref (.lit c!"empty" .nil) .nil)))

theorem headerDefs_space (flavor : Str) : headerDefs flavor c!"space" = some spaceExp := by
  have h : macroDefs headerMacros [(c!"fixup_dep", fixupDep)] c!"space" = some spaceExp := by
    decide +kernel
  rw [← h]
  unfold headerDefs macroDefs headerDefines
  rw [List.lookup_append, List.lookup_append]
  rfl

def replaceSpacesExp : MkExp :=
  (.fn c!"subst" (.arg (.ref (.lit c!"space" .nil) .nil) (.arg (.lit c!"?" .nil) (.arg (.ref (.lit c!"1" .nil) .nil) .nil))) .nil)

theorem headerDefs_replace_spaces (flavor : Str) : headerDefs flavor c!"replace_spaces" = some replaceSpacesExp := by
  have h : macroDefs headerMacros [(c!"fixup_dep", fixupDep)] c!"replace_spaces" = some replaceSpacesExp := by
    decide +kernel
  rw [← h]
  unfold headerDefs macroDefs headerDefines
  rw [List.lookup_append, List.lookup_append]
  rfl

def unreplaceSpacesExp : MkExp :=
  (.fn c!"subst" (.arg (.lit c!"?" .nil) (.arg (.ref (.lit c!"space" .nil) .nil) (.arg (.ref (.lit c!"1" .nil) .nil) .nil))) .nil)

theorem headerDefs_unreplace_spaces (flavor : Str) : headerDefs flavor c!"unreplace_spaces" = some unreplaceSpacesExp := by
  have h : macroDefs headerMacros [(c!"fixup_dep", fixupDep)] c!"unreplace_spaces" = some unreplaceSpacesExp := by
    decide +kernel
  rw [← h]
  unfold headerDefs macroDefs headerDefines
  rw [List.lookup_append, List.lookup_append]
  rfl

def dirxExp : MkExp :=
  (.fn c!"call" (.arg (.lit c!"unreplace_spaces" .nil) (.arg (.fn c!"dir" (.arg (.fn c!"call" (.arg (.lit c!"replace_spaces" .nil) (.arg (.ref (.lit c!"1" .nil) .nil) .nil)) .nil) .nil) .nil) .nil)) .nil)

theorem headerDefs_dirx (flavor : Str) : headerDefs flavor c!"dirx" = some dirxExp := by
  have h : macroDefs headerMacros [(c!"fixup_dep", fixupDep)] c!"dirx" = some dirxExp := by
    decide +kernel
  rw [← h]
  unfold headerDefs macroDefs headerDefines
  rw [List.lookup_append, List.lookup_append]
  rfl

def depfileExp : MkExp :=
  (.ref (.lit c!"depsdir" .nil) (.lit c!"/" (.fn c!"call" (.arg (.lit c!"replace_spaces" .nil) (.arg (.ref (.lit c!"@" .nil) .nil) .nil)) (.lit c!".d" .nil))))

theorem headerDefs_depfile (flavor : Str) : headerDefs flavor c!"depfile" = some depfileExp := by
  have h : macroDefs headerMacros [(c!"fixup_dep", fixupDep)] c!"depfile" = some depfileExp := by
    decide +kernel
  rw [← h]
  unfold headerDefs macroDefs headerDefines
  rw [List.lookup_append, List.lookup_append]
  rfl

def escapeQuotesExp : MkExp :=
  (.fn c!"subst" (.arg (.lit c!"'" .nil) (.arg (.lit c!"'\\''" .nil) (.arg (.ref (.lit c!"1" .nil) .nil) .nil))) .nil)

theorem headerDefs_escape_quotes (flavor : Str) : headerDefs flavor c!"escape_quotes" = some escapeQuotesExp := by
  have h : macroDefs headerMacros [(c!"fixup_dep", fixupDep)] c!"escape_quotes" = some escapeQuotesExp := by
    decide +kernel
  rw [← h]
  unfold headerDefs macroDefs headerDefines
  rw [List.lookup_append, List.lookup_append]
  rfl

def escapeVarsExp : MkExp :=
  (.fn c!"subst" (.arg (.lit c!"$" .nil) (.arg (.lit c!"$$" .nil) (.arg (.ref (.lit c!"1" .nil) .nil) .nil))) .nil)

theorem headerDefs_escape_vars (flavor : Str) : headerDefs flavor c!"escape_vars" = some escapeVarsExp := by
  have h : macroDefs headerMacros [(c!"fixup_dep", fixupDep)] c!"escape_vars" = some escapeVarsExp := by
    decide +kernel
  rw [← h]
  unfold headerDefs macroDefs headerDefines
  rw [List.lookup_append, List.lookup_append]
  rfl

def exactEchoExp : MkExp :=
  (.lit c!"printf '%s\\n' '" (.fn c!"call" (.arg (.lit c!"escape_quotes" .nil) (.arg (.ref (.lit c!"1" .nil) .nil) .nil)) (.lit c!"'" .nil)))

theorem headerDefs_exact_echo (flavor : Str) : headerDefs flavor c!"exact_echo" = some exactEchoExp := by
  have h : macroDefs headerMacros [(c!"fixup_dep", fixupDep)] c!"exact_echo" = some exactEchoExp := by
    decide +kernel
  rw [← h]
  unfold headerDefs macroDefs headerDefines
  rw [List.lookup_append, List.lookup_append]
  rfl

def commandChangedExp : MkExp :=
  (.fn c!"or" (.arg (.fn c!"subst" (.arg (.ref (.lit c!"cmd_" (.ref (.lit c!"1" .nil) .nil)) .nil) (.arg .nil (.arg (.ref (.lit c!"cmd_" (.fn c!"call" (.arg (.lit c!"replace_spaces" .nil) (.arg (.ref (.lit c!"@" .nil) .nil) .nil)) .nil)) .nil) .nil))) .nil) (.arg (.fn c!"subst" (.arg (.ref (.lit c!"cmd_" (.fn c!"call" (.arg (.lit c!"replace_spaces" .nil) (.arg (.ref (.lit c!"@" .nil) .nil) .nil)) .nil)) .nil) (.arg .nil (.arg (.ref (.lit c!"cmd_" (.ref (.lit c!"1" .nil) .nil)) .nil) .nil))) .nil) .nil)) .nil)

theorem headerDefs_command_changed (flavor : Str) : headerDefs flavor c!"command_changed" = some commandChangedExp := by
  have h : macroDefs headerMacros [(c!"fixup_dep", fixupDep)] c!"command_changed" = some commandChangedExp := by
    decide +kernel
  rw [← h]
  unfold headerDefs macroDefs headerDefines
  rw [List.lookup_append, List.lookup_append]
  rfl

def prereqChangedExp : MkExp :=
  (.fn c!"filter-out" (.arg (.lit c!"FORCE_DO_CMD" .nil) (.arg (.fn c!"filter-out" (.arg (.ref (.lit c!"|" .nil) .nil) (.arg (.ref (.lit c!"?" .nil) .nil) .nil)) .nil) .nil)) .nil)

theorem headerDefs_prereq_changed (flavor : Str) : headerDefs flavor c!"prereq_changed" = some prereqChangedExp := by
  have h : macroDefs headerMacros [(c!"fixup_dep", fixupDep)] c!"prereq_changed" = some prereqChangedExp := by
    decide +kernel
  rw [← h]
  unfold headerDefs macroDefs headerDefines
  rw [List.lookup_append, List.lookup_append]
  rfl

def fixupDepExp : MkExp :=
  (.lit c!"# The depfile may not exist if the input file didn't have any #includes.\ntouch " (.ref (.lit c!"depfile" .nil) (.lit c!".raw\n# Fixup path as in (1).\nsed -e \"s|^" (.fn c!"notdir" (.arg (.ref (.lit c!"@" .nil) .nil) .nil) (.lit c!"|" (.ref (.lit c!"@" .nil) (.lit c!"|\" " (.ref (.lit c!"depfile" .nil) (.lit c!".raw >> " (.ref (.lit c!"depfile" .nil) (.lit c!"\n# Add extra rules as in (2).\n# We remove slashes and replace spaces with new lines;\n# remove blank lines;\n# delete the first line and append a colon to the remaining lines.\nsed -e 's|\\\\||' -e 'y| |\\n|' " (.ref (.lit c!"depfile" .nil) (.lit c!".raw |\\\n  grep -v '^$'                             |\\\n  sed -e 1d -e 's|$|:|'                     \\\n    >> " (.ref (.lit c!"depfile" .nil) (.lit c!"\nrm " (.ref (.lit c!"depfile" .nil) (.lit c!".raw" .nil)))))))))))))))))

theorem headerDefs_fixup_dep (flavor : Str) : headerDefs flavor c!"fixup_dep" = some fixupDepExp := by
  have h : macroDefs headerMacros [(c!"fixup_dep", fixupDep)] c!"fixup_dep" = some fixupDepExp := by
    decide +kernel
  rw [← h]
  unfold headerDefs macroDefs headerDefines
  rw [List.lookup_append, List.lookup_append]
  rfl

def doCmdExp (k : Nat) : MkExp :=
  (.fn c!"if" (.arg (.fn c!"or" (.arg (.ref (.lit c!"command_changed" .nil) .nil) (.arg (.ref (.lit c!"prereq_changed" .nil) .nil) .nil)) .nil) (.arg (.lit c!"\n  @" (.fn c!"call" (.arg (.lit c!"exact_echo" .nil) (.arg (.lit c!"  " (.ref (.ref (.lit c!"quiet" .nil) (.lit c!"cmd_" (.ref (.lit c!"1" .nil) .nil))) .nil)) .nil)) (.lit c!"\n  @mkdir -p \"" (.fn c!"call" (.arg (.lit c!"dirx" .nil) (.arg (.ref (.lit c!"@" .nil) .nil) .nil)) (.lit c!"\" \"" (.fn c!"dir" (.arg (.ref (.lit c!"depfile" .nil) .nil) .nil) (.lit c!"\"\n  " (.fn c!"if" (.arg (.fn c!"findstring" (.arg (.lit c!"flock" .nil) (.arg (.fn c!"word" (.arg (.lit (natStr k) .nil) (.arg (.ref (.lit c!"cmd_" (.ref (.lit c!"1" .nil) .nil)) .nil) .nil)) .nil) .nil)) .nil) (.arg (.lit c!"\n    @" (.ref (.lit c!"cmd_" (.ref (.lit c!"1" .nil) .nil)) (.lit c!"\n    @echo \"  " (.ref (.lit c!"quiet_cmd_" (.ref (.lit c!"1" .nil) .nil)) (.lit c!": Finished\"" .nil))))) (.arg (.lit c!"\n    @" (.ref (.lit c!"cmd_" (.ref (.lit c!"1" .nil) .nil)) (.lit c!"\n  " .nil))) .nil))) (.lit c!"\n  @" (.fn c!"call" (.arg (.lit c!"exact_echo" .nil) (.arg (.fn c!"call" (.arg (.lit c!"escape_vars" .nil) (.arg (.lit c!"cmd_" (.fn c!"call" (.arg (.lit c!"replace_spaces" .nil) (.arg (.ref (.lit c!"@" .nil) .nil) .nil)) (.lit c!" := " (.ref (.lit c!"cmd_" (.ref (.lit c!"1" .nil) .nil)) .nil)))) .nil)) .nil) .nil)) (.lit c!" > " (.ref (.lit c!"depfile" .nil) (.lit c!"\n  @" (.fn c!"if" (.arg (.ref (.lit c!"2" .nil) .nil) (.arg (.ref (.lit c!"fixup_dep" .nil) .nil) .nil)) (.lit c!"\n  " (.fn c!"if" (.arg (.fn c!"and" (.arg (.ref (.lit c!"3" .nil) .nil) (.arg (.ref (.lit c!"POSTBUILDS" .nil) .nil) .nil)) .nil) (.arg (.lit c!"\n    " (.fn c!"call" (.arg (.lit c!"do_postbuilds" .nil) .nil) (.lit c!"\n  " .nil))) .nil)) (.lit c!"\n" .nil))))))))))))))))) .nil)) .nil)

theorem headerDefs_do_cmd (flavor : Str) : headerDefs flavor c!"do_cmd" = some (doCmdExp (flockIndex flavor)) := by
  have h1 : macroDefs headerMacros [(c!"fixup_dep", fixupDep), (c!"do_cmd", doCmd 1)] c!"do_cmd" = some (doCmdExp 1) := by
    decide +kernel
  have h2 : macroDefs headerMacros [(c!"fixup_dep", fixupDep), (c!"do_cmd", doCmd 2)] c!"do_cmd" = some (doCmdExp 2) := by
    decide +kernel
  unfold headerDefs headerDefines
  rcases flockIndex_cases flavor with h | h <;> rw [h]
  · exact h1
  · exact h2

end Gyp
