import Verif.Model.MakeGen
/-
The canned recipe that every command of the makefiles is run by, from the header of the root
makefile (`SHARED_HEADER` of `gyp/pylib/gyp/generator/make.py`), for platforms other than Windows.
The texts are those of the makefile, after Python's formatting with `%`.
-/
namespace Gyp

/-- make.py:395-418 the functions for names with blanks, and the name of the file with what is
known of an output; 145 `SPACE_REPLACEMENT`.  (`space` is set with `:=`, to the same value.) -/
def spaceMacros : List Str :=
  [c!"space = $(empty) $(empty)",
   c!"replace_spaces = $(subst $(space),?,$1)",
   c!"unreplace_spaces = $(subst ?,$(space),$1)",
   c!"dirx = $(call unreplace_spaces,$(dir $(call replace_spaces,$1)))",
   c!"depfile = $(depsdir)/$(call replace_spaces,$@).d"]

/-- make.py:493-507 the functions for quoting. -/
def quoteMacros : List Str :=
  [c!"escape_quotes = $(subst ','\\'',$(1))",
   c!"escape_vars = $(subst $$,$$$$,$(1))",
   c!"exact_echo = printf '%s\\n' '$(call escape_quotes,$(1))'"]

/-- make.py:522-531 what has changed. -/
def changedMacros : List Str :=
  [c!"command_changed = $(or $(subst $(cmd_$(1)),,$(cmd_$(call replace_spaces,$@))),\\\n                       $(subst $(cmd_$(call replace_spaces,$@)),,$(cmd_$(1))))",
   c!"prereq_changed = $(filter-out FORCE_DO_CMD,$(filter-out $|,$?))"]

/-- make.py:441-467 `fixup_dep`. -/
def fixupDep : Str :=
  c!"# The depfile may not exist if the input file didn't have any #includes.\n" ++
  c!"touch $(depfile).raw\n" ++
  c!"# Fixup path as in (1).\n" ++
  c!"sed -e \"s|^$(notdir $@)|$@|\" $(depfile).raw >> $(depfile)\n" ++
  c!"# Add extra rules as in (2).\n" ++
  c!"# We remove slashes and replace spaces with new lines;\n" ++
  c!"# remove blank lines;\n" ++
  c!"# delete the first line and append a colon to the remaining lines.\n" ++
  c!"sed -e 's|\\\\||' -e 'y| |\\n|' $(depfile).raw |\\\n" ++
  c!"  grep -v '^$$'                             |\\\n" ++
  c!"  sed -e 1d -e 's|$$|:|'                     \\\n" ++
  c!"    >> $(depfile)\n" ++
  c!"rm $(depfile).raw"

/-- make.py:555-573 `do_cmd`; the number is `flock_index`. -/
def doCmd (flockIndex : Nat) : Str :=
  c!"$(if $(or $(command_changed),$(prereq_changed)),\n" ++
  c!"  @$(call exact_echo,  $($(quiet)cmd_$(1)))\n" ++
  c!"  @mkdir -p \"$(call dirx,$@)\" \"$(dir $(depfile))\"\n" ++
  c!"  $(if $(findstring flock,$(word " ++ natStr flockIndex ++ c!",$(cmd_$1))),\n" ++
  c!"    @$(cmd_$(1))\n" ++
  c!"    @echo \"  $(quiet_cmd_$(1)): Finished\",\n" ++
  c!"    @$(cmd_$(1))\n" ++
  c!"  )\n" ++
  c!"  @$(call exact_echo,$(call escape_vars,cmd_$(call replace_spaces,$@) := $(cmd_$(1)))) > $(depfile)\n" ++
  c!"  @$(if $(2),$(fixup_dep))\n" ++
  c!"  $(if $(and $(3), $(POSTBUILDS)),\n" ++
  c!"    $(call do_postbuilds)\n" ++
  c!"  )\n" ++
  c!")"

/-- make.py:2483, 2505-2578 `flock_index`, by platform. -/
def flockIndex (flavor : Str) : Nat :=
  if flavor = c!"mac" ∨ flavor = c!"solaris" ∨ flavor = c!"aix" ∨ flavor = c!"os400" then 2 else 1

/-- The variables that are set with `=`, and those that are set with `define`. -/
def headerMacros : List Str := spaceMacros ++ quoteMacros ++ changedMacros

def headerDefines (flavor : Str) : List (Str × Str) :=
  [(c!"fixup_dep", fixupDep), (c!"do_cmd", doCmd (flockIndex flavor))]

end Gyp
