import Verif.Spec.MakeBuild
import Verif.Spec.MakeActions
import Verif.Spec.MakeFunctions
import Verif.Model.MakeRoot
/-
What make does with the root makefile (GNU make manual, "Including Other Makefiles",
"Conditional Parts of Makefiles", "Overriding Variables"; not part of /repo).
-/
namespace Gyp.Spec

/-- What files contain after some were written, one after the other. -/
def diskAfter (cwd : List Str) (files : List (Str × List MkLine)) (at_ : Loc) : Option (List MkLine) :=
  ((files.filter fun f => walk cwd.reverse f.1 = at_).getLast?).map (·.2)

/-- A text without a given beginning and a given end. -/
def between (before after s : Str) : Option Str :=
  if before.isPrefixOf s ∧ after.isSuffixOf (s.drop before.length) then
    some ((s.drop before.length).take (s.length - before.length - after.length))
  else none

/-- `$(strip $(foreach prefix,$(NO_LOAD), $(findstring $(join ^,$(prefix)), $(join ^,file))))`,
with the value of `NO_LOAD`.  (`$(join ^,x)` puts `^` before the first word.) -/
def noLoadValue (noLoad file : Str) : Str :=
  stripText (joinWith [' '] ((makeWords noLoad).map fun p =>
    c!" " ++ if foundIn ('^' :: p) (c!" ^" ++ file) then '^' :: p else []))

/-- The files that are read by lines of this form: a condition on a file, the file that is read if it
holds, and the end of the condition.  `none`: other lines. -/
def readIncludes (noLoad : Str) : List Str → Option (List Str)
  | [] => some []
  | a :: b :: c :: d :: e :: rest =>
    if a = c!"ifeq ($(strip $(foreach prefix,$(NO_LOAD),\\" ∧ b = c!"    $(findstring $(join ^,$(prefix)),\\" ∧
        e = c!"endif" then
      match between c!"                 $(join ^," c!")))),)" c, between c!"  include " [] d with
      | some f, some g =>
        (readIncludes noLoad rest).map fun l =>
          (if noLoadValue noLoad f = [] then makeWords g else []) ++ l
      | _, _ => none
    else none
  | _ => none

/-- A name that make takes as it is. -/
def IncludeName (s : Str) : Prop := s ≠ [] ∧ ∀ c ∈ s, c ∉ [' ', '\t', '\n', '$', '#', '\\', '^', '*', '?', '[', '~', ':', '%']

/-- The location of the directory of the root makefile. -/
def rootDir (r : MakeRun) : Loc :=
  walk (walk r.cwd.reverse r.toplevel) r.generatorOutput

/-- The contents of the makefiles that the root makefile reads, in its directory. -/
def contentsRead (r : MakeRun) (disk : Loc → Option (List MkLine)) (names : List Str) :
    List (Option (List MkLine)) :=
  names.map fun n => disk (walk (rootDir r) n)

/-- The lines of the rule and of the command that makes the root makefile again, as make reads them:
the command, and the rules. -/
def readRegen (text : Str) : Option (Str × List MakeItem) :=
  match splitOn '\n' text with
  | _ :: cmd :: rest =>
    match laterAssignment (cmd ++ ['\n']), readMakefile (joinWith ['\n'] rest) with
    | some (n, x), some items => if n = c!"cmd_regen_makefile" then some (x, items) else none
    | _, _ => none
  | _ => none

end Gyp.Spec
