import Verif.Model.MakeGen
import Verif.Model.Targets
/-
The makefiles of a whole build: `GenerateOutput` of `gyp/pylib/gyp/generator/make.py`.

Modelled are the loop over the targets (what is written, for whom, and into which file).  The
header with the definitions of the commands, `make_global_settings`, the sub-makefiles and the
rule for regeneration are not modelled.  The root makefile includes the makefiles of the targets
in the order of their names (make.py:2723-2736); the theorems hold for every order.
-/
namespace Gyp

/-- What `GenerateOutput` takes from its parameters.  `generatorOutput` is empty if not given. -/
structure MakeRun where
  cwd : List Str
  flavor : Str
  depth : Str
  toplevel : Str
  generatorOutput : Str := []
  suffix : Str := []
  sha1 : Str → Str

/-- make.py:2414-2430 `CalculateMakefilePath`, the path of the target below the top directory. -/
def basePath (r : MakeRun) (buildFile : Str) : Str :=
  RelativePath r.cwd (dirname buildFile) r.toplevel

/-- make.py:2414-2430 `CalculateMakefilePath`, the file. -/
def makefilePath (r : MakeRun) (buildFile base : Str) : Str :=
  let dir := RelativePath r.cwd (dirname buildFile) r.depth
  if r.generatorOutput = [] then pathJoin (pathJoin r.depth dir) base
  else pathJoin (pathJoin (pathJoin r.depth r.generatorOutput) dir) base

/-- make.py:2666-2668 the name of the makefile of a target. -/
def makefileName (r : MakeRun) (target toolset : Str) : Str :=
  target ++ c!"." ++ toolset ++ r.suffix ++ c!".mk"

/-- make.py:2445-2454, 2670-2684 the arguments of `Write` for a target. -/
def selfOf (r : MakeRun) (needed : List Str) (qualified buildFile : Str) (spec : MkSpec) : MkSelf :=
  { flavor := r.flavor, sha1 := r.sha1, qualified, spec
    srcdirPrefix := if r.generatorOutput = [] then [] else c!"$(srcdir)/"
    path := basePath r buildFile
    partOfAll := qualified ∈ needed }

/-- make.py:2642-2691 the loop over the targets: the files and what is written into them.  `none`
stands for an exception. -/
def writeTargets (r : MakeRun) (needed : List Str) (dicts : List (Str × MkSpec)) :
    List Str → MkOutputs → Option (List (Str × List MkLine))
  | [], _ => some []
  | q :: rest, t =>
    match ParseQualifiedTarget q, aget dicts q with
    | (some buildFile, target, some toolset), some spec =>
      match writeMakefile (selfOf r needed q buildFile spec) t with
      | none => none
      | some (lines, t') =>
        match writeTargets r needed dicts rest t' with
        | none => none
        | some files =>
          some ((makefilePath r buildFile (makefileName r target toolset), lines) :: files)
    | _, _ => none

end Gyp
