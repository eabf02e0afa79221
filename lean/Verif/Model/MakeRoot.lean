import Verif.Model.MakeBuild
import Verif.Model.Sort
import Verif.Model.Splitext
import Verif.Model.ShellQuote
/-
The root makefile: which makefiles it reads and how it is made again, and the makefiles of single
build files; `GenerateOutput`, `WriteAutoRegenerationRule` and `WriteSubMake` of
`gyp/pylib/gyp/generator/make.py`.  (`replace_sep` is the identity outside Windows.  The common
header is not repeated here.)
-/
namespace Gyp

/-- make.py:2446 the name of the root makefile. -/
def rootName (r : MakeRun) : Str := c!"Makefile" ++ r.suffix

/-- make.py:2447-2452 the path of the root makefile. -/
def rootPath (r : MakeRun) : Str :=
  if r.generatorOutput = [] then pathJoin r.toplevel (rootName r)
  else pathJoin (pathJoin r.toplevel r.generatorOutput) (rootName r)

/-- make.py:2445, 2453 the value of `srcdir` in the header. -/
def rootSrcdir (r : MakeRun) : Str :=
  if r.generatorOutput = [] then c!"." else RelativePath r.cwd c!"." r.generatorOutput

/-! ### The makefiles that are read -/

/-- make.py:2694-2697 the makefile of a target, as the root makefile names it. -/
def includeEntry (r : MakeRun) (path : Str) : Str := RelativePath r.cwd path (dirname (rootPath r))

/-- make.py:2641, 2698, 2725 the set of makefiles, sorted. -/
def includeList (r : MakeRun) (paths : List Str) : List Str :=
  pySorted strLe (uniquer id (paths.map (includeEntry r)))

/-- make.py:2726-2736 the lines that read a makefile. -/
def includeLines (file : Str) : List Str :=
  [c!"ifeq ($(strip $(foreach prefix,$(NO_LOAD),\\",
   c!"    $(findstring $(join ^,$(prefix)),\\",
   c!"                 $(join ^," ++ file ++ c!")))),)",
   c!"  include " ++ file,
   c!"endif"]

/-! ### Making it again -/

/-- What the rule needs of the data: the files that a build file includes, as named in it, and
`params["home_dot_gyp"]`. -/
structure RootData where
  included : Str → List Str
  home : Option Str := none

/-- make.py:2654-2666 an included file in `build_files`. -/
def includedName (r : MakeRun) (home : Option Str) (buildFile file : Str) : Str :=
  let relative := RelativePath r.cwd (UnrelativePath file buildFile) r.toplevel
  match home with
  | some h => if h ≠ [] ∧ startsWith (abspath r.cwd relative) h then abspath r.cwd relative else relative
  | none => relative

/-- make.py:2640-2666 `build_files`.  (A set; the order is that of insertion.) -/
def buildFileSet (r : MakeRun) (d : RootData) (list : List Str) : List Str :=
  uniquer id (list.flatMap fun q =>
    match ParseQualifiedTarget q with
    | (some b, _, _) =>
      RelativePath r.cwd b r.toplevel :: (d.included b).map (includedName r d.home b)
    | _ => [])

/-- make.py:749-764 `SourceifyAndQuoteSpaces`; `srcdir_prefix` is set in line 2454. -/
def rootSource (r : MakeRun) (path : Str) : Str :=
  QuoteSpaces (if hasSub c!"$(" path then path
    else if isAbs path then path
    else (if r.generatorOutput = [] then [] else c!"$(srcdir)/") ++ path)

/-- make.py:2372-2376 the program. -/
def regenBinary (r : MakeRun) (binary : Str) : Str :=
  let b := FixIfRelativePath r.cwd binary r.toplevel
  if startsWith b c!"/" then b else pathJoin c!"." b

/-- make.py:2380, 2388-2390 the command; `flags` is `gyp.RegenerateFlags(options)`. -/
def regenCommand (r : MakeRun) (binary : Str) (flags files : List Str) : Str :=
  c!"cd $(srcdir); " ++ EncodePOSIXShellList
    ([regenBinary r binary, c!"-fmake"] ++ flags ++ files.map fun f => RelativePath r.cwd f r.toplevel)

/-- make.py:2381-2387 the rule. -/
def regenRule (r : MakeRun) (buildFiles : List Str) : Str :=
  rootName r ++ c!": " ++ joinWith [' '] (buildFiles.map (rootSource r)) ++
    c!"\n\t$(call do_cmd,regen_makefile)\n\n"

/-- make.py:2378-2392 what `WriteAutoRegenerationRule` writes. -/
def regenText (r : MakeRun) (binary : Str) (flags files buildFiles : List Str) : Str :=
  c!"quiet_cmd_regen_makefile = ACTION Regenerating $@\n" ++
  c!"cmd_regen_makefile = " ++ regenCommand r binary flags files ++ c!"\n" ++
  regenRule r buildFiles

/-! ### The makefiles of build files -/

/-- make.py:2701, 2706 a build file as the list of targets names it. -/
def subBuildFile (r : MakeRun) (file : Str) : Str := pathJoin (RelativePath r.cwd r.depth (cwdStr r.cwd)) file

/-- make.py:2707-2712 the names of its targets. -/
def subTargets (dicts : List (Str × MkSpec)) (list needed : List Str) (buildFile : Str) : List Str :=
  (list.filter fun q => startsWith q buildFile && decide (q ∈ needed)).filterMap fun q =>
    (aget dicts q).map (·.targetName)

/-- make.py:2716-2718 its makefile. -/
def subPath (r : MakeRun) (buildFile : Str) : Str :=
  makefilePath r buildFile ((splitext (basename buildFile)).1 ++ c!".Makefile")

/-- make.py:995-1007, 2719-2722 the lines of its makefile (after the comment at the top). -/
def subLines (r : MakeRun) (path builddir : Str) (targets : List Str) : List Str :=
  let root := RelativePath r.cwd (dirname (rootPath r)) (dirname path)
  [c!"export builddir_name ?= " ++ pathJoin (dirname path) builddir,
   c!".PHONY: all",
   c!"all:",
   c!"\t$(MAKE)" ++ (if root = [] then [] else c!" -C " ++ root) ++ c!" " ++ joinWith [' '] targets]

/-- make.py:2702-2722 the makefiles of build files with targets: path and lines. -/
def subMakefiles (r : MakeRun) (dicts : List (Str × MkSpec)) (list needed : List Str) (builddir : Str)
    (buildFiles : List Str) : List (Str × List Str) :=
  buildFiles.filterMap fun f =>
    let b := subBuildFile r f
    let targets := subTargets dicts list needed b
    if targets = [] then none else some (subPath r b, subLines r (subPath r b) builddir targets)

end Gyp
