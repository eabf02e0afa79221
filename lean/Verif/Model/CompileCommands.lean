import Verif.Model.ShellQuote
import Verif.Model.Path
import Verif.Model.Assoc
/-
Two small generators: `gyp/pylib/gyp/generator/compile_commands_json.py`, for flavors other than
`mac` (there the flags come from the settings of Xcode), and
`gyp/pylib/gyp/generator/dump_dependency_json.py`.  `json.dump` is not modelled: the values that are
dumped are.
-/
namespace Gyp

/-- What a configuration of a target says about compiling; a missing list is empty. -/
structure CcConfig where
  cflags : List Str := []
  cflagsC : List Str := []
  cflagsCc : List Str := []
  defines : List Str := []
  includeDirs : List Str := []

/-- A target: the file it is from, its configurations and its sources. -/
structure CcTarget where
  buildFile : Str
  configurations : List (Str × CcConfig)
  sources : List Str := []

/-- An entry of the file of commands. -/
structure CcEntry where
  command : Str
  directory : Str
  file : Str
deriving DecidableEq

/-- compile_commands_json.py:64-65 the sources that are compiled. -/
def ccSource (s : Str) : Bool :=
  endsWith s c!".c" || endsWith s c!".cc" || endsWith s c!".cpp" || endsWith s c!".cxx"

/-- compile_commands_json.py:67-68 `resolve`; `dir` is the directory of the build file. -/
def ccResolve (cwd : List Str) (dir filename : Str) : Str := abspath cwd (pathJoin dir filename)

/-- compile_commands_json.py:57-61, 71-96: the entry of a source. -/
def ccEntry (cwd : List Str) (dir outputDir : Str) (c : CcConfig) (source : Str) : CcEntry :=
  let cflagsC := c.cflags ++ c.cflagsC
  let cflagsCc := c.cflags ++ c.cflagsCc
  let defines := EncodePOSIXShellList (c.defines.map (c!"-D" ++ ·))
  let includes := EncodePOSIXShellList
    ((c.includeDirs.filter fun s => !startsWith s c!"$(obj)").map fun s => c!"-I" ++ ccResolve cwd dir s)
  let file := ccResolve cwd dir source
  let isc := endsWith source c!".c"
  let cc := if isc then c!"cc" else c!"c++"
  let cflags := EncodePOSIXShellList (if isc then cflagsC else cflagsCc)
  { command := joinWith c!" " [cc, defines, includes, cflags, c!"-c", EncodePOSIXShellArgument file]
    directory := outputDir
    file := file }

/-- compile_commands_json.py:44-96 `AddCommandsForTarget`. -/
def addCommands (cwd : List Str) (outputDir : Str) (per : List (Str × List CcEntry)) (t : CcTarget) :
    List (Str × List CcEntry) :=
  t.configurations.foldl (fun per c =>
    aset per c.1 ((aget per c.1).getD [] ++
      (t.sources.filter ccSource).map (ccEntry cwd (dirname t.buildFile) outputDir c.2))) per

/-- compile_commands_json.py:99-123 `GenerateOutput`: the files that are written.  `flag` is
`output_dir` of the generator's flags, `generatorOutput` is the option of that name (empty when it
is `None` or not there). -/
def compileCommands (cwd : List Str) (flag : Option Str) (generatorOutput : Str) (targets : List CcTarget) :
    List (Str × List CcEntry) :=
  let flagDir := flag.getD c!"out"
  let outputDir := if generatorOutput = [] then flagDir else generatorOutput
  (targets.foldl (addCommands cwd flagDir) []).map fun x =>
    (pathJoinAll [outputDir, x.1, c!"compile_commands.json"], x.2)

/-! ### dump_dependency_json -/

/-- dump_dependency_json.py:83-93 the loop; the head of the list is the end of Python's.  `none` is
`KeyError`. -/
def dumpVisit (targets : List (Str × List Str)) (edges : List (Str × List Str)) :
    List Str → Option (List (Str × List Str))
  | [] => some edges
  | t :: rest =>
    if _h : t ∈ akeys edges then dumpVisit targets edges rest
    else
      match _ht : aget targets t with
      | none => none
      | some deps => dumpVisit targets (edges ++ [(t, deps)]) (deps.reverse ++ rest)
termination_by stack => (((akeys targets).filter fun k => decide (k ∉ akeys edges)).length, stack.length)
decreasing_by
  · exact Prod.Lex.right _ (by simp)
  · apply Prod.Lex.left
    have hm : t ∈ akeys targets := by
      rw [← aget_isSome, _ht]; rfl
    have hk : akeys (edges ++ [(t, deps)]) = akeys edges ++ [t] := by simp [akeys]
    rw [hk]
    have hsub : ((akeys targets).filter fun k => decide (k ∉ akeys edges ++ [t])) =
        ((akeys targets).filter fun k => decide (k ∉ akeys edges)).filter fun k => decide (k ≠ t) := by
      rw [List.filter_filter]
      congr 1
      funext k
      simp [not_or, Bool.and_comm]
    rw [hsub]
    apply List.length_filter_lt_length_iff_exists.mpr
    exact ⟨t, by simp [hm, _h], by simp⟩

/-- dump_dependency_json.py:78-101 `GenerateOutput`: what is dumped. -/
def dumpDependencies (targets : List (Str × List Str)) (targetList : List Str) :
    Option (List (Str × List Str)) :=
  dumpVisit targets [] targetList.reverse

end Gyp
