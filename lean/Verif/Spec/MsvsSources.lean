import Verif.Model.MsvsSources
/-
What a Visual Studio project says about the sources of its target.
-/
namespace Gyp.Spec
open Gyp

/-- A list without repetitions of all files that are sources or excluded sources. -/
def AllFiles (all sources excluded : List Str) (t : WinTarget) : Prop :=
  all.Nodup ∧ ∀ f, f ∈ all ↔ f ∈ sources ∨ f ∈ excluded ∨ f ∈ t.sourcesExcluded

/-- The file was excluded: by the build file, or as an input of an action. -/
def WasExcluded (w : WinPaths) (t : WinTarget) (excluded : List Str) (path : Str) : Prop :=
  ∃ f, (f ∈ excluded ∨ f ∈ t.sourcesExcluded) ∧ fixPath w f = path

/-- The file is the header or the source of the precompiled header of the configuration. -/
def PrecompilesIn (w : WinPaths) (c : WinConfig) (path : Str) : Prop :=
  (c.pchHeader ≠ [] ∧ fixPath w c.pchHeader = path) ∨ (c.pchSource ≠ [] ∧ fixPath w c.pchSource = path)

/-- Excluded, and of no use for the precompiled header of any configuration. -/
def FullyExcluded (w : WinPaths) (t : WinTarget) (excluded : List Str) (path : Str) : Prop :=
  WasExcluded w t excluded path ∧ ∀ c ∈ t.configurations, ¬ PrecompilesIn w c.2 path

/-- An action is attached to the file. -/
def HasAction (p : ProjectInput) (path : Str) : Prop :=
  p.target.external = false ∧ ∃ f ∈ p.attached, fixPath p.paths f = path

/-- The file must not be built in the configuration. -/
def NotBuilt (p : ProjectInput) (excluded : List Str) (c : WinConfig) (path : Str) : Prop :=
  (p.target.idlRule = true ∧ ∃ front, path = front ++ c!".idl") ∨
    (WasExcluded p.paths p.target excluded path ∧ ¬ PrecompilesIn p.paths c path)

/-- The condition under which Visual Studio is building the configuration: its name up to the
last underscore, and its platform; tools for the host are not built for arm64. -/
def conditionOf (toolset : Str) (c : Str × WinConfig) : Str :=
  let name := match rsplit1 '_' c.1 with
    | none => c.1
    | some (front, _) => front
  let platform := if toolset = c!"host" ∧ c.2.platform = c!"arm64" then c!"x64" else c.2.platform
  c!"'$(Configuration)|$(Platform)'=='" ++ name ++ c!"|" ++ platform ++ c!"'"

/-- MSBuild: the value an element below an item gets when a condition holds; the last element
that applies counts. -/
def metadata (details : List Detail) (name holds : Str) : Option Str :=
  ((details.filter fun d => d.name = name ∧ (d.condition = none ∨ d.condition = some holds)).getLast?).map
    (·.value)

/-- The kinds of files Visual Studio knows, by extension. -/
def knownKinds : List (Str × Str) :=
  [(c!".cc", c!"ClCompile"), (c!".cpp", c!"ClCompile"), (c!".c", c!"ClCompile"),
   (c!".cxx", c!"ClCompile"), (c!".mm", c!"ClCompile"), (c!".h", c!"ClInclude"),
   (c!".hxx", c!"ClInclude"), (c!".rc", c!"ResourceCompile"), (c!".s", c!"MASM"),
   (c!".asm", c!"MASM"), (c!".idl", c!"Midl")]

/-- The file has the extension: a dot and more in its last component, whose start is not only
dots. -/
def HasExtension (path ext : Str) : Prop :=
  ∃ dir stem e, path = dir ++ stem ++ ext ∧ ext = '.' :: e ∧ '.' ∉ e ∧ '\\' ∉ stem ++ e ∧ '/' ∉ stem ++ e ∧
    (dir = [] ∨ dir.getLast? = some '\\' ∨ dir.getLast? = some '/') ∧ ∃ c ∈ stem, c ≠ '.'

/-- The folders of a file: its directories, and one more for files that are excluded. -/
def foldersOf (path : Str) (excluded : Prop) [Decidable excluded] : List Str :=
  (splitOn '\\' path).dropLast ++ if excluded then [c!"_excluded_files"] else []

/-- The folder named by a list of folders, if any. -/
def folderText (folders : List Str) : Option Str :=
  if folders = [] then none else some (joinWith ['\\'] folders)

/-- `n` times `..\` -/
def parents : Nat → Str
  | 0 => []
  | n + 1 => '.' :: '.' :: '\\' :: parents n

/-- A path normalisation leaves alone, or would lose a variable of. -/
def NormalPath (w : WinPaths) (path : Str) : Prop :=
  w.norm path = path ∨ (w.norm path).count '$' ≠ path.count '$'

/-- The files have normal paths in the project, and none is the directory of the project. -/
def UsualFiles (w : WinPaths) (files : List Str) : Prop :=
  ∀ f ∈ files, fixPath w f ≠ [] ∧ fixPath w f ≠ fixPath w [] ∧ NormalPath w (fixPath w f)

/-- The file is in the project: excluded files only if they are to be listed. -/
def Shown (p : ProjectInput) (excluded : List Str) (path : Str) : Prop :=
  p.listExcluded = true ∨ ¬ FullyExcluded p.paths p.target excluded path

open scoped Classical in
/-- The extensions of files that cannot use a precompiled header made from the file. -/
def WrongKind (path ext : Str) : Prop :=
  if HasExtension path c!".c" then ext ∈ [c!".cc", c!".cpp", c!".cxx"] else ext = c!".c"

/-- All precompiled headers of the target are made from files of one kind. -/
def OneKind (w : WinPaths) (t : WinTarget) : Prop :=
  ∀ c ∈ t.configurations, ∀ c' ∈ t.configurations, c.2.pchSource ≠ [] → c'.2.pchSource ≠ [] →
    ∀ ext, WrongKind (fixPath w c.2.pchSource) ext → ¬ ∃ front, fixPath w c'.2.pchSource = front ++ ext

/-- The configurations of the target are told apart by their conditions. -/
def DistinctConditions (t : WinTarget) : Prop :=
  (t.configurations.map (conditionOf t.toolset)).Nodup

end Gyp.Spec
