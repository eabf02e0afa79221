import Verif.Model.CompileCommands
import Verif.Spec.Path
import Verif.Spec.Shell
/-
What a compilation database should say (clang's "JSON compilation database"), and what the graph of
dependencies is.
-/
namespace Gyp.Spec

/-- A C source, by its name. -/
abbrev IsC (s : Str) : Prop := c!".c" <:+ s

/-- A C++ source, by its name. -/
abbrev IsCxx (s : Str) : Prop := c!".cc" <:+ s ∨ c!".cpp" <:+ s ∨ c!".cxx" <:+ s

/-- The path is the absolute path, written out, of a place. -/
def AbsolutePathOf (p : Str) (place : Loc) : Prop :=
  p.head? = some '/' ∧ (∀ at_, walk at_ p = place) ∧
    ∀ c ∈ splitOn '/' p, c ≠ ['.'] ∧ c ≠ ['.', '.']

/-- The words of a command to compile a file: the compiler, a `-D` for each definition, a `-I` for
each directory, the flags, `-c` and the file. -/
def CompileWords (compiler : Str) (defines dirs flags : List Str) (file : Str) (words : List Str) : Prop :=
  words = [compiler] ++ defines.map (c!"-D" ++ ·) ++ dirs.map (c!"-I" ++ ·) ++ flags ++ [c!"-c", file]

/-- Pairs that are related, one after the other. -/
inductive AllPairs {α β : Type} (R : α → β → Prop) : List α → List β → Prop where
  | nil : AllPairs R [] []
  | cons {a b as bs} : R a b → AllPairs R as bs → AllPairs R (a :: as) (b :: bs)

/-- What an entry for a source of a configuration must be: the file is the absolute path of the
source, and the command is for that file, with the compiler for its language, the definitions, the
directories that are not made by the build, as absolute paths, and the flags.  The shell reads the
command as these words; words with a `$` (which may be meant for the build) are as they are inside
double quotes. -/
def Describes (cwd : List Str) (t : CcTarget) (c : CcConfig) (source : Str) (e : CcEntry) : Prop :=
  let place := walk cwd.reverse (dirname t.buildFile)
  AbsolutePathOf e.file (walk place source) ∧
  ∃ dirs words,
    AllPairs (fun d p => AbsolutePathOf p (walk place d))
      (c.includeDirs.filter fun d => decide (¬ c!"$(obj)" <+: d)) dirs ∧
    (IsC source → CompileWords c!"cc" c.defines dirs (c.cflags ++ c.cflagsC) e.file words) ∧
    (IsCxx source → CompileWords c!"c++" c.defines dirs (c.cflags ++ c.cflagsCc) e.file words) ∧
    shellWordsKeepDollar e.command = some words ∧
    ((∀ w ∈ words, '$' ∉ w) → shellWords e.command = some words)

/-- The sources to compile for a configuration, of all targets that have it. -/
def wantedEntries (name : Str) (targets : List CcTarget) : List (CcTarget × CcConfig × Str) :=
  targets.flatMap fun t =>
    match t.configurations.find? fun c => c.1 = name with
    | none => []
    | some c => (t.sources.filter fun s => decide (IsC s ∨ IsCxx s)).map fun s => (t, c.2, s)

/-- The targets that are needed: those of the list, and the dependencies of needed targets.  `deps`
is what is known of the targets. -/
inductive NeededTarget (deps : Str → Option (List Str)) (roots : List Str) : Str → Prop where
  | root (t : Str) : t ∈ roots → NeededTarget deps roots t
  | dependency (t d : Str) (ds : List Str) : NeededTarget deps roots t → deps t = some ds → d ∈ ds →
      NeededTarget deps roots d

end Gyp.Spec
