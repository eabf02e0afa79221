import Verif.Model.Options
import Verif.Spec.Path
import Verif.Spec.Digits
/-
What options mean.
-/
namespace Gyp.Spec

/-- White space for Python. -/
def PySpace (c : Char) : Prop :=
  c.toNat ∈ [9, 10, 11, 12, 13, 28, 29, 30, 31, 32, 0x85, 0xA0, 0x1680,
    0x2000, 0x2001, 0x2002, 0x2003, 0x2004, 0x2005, 0x2006, 0x2007, 0x2008, 0x2009, 0x200A,
    0x2028, 0x2029, 0x202F, 0x205F, 0x3000]

/-- The text is the integer `i`: white space, a sign, groups of digits separated by
single underscores, white space. -/
def IntText (s : Str) (i : Int) : Prop :=
  ∃ a sign groups b, s = a ++ sign ++ joinWith c!"_" groups ++ b ∧
    (∀ c ∈ a, PySpace c) ∧ (∀ c ∈ b, PySpace c) ∧ groups ≠ [] ∧ (∀ g ∈ groups, IsDigits g) ∧
    ((sign = [] ∨ sign = c!"+") ∧ i = decValue groups.flatten ∨
     sign = c!"-" ∧ i = -(decValue groups.flatten : Int))

/-- The item `NAME` or `NAME=VALUE` sets the name to the value. -/
def Sets (item name : Str) (v : NvVal) : Prop :=
  ('=' ∉ item ∧ name = item ∧ v = .true_) ∨
  ∃ text, '=' ∉ name ∧ item = name ++ c!"=" ++ text ∧
    ((∃ i, IntText text i ∧ v = .int i) ∨ ((∀ i, ¬ IntText text i) ∧ v = .str text))

/-- Two path options, used in different directories, name the same place, or both
are absent. -/
def SamePlace (dir : Loc) (p : Str) (dir' : Loc) (p' : Str) : Prop :=
  (p = [] ↔ p' = []) ∧ (p ≠ [] → walk dir p = walk dir' p')

/-- The same settings follow from the options `o` in the environment `E` as from
`o'` in `E'`: equal tables, the same places, equal texts. -/
structure SameSettings (E : OptEnv) (o : Options) (E' : OptEnv) (o' : Options) : Prop where
  vars : ∀ k, aget (cmdlineVariables E' o') k = aget (cmdlineVariables E o) k
  generatorFlags : ∀ k, aget (generatorFlags E' o') k = aget (generatorFlags E o) k
  depth : SamePlace E.cwd.reverse (o c!"depth").toText E'.cwd.reverse (o' c!"depth").toText
  toplevel : SamePlace E.cwd.reverse (o c!"toplevel_dir").toText E'.cwd.reverse (o' c!"toplevel_dir").toText
  output : SamePlace E.cwd.reverse (o c!"generator_output").toText
    E'.cwd.reverse (o' c!"generator_output").toText
  includes : List.Forall₂ (fun p p' => walk E.cwd.reverse p = walk E'.cwd.reverse p')
    (o c!"includes").toList (o' c!"includes").toList
  suffix : (o' c!"suffix").toText = (o c!"suffix").toText
  configs : (o' c!"configs").toList = (o c!"configs").toList
  debug : (o' c!"debug").toList = (o c!"debug").toList
  rootTargets : (o' c!"root_targets").toList = (o c!"root_targets").toList
  check : o' c!"check" = .flag true ↔ o c!"check" = .flag true
  configDir : configDir E' o' = configDir E o

/-- A value that can be attached to a one-letter option. -/
def Attachable (v : Str) : Prop := v ≠ [] ∧ v.head? ≠ some '='

/-- The values of the one-letter options can be attached to them. -/
structure Regenerable (E : OptEnv) (o : Options) : Prop where
  debug : ∀ v ∈ (o c!"debug").toList, Attachable v
  defines : ∀ v ∈ (o c!"defines").toList, Attachable v
  envDefines : ∀ v ∈ E.words c!"GYP_DEFINES", Attachable v
  flags : ∀ v ∈ (o c!"generator_flags").toList, Attachable v
  envFlags : ∀ v ∈ E.words c!"GYP_GENERATOR_FLAGS", Attachable v
  roots : ∀ v ∈ (o c!"root_targets").toList, Attachable v
  includes : ∀ v ∈ (o c!"includes").toList, (FixPath E o v).head? ≠ some '='
  suffix : (o c!"suffix").toText.head? ≠ some '='

/-- The directory is or lies below a directory called `src`, the innermost one. -/
def InnermostSrc (dir src : Loc) : Prop :=
  ∃ below above, dir = below ++ c!"src" :: above ∧ src = c!"src" :: above ∧ c!"src" ∉ below

end Gyp.Spec
