import Verif.Model.Options
import Verif.Spec.Digits
import Verif.Spec.Options

/-
What `configure` promises, without its code.
-/
namespace Gyp.Spec

/-- A JavaScript line terminator. -/
def LineEnd (c : Char) : Prop := c = '\n' ∨ c = '\r' ∨ c.toNat = 0x2028 ∨ c.toNat = 0x2029

/-- A line starts after this text. -/
def LineStart (before : Str) : Prop := before = [] ∨ ∃ b c, before = b ++ [c] ∧ LineEnd c

/-- `#define KEY DIGITS` starts a line after `before`. -/
def DefineAt (text key before digits : Str) : Prop :=
  LineStart before ∧ IsDigits digits ∧
    ∃ rest, text = before ++ c!"#define " ++ key ++ c!" " ++ digits ++ rest ∧
      ∀ c, rest.head? = some c → ¬ ('0' ≤ c ∧ c ≤ '9')

/-- The first definition of `KEY` in the text has these digits. -/
def Defines (text key digits : Str) : Prop :=
  ∃ before, DefineAt text key before digits ∧
    ∀ b d, DefineAt text key b d → before.length ≤ b.length

/-- The header says that it belongs to the version. -/
def HeaderOf (text version : Str) : Prop :=
  ∃ major minor patch, Defines text c!"NODE_MAJOR_VERSION" major ∧
    Defines text c!"NODE_MINOR_VERSION" minor ∧ Defines text c!"NODE_PATCH_VERSION" patch ∧
    version = major ++ c!"." ++ minor ++ c!"." ++ patch

/-- The path with a leading `~` replaced by the home directory. -/
def Expands (home p q : Str) : Prop :=
  (∃ r, p = '~' :: r ∧ q = home ++ r) ∨ (p.head? ≠ some '~' ∧ q = p)

/-- `f` is the first of the candidates with the property. -/
def FirstOf (P : Str → Prop) (candidates : List Str) (f : Str) : Prop :=
  ∃ before after, candidates = before ++ f :: after ∧ P f ∧ ∀ b ∈ before, ¬ P b

/-- The options `o'` are the options `o` of the user with what `configure` adds: the
format, unless the user gave one, include files behind those of the user, variables
and a generator flag that win over those of the user and of the environment, and
fixed directories.  Nothing else differs. -/
structure Forced (E : OptEnv) (o o' : Options) (format : Option Str) (includes : List Str)
    (vars : List (Str × Str)) (output : Str) : Prop where
  setFormats : (o' c!"formats").toList = (o c!"formats").toList ++ format.toList
  setIncludes : (o' c!"includes").toList = (o c!"includes").toList ++ includes
  depth : o' c!"depth" = .text c!"."
  serial : o' c!"no_parallel" = .flag true
  setOutput : o' c!"generator_output" = .text output
  setVars : ∀ p ∈ vars, ∀ v, Sets (p.1 ++ c!"=" ++ p.2) p.1 v →
    aget (cmdlineVariables E o') p.1 = some v
  otherVars : ∀ k, (∀ p ∈ vars, p.1 ≠ k) →
    aget (cmdlineVariables E o') k = aget (cmdlineVariables E o) k
  outputFlag : aget (generatorFlags E o') c!"output_dir" = some (.str c!".")
  otherFlags : ∀ k, k ≠ c!"output_dir" →
    aget (generatorFlags E o') k = aget (generatorFlags E o) k
  rest : ∀ d, d ∉ [c!"formats", c!"includes", c!"depth", c!"no_parallel", c!"generator_output",
    c!"defines", c!"generator_flags"] → o' d = o d

end Gyp.Spec
