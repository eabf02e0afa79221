import Verif.Model.WheelNames
import Verif.Spec.Version
import Verif.Spec.Canonical
/-
The names of files of packages (PEP 427).
-/
namespace Gyp.Spec

/-- A build tag: a number, and a text that does not go on with a digit. -/
def BuildText (s : Str) (b : Nat × Str) : Prop :=
  ∃ d, s = d ++ b.2 ∧ Digits d b.1 ∧ ∀ c, b.2.head? = some c → ¬ ('0' ≤ c ∧ c ≤ '9')

/-- The part for the build: nothing, or a build tag. -/
def BuildPart (s : Str) : Option (Nat × Str) → Prop
  | none => s = []
  | some b => ∃ t, s = '-' :: t ∧ '-' ∉ t ∧ BuildText t b

/-- The name of a project in a wheel: letters, digits, dots and single underscores. -/
def WheelProject (s : Str) : Prop :=
  (∀ c ∈ s, NameChar c ∨ c = '.' ∨ c = '_') ∧ ∀ a b, s ≠ a ++ c!"__" ++ b

/-- One of the words between dots, in small letters. -/
def DottedWord (s w : Str) : Prop := ∃ ws x, joinWith c!"." ws = s ∧ (∀ y ∈ ws, '.' ∉ y) ∧ x ∈ ws ∧ w = lowerStr x

/-- `project-version[-build]-interpreters-abis-platforms.whl`, and what it says. -/
def WheelFile (f : Str) (w : Wheel) : Prop :=
  ∃ project version build is as ps,
    f = project ++ '-' :: version ++ build ++ '-' :: is ++ '-' :: as ++ '-' :: ps ++ c!".whl" ∧
    WheelProject project ∧ '-' ∉ version ∧ '-' ∉ is ∧ '-' ∉ as ∧ '-' ∉ ps ∧
    w.name = canonicalizeName project ∧ Written version w.version ∧ BuildPart build w.build ∧
    ∀ t, t ∈ w.tags ↔ DottedWord is t.interpreter ∧ DottedWord as t.abi ∧ DottedWord ps t.platform

/-- `project-version.tar.gz` or `.zip`, split at the last dash. -/
def SdistFile (f : Str) (name : Str) (v : Ver) : Prop :=
  ∃ project version ext, f = project ++ '-' :: version ++ ext ∧ (ext = c!".tar.gz" ∨ ext = c!".zip") ∧
    '-' ∉ version ∧ name = canonicalizeName project ∧ Written version v

end Gyp.Spec
