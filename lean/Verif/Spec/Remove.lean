import Verif.Spec.Path
import Verif.Model.Remove
/-
The installed development files: what is meant by what is below a directory.
-/
namespace Gyp.Spec

/-- `q` is `p` or lies somewhere in it. -/
def Below (p q : Loc) : Prop := ∃ names : List Str, q = names ++ p

/-- What is on the disk lies in directories that are on the disk. -/
def InDirs (T : DiskTree) : Prop := ∀ name p, name :: p ∈ T → p = [] ∨ p ∈ T

/-- The name of a version: the text of the version if it is one, else what was given. -/
def NameOf (parse : Str → Option Semver) (given name : Str) : Prop :=
  (∃ v, parse given = some v ∧ name = v.text) ∨ (parse given = none ∧ name = given)

/-- The version that is given: the argument, or else `--target`. -/
def GivenVersion (arg target given : Str) : Prop :=
  given ≠ [] ∧ ((arg ≠ [] ∧ given = arg) ∨ (arg = [] ∧ given = target))

/-- `T'` is the disk without what is below the place: the rest is the same. -/
def Without (T T' : DiskTree) (p : Loc) : Prop :=
  List.Sublist T' T ∧ ∀ q ∈ T, q ∈ T' ↔ ¬ Below p q

end Gyp.Spec
