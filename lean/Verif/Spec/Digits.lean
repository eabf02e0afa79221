import Verif.Basic
/-
Decimal numbers.
-/
namespace Gyp.Spec

def IsDigits (s : Str) : Prop := s ≠ [] ∧ ∀ c ∈ s, '0' ≤ c ∧ c ≤ '9'

/-- The number written with decimal digits. -/
def decValue (ds : Str) : Nat := ds.foldl (fun n c => 10 * n + (c.toNat - '0'.toNat)) 0

end Gyp.Spec
