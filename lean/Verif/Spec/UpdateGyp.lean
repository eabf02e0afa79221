import Verif.Model.UpdateGyp
import Verif.Spec.Path
/-
Where the members of an archive end up.
-/
namespace Gyp.Spec

/-- The location is the directory or lies below it. -/
def Inside (dir loc : Loc) : Prop := ∃ below, loc = below ++ dir

/-- The location lies in a sibling of the directory whose name is that of the
directory with something appended. -/
def InLongerSibling (dir loc : Loc) : Prop :=
  ∃ name extra parent below, dir = name :: parent ∧ extra ≠ [] ∧ loc = below ++ (name ++ extra) :: parent

end Gyp.Spec
