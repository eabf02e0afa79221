import Verif.Model.Specifiers
import Verif.Spec.Version
/-
Which versions a specifier takes (PEP 440), for property C117.
-/
namespace Gyp.Spec

/-- The version without its local part. -/
def withoutLocal (v : Ver) : Ver := { v with loc := none }

/-- Earlier or the same. -/
def AtMost (v w : Ver) : Prop := EarlierThan v w ∨ SameVersion v w

/-- Versions of the same release. -/
def SameBase (v w : Ver) : Prop := v.epoch = w.epoch ∧ SameRelease v.release w.release

/-- An alpha, a beta, a candidate or a development release. -/
def Pre (v : Ver) : Prop := v.pre ≠ none ∨ v.dev ≠ none

/-- The release begins with the given numbers; missing ones are zero. -/
def InSeries (v : Ver) (epoch : Nat) (r : List Nat) : Prop :=
  v.epoch = epoch ∧ ∀ i < r.length, component v.release i = component r i

/-- Does `v` meet an operator with the version `w`? -/
def Meets : SpecOp → Ver → Ver → Prop
  | .lessEqual, v, w => AtMost (withoutLocal v) w
  | .greaterEqual, v, w => AtMost w (withoutLocal v)
  | .less, v, w => EarlierThan v w ∧ ¬ (Pre v ∧ ¬ Pre w ∧ SameBase v w)
  | .greater, v, w => EarlierThan w v ∧ ¬ (v.post ≠ none ∧ w.post = none ∧ SameBase v w) ∧
      ¬ (v.loc ≠ none ∧ SameBase v w)
  | .equal, v, w => SameVersion (if w.loc = none then withoutLocal v else v) w
  | .notEqual, v, w => ¬ SameVersion (if w.loc = none then withoutLocal v else v) w
  | .compatible, v, w => AtMost w (withoutLocal v) ∧ InSeries v w.epoch w.release.dropLast
  | .arbitrary, v, w => v = w

end Gyp.Spec
