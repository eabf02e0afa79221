import Verif.Model.Value
/-
What can be found inside a value.
-/
namespace Gyp.Spec

/-- `x` is the value `v` or occurs in it, at any depth. -/
inductive FoundIn (x : Val) : Val → Prop
  | self : FoundIn x x
  | list {l v} : v ∈ l → FoundIn x v → FoundIn x (.list l)
  | dict {d k v} : (k, v) ∈ d → FoundIn x v → FoundIn x (.dict d)

end Gyp.Spec
