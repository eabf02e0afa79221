import Verif.Model.XcodeNinja
/-
The wrapper of Xcode around ninja.
-/
namespace Gyp.Spec

/-- The targets that are shown: those that are asked for, and of the programs and tests those that are not filtered out. -/
def ShownInXcode (extras pattern : Option (Str → Bool)) (s : XnSpec) : Prop :=
  (∃ e, extras = some e ∧ e s.name = true) ∨
  (s.xctest = true ∨ s.type = c!"executable" ∧ s.productExtension ≠ c!"bundle") ∧
    ∀ p, pattern = some p → p s.name = true

/-- The last configuration that says something about a key says this. -/
def LastSays (configs : List (Str × List (Str × Str))) (key v : Str) : Prop :=
  ∃ a c b, configs = a ++ c :: b ∧ aget c.2 key = some v ∧ ∀ d ∈ b, aget d.2 key = none

/-- A file of a target that is shown for indexing. -/
def FileOf (skipExcluded : Bool) (s : XnSpec) (f : Str) : Prop :=
  (f ∈ s.sources ∨ f ∈ s.resources ∨ (∃ a ∈ s.actions, f ∈ a.1) ∨
    skipExcluded = false ∧ (f ∈ s.sourcesExcluded ∨ f ∈ s.resourcesExcluded ∨ ∃ a ∈ s.actions, f ∈ a.2)) ∧
  f.head? ≠ some '$'

end Gyp.Spec
