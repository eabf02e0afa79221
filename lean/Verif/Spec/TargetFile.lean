import Verif.Model.Value
/-
Toolsets: a target is built once for each of them.
-/
namespace Gyp.Spec

/-- The toolsets a target asks for; without support for several toolsets there is only
`target`. A text stands for the list of its characters (Python). -/
inductive AskedToolsets (multi : Bool) (t : Dict) : List Val → Prop
  | single : multi = false → AskedToolsets multi t [.str c!"target"]
  | unsaid : multi = true → t.get? c!"toolsets" = none → AskedToolsets multi t [.str c!"target"]
  | listed (l : List Val) : multi = true → t.get? c!"toolsets" = some (.list l) →
      AskedToolsets multi t l
  | letters (s : Str) : multi = true → t.get? c!"toolsets" = some (.str s) →
      AskedToolsets multi t (s.map fun c => .str [c])

/-- `v` is the target `t` for toolset `b`: it says so, no longer lists toolsets, and is
otherwise the same. -/
structure VariantFor (t : Dict) (b : Val) (v : Dict) : Prop where
  toolset : v.get? c!"toolset" = some b
  toolsets : v.get? c!"toolsets" = none
  rest : ∀ k, k ≠ c!"toolset" → k ≠ c!"toolsets" → v.get? k = t.get? k

/-- A target that has its toolset already. -/
def OwnToolset (t : Dict) : Prop :=
  (t.get? c!"toolset").isSome ∧ t.get? c!"toolsets" = none

/-- `BuiltFor multi t out`: the target `t` is replaced by the targets `out`. -/
inductive BuiltFor (multi : Bool) (t : Dict) : List Dict → Prop
  /-- a target with a toolset stays -/
  | fixed : OwnToolset t → BuiltFor multi t [t]
  /-- an empty list of toolsets removes the target -/
  | nowhere : ¬ OwnToolset t → AskedToolsets multi t [] → BuiltFor multi t []
  /-- one variant for each toolset, that for the first toolset at the end -/
  | each {b bs vs v} : ¬ OwnToolset t → AskedToolsets multi t (b :: bs) →
      List.Forall₂ (VariantFor t) bs vs → VariantFor t b v → BuiltFor multi t (vs ++ [v])

/-- `d'` is the build file `d` with every target replaced by its variants; settings other than
the targets and the conditions are the same. -/
structure SpreadOver (multi : Bool) (d d' : Dict) : Prop where
  keys : d'.keys = d.keys
  rest : ∀ k, k ≠ c!"targets" → k ≠ c!"conditions" → d'.get? k = d.get? k
  targets : ∀ v, d.get? c!"targets" = some v →
    ∃ (ts : List Dict) (variants : List (List Dict)), v = .list (ts.map .dict) ∧
      List.Forall₂ (BuiltFor multi) ts variants ∧
      d'.get? c!"targets" = some (.list (variants.flatten.map .dict))

end Gyp.Spec
