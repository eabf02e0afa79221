import Verif.Basic
/-
The written form of a target reference: `file:target#toolset`, where the file
and the toolset may be left out.
-/
namespace Gyp.Spec

structure Ref where
  file : Option Str
  target : Str
  toolset : Option Str
deriving DecidableEq

/-- How a reference is written. -/
def Ref.text (r : Ref) : Str :=
  (match r.file with | none => [] | some f => f ++ c!":") ++ r.target ++
  (match r.toolset with | none => [] | some t => c!"#" ++ t)

/-- References the written form can express without ambiguity: no colon after
the file part, and no `#` after the one that introduces the toolset. -/
def Ref.wf (r : Ref) : Prop :=
  ':' ∉ r.target ∧
  (match r.toolset with
   | none => '#' ∉ r.target
   | some t => '#' ∉ t ∧ ':' ∉ t)

instance (r : Ref) : Decidable r.wf := by
  unfold Ref.wf
  cases r.toolset <;> infer_instance

end Gyp.Spec
