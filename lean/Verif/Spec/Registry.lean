import Verif.Model.Registry
/-
What `reg.exe query key /v name` prints.
-/
namespace Gyp.Spec

/-- A text on one line. -/
def OneLine (s : Str) : Prop := ∀ c ∈ s, lineEnd c = false

/-- A text that begins with something to see. -/
def Visible (s : Str) : Prop := ∃ c r, s = c :: r ∧ reSpace c = false

/-- The text begins with the name, without regard to case or to what is not a letter, a digit or `_`. -/
def BeginsLike (name s : Str) : Prop :=
  ∃ t r, s = t ++ r ∧ List.Forall₂ (fun v c => if reWord v then sameButCase v c = true else lineEnd c = false) name t

/-- The output for a value: an empty line, the key, the value with its type and its data, an empty line. -/
def regOutput (key name type data : Str) : Str :=
  c!"\r\n" ++ key ++ c!"\r\n    " ++ name ++ c!"    REG_" ++ type ++ c!"    " ++ data ++ c!"\r\n\r\n"

end Gyp.Spec
