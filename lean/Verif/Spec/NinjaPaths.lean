import Verif.Spec.Path
/-
Words for the claims about paths in ninja files.
-/
namespace Gyp.Spec

/-- Whether a path, taken component by component, ever leaves the directory it starts from, `d` levels down. -/
def staysFrom : Nat → List Str → Bool
  | _, [] => true
  | d, c :: cs =>
    if c = [] ∨ c = ['.'] then staysFrom d cs
    else if c = ['.', '.'] then (match d with | 0 => false | d + 1 => staysFrom d cs)
    else staysFrom (d + 1) cs

/-- A relative path that never leaves the directory it starts from. -/
def StaysInside (p : Str) : Prop := p.head? ≠ some '/' ∧ staysFrom 0 (splitOn '/' p) = true

instance (p : Str) : Decidable (StaysInside p) := by unfold StaysInside; infer_instance

/-- A part of an argument of a command: text, or a name the generator replaces. -/
inductive NinjaPiece where
  | text (s : Str)
  | product
  | intermediate
  | config

/-- The part as it is in a gyp file after variables are expanded. -/
def NinjaPiece.written : NinjaPiece → Str
  | .text s => s
  | .product => c!"$!PRODUCT_DIR"
  | .intermediate => c!"$!INTERMEDIATE_DIR"
  | .config => c!"$|CONFIGURATION_NAME"

/-- The part as it is meant. -/
def NinjaPiece.meant (product intermediate config : Str) : NinjaPiece → Str
  | .text s => s
  | .product => product
  | .intermediate => intermediate
  | .config => config

/-- Text without `$`; a relative path can start with it. -/
def NinjaPiece.plain : NinjaPiece → Prop
  | .text s => '$' ∉ s
  | _ => True

end Gyp.Spec
