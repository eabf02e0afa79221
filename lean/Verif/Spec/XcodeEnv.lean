import Verif.Spec.Graph
/-
Texts with references to environment variables.
-/
namespace Gyp.Spec

/-- A character of a variable's name: an ASCII letter or digit, `-` or `_`. -/
def EnvName (x : Str) : Prop :=
  x ≠ [] ∧ ∀ c ∈ x, ('a' ≤ c ∧ c ≤ 'z') ∨ ('A' ≤ c ∧ c ≤ 'Z') ∨ ('0' ≤ c ∧ c ≤ '9') ∨ c = '-' ∨ c = '_'

/-- A character that may continue an identifier. -/
def IdentCont (c : Char) : Prop :=
  ('a' ≤ c ∧ c ≤ 'z') ∨ ('A' ≤ c ∧ c ≤ 'Z') ∨ ('0' ≤ c ∧ c ≤ '9') ∨ c = '_'

/-- An identifier: letters, digits and `_`, not starting with a digit. -/
def Ident (x : Str) : Prop :=
  ∃ c r, x = c :: r ∧ (('a' ≤ c ∧ c ≤ 'z') ∨ ('A' ≤ c ∧ c ≤ 'Z') ∨ c = '_') ∧ ∀ d ∈ r, IdentCont d

/-- The ways to write a reference: `${X}`, `$(X)` and `$X`. -/
inductive RefStyle where
  | brace
  | paren
  | bare
deriving DecidableEq

/-- A piece of a text: an ordinary character or a reference. -/
inductive EnvTok where
  | lit (c : Char)
  | ref (style : RefStyle) (name : Str)
deriving DecidableEq

/-- How a piece is written. -/
def EnvTok.show : EnvTok → Str
  | .lit c => [c]
  | .ref .brace x => c!"${" ++ x ++ c!"}"
  | .ref .paren x => c!"$(" ++ x ++ c!")"
  | .ref .bare x => '$' :: x

/-- The text. -/
def showToks (l : List EnvTok) : Str := l.flatMap EnvTok.show

/-- The text can be read in one way: ordinary characters are not `$`, names are names, and a
bare reference is not followed by a character that would continue its name. -/
def Readable : List EnvTok → Prop
  | [] => True
  | .lit c :: l => c ≠ '$' ∧ Readable l
  | .ref .bare x :: l => Ident x ∧ (∀ c, (showToks l).head? = some c → ¬ IdentCont c) ∧ Readable l
  | .ref _ x :: l => EnvName x ∧ Readable l

/-- The same piece, with a reference written in braces. -/
def EnvTok.braced : EnvTok → EnvTok
  | .lit c => .lit c
  | .ref _ x => .ref .brace x

/-- The value `v` refers to the variable `x`, written `${x}`. -/
def RefersTo (v x : Str) : Prop := EnvName x ∧ c!"${" ++ x ++ c!"}" <:+: v

end Gyp.Spec
