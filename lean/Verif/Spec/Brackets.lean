import Verif.Basic
/-
Well nested text, and the texts of integers.
-/
namespace Gyp.Spec

/-- A pair of brackets that belong together. -/
def BracketPair (o c : Char) : Prop :=
  (o = '(' ∧ c = ')') ∨ (o = '[' ∧ c = ']') ∨ (o = '{' ∧ c = '}')

/-- A character that is no bracket. -/
def PlainChar (c : Char) : Prop := c ∉ ['(', ')', '[', ']', '{', '}']

/-- Text in which all brackets are paired and nested. -/
inductive Nested : Str → Prop
  | nil : Nested []
  | plain {c : Char} {s : Str} : PlainChar c → Nested s → Nested (c :: s)
  | group {o c : Char} {s t : Str} : BracketPair o c → Nested s → Nested t →
    Nested (o :: (s ++ c :: t))

/-- The group that the first bracket of `s` opens is `s[a:b]`. -/
def FirstGroup (s : Str) (a b : Nat) : Prop :=
  ∃ (before inner after : Str) (o c : Char), s = before ++ o :: (inner ++ c :: after) ∧
    (∀ x ∈ before, PlainChar x) ∧ BracketPair o c ∧ Nested inner ∧
    a = before.length ∧ b = before.length + inner.length + 2

end Gyp.Spec
