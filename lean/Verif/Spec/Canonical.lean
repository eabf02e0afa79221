import Verif.Model.Canonical
/-
When two names of projects are the same (PEP 503).
-/
namespace Gyp.Spec

/-- One of the characters `-`, `_`, `.`. -/
def NameSep (c : Char) : Prop := c = '-' ∨ c = '_' ∨ c = '.'

/-- The same name: case does not matter, and any separators in a row are like any others. -/
inductive SameName : Str → Str → Prop
  | nil : SameName [] []
  | char {a b : Char} {s t : Str} : ¬ NameSep a → ¬ NameSep b → a.toLower = b.toLower → SameName s t →
      SameName (a :: s) (b :: t)
  | seps {r r' s t : Str} : r ≠ [] → r' ≠ [] → (∀ c ∈ r, NameSep c) → (∀ c ∈ r', NameSep c) → SameName s t →
      SameName (r ++ s) (r' ++ t)

/-- A letter or digit of ASCII. -/
def NameChar (c : Char) : Prop := 'a' ≤ c ∧ c ≤ 'z' ∨ 'A' ≤ c ∧ c ≤ 'Z' ∨ '0' ≤ c ∧ c ≤ '9'

/-- A valid name: letters, digits and separators, with no separator at the start and the end. -/
def ValidName (s : Str) : Prop :=
  (∀ c ∈ s, NameChar c ∨ NameSep c) ∧
  (∃ c, s.head? = some c ∧ NameChar c) ∧ ∃ c, s.getLast? = some c ∧ NameChar c

/-- A name in normal form: small letters, digits and single dashes between them. -/
def NormalName (s : Str) : Prop :=
  (∀ c ∈ s, 'a' ≤ c ∧ c ≤ 'z' ∨ '0' ≤ c ∧ c ≤ '9' ∨ c = '-') ∧
  (∃ c, s.head? = some c ∧ c ≠ '-') ∧ (∃ c, s.getLast? = some c ∧ c ≠ '-') ∧
  ∀ a b, s ≠ a ++ c!"--" ++ b

end Gyp.Spec
