import Verif.Model.Version
import Verif.Model.Load
/-
What the version of a C library is in a text.
-/
namespace Gyp.Spec

/-- The text starts with two whole decimal numbers with a point between them. -/
def StartsWithVersion (s : Str) (a b : Nat) : Prop :=
  ∃ ds es rest : Str, s = ds ++ '.' :: (es ++ rest) ∧ ds ≠ [] ∧ es ≠ [] ∧
    (∀ c ∈ ds, asciiDigit c = true) ∧ (∀ c ∈ es, asciiDigit c = true) ∧
    (∀ c, rest.head? = some c → asciiDigit c = false) ∧ digitsVal ds = a ∧ digitsVal es = b

/-- A line of blanks only. -/
def BlankLine (l : Str) : Prop := ∀ c ∈ l, isPySpace c = true

/-- What the loader of musl prints: the first line that is not blank starts with `musl`, the next
one with `Version ` and the version, not counting blanks in front. -/
def MuslSays (lines : List Str) (a b : Nat) : Prop :=
  ∃ pre x mid y post, lines = pre ++ x :: (mid ++ y :: post) ∧
    (∀ l ∈ pre, BlankLine l) ∧ (∀ l ∈ mid, BlankLine l) ∧
    (∃ t, pyStrip x = c!"musl" ++ t) ∧ ∃ t, pyStrip y = c!"Version " ++ t ∧ StartsWithVersion t a b

end Gyp.Spec
