import Verif.Basic
/-
What a list of checksums says.
-/
namespace Gyp.Spec

/-- White space. -/
def Space (c : Char) : Prop :=
  (0x9 ≤ c.toNat ∧ c.toNat ≤ 0xd) ∨ (0x2000 ≤ c.toNat ∧ c.toNat ≤ 0x200a) ∨
    c.toNat ∈ [0x20, 0xa0, 0x1680, 0x2028, 0x2029, 0x202f, 0x205f, 0x3000, 0xfeff]

/-- Only white space. -/
def Blank (s : Str) : Prop := ∀ c ∈ s, Space c

/-- A word: not empty, no white space. -/
def IsWord (s : Str) : Prop := s ≠ [] ∧ ∀ c ∈ s, ¬ Space c

/-- The line says that the file `name` has the checksum `digest`: two words, the second of which
is the name, with or without `./` before it. -/
def EntryLine (line digest name : Str) : Prop :=
  ∃ a b c w, line = a ++ digest ++ b ++ w ++ c ∧ Blank a ∧ Blank b ∧ b ≠ [] ∧ Blank c ∧
    IsWord digest ∧ IsWord w ∧ (w = c!"./" ++ name ∨ (w = name ∧ ¬ c!"./" <+: name))

/-- The text, line by line: blank lines, then entries, then a line that is no entry and whatever
follows it. -/
def ListsEntries (text : Str) (entries : List Str) : Prop :=
  ∃ blanks rest, splitOn '\n' text = blanks ++ entries ++ rest ∧ (∀ l ∈ blanks, Blank l) ∧
    (∀ l ∈ entries, ∃ d n, EntryLine l d n) ∧
    (∀ l, rest.head? = some l → ¬ ∃ d n, EntryLine l d n) ∧
    (entries = [] → ∀ l, rest.head? = some l → ¬ Blank l)

/-- The text publishes the checksum `digest` for `name`: an entry says so and no later entry
names the file. -/
def Publishes (text name digest : Str) : Prop :=
  ∃ before line after, ListsEntries text (before ++ line :: after) ∧ EntryLine line digest name ∧
    ∀ l ∈ after, ∀ d, ¬ EntryLine l d name

end Gyp.Spec
