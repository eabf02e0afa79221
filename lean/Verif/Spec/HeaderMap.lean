import Verif.Basic
/-
What a compiler does with a header map: it starts at a slot given by the letters of the name, looks
at one slot after the other (after the last comes the first), passes slots with other names and
gives up at an empty one.  Names are compared without regard to case.
-/
namespace Gyp.Spec

/-- Two names that differ at most in case. -/
def sameName (a b : Str) : Bool := decide (a.map Char.toLower = b.map Char.toLower)

/-- The number of the slot where the search for a name starts. -/
def startSlot (name : Str) : Nat := 13 * (name.map fun c => c.toLower.toNat).sum

/-- The slot with a number; numbers go round. -/
def slotAt {α : Type} (table : List (Option α)) (i : Nat) : Option α := (table[i % table.length]?).join

/-- A compiler that looks up `name` passes only slots with other names, and then finds `r`. -/
def LooksUp (table : List (Option (Str × Str))) (name : Str) (r : Option Str) : Prop :=
  ∃ d : Nat, (∀ i < d, ∃ e, slotAt table (startSlot name + i) = some e ∧ sameName e.1 name = false) ∧
    (match r with
     | none => slotAt table (startSlot name + d) = none
     | some path => ∃ file, slotAt table (startSlot name + d) = some (file, path) ∧ sameName file name = true)

/-- The text at a place in a block of texts that end with a zero. -/
def textAt (block : Str) (place : Nat) : Str := (block.drop place).takeWhile (· ≠ '\x00')

end Gyp.Spec
