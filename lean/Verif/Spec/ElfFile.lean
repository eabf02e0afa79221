import Verif.Model.ElfFile
/-
The header of an ELF file, by the places of the fields (System V ABI, chapters 4 and 5).
-/
namespace Gyp.Spec

/-- The bytes mean a number: the byte at place `i` counts 256 to the power of the number of bytes that are lower. -/
def Means (big : Bool) (bs : List Nat) (v : Nat) : Prop :=
  v = ((List.range bs.length).map fun i =>
    bs.getD i 0 * 256 ^ (if big then bs.length - 1 - i else i)).sum

/-- The file has at a place a field of this size with this number. -/
def FieldAt (f : List Nat) (big : Bool) (place size v : Nat) : Prop :=
  place + size ≤ f.length ∧ Means big ((f.drop place).take size) v

/-- The header of a file: the mark, the class (1 for 32 bits, 2 for 64), the order of bytes (1 little, 2 big), the
machine, the flags and the table of program headers. -/
def ElfHeader (f : List Nat) (e : ElfInfo) : Prop :=
  f.take 4 = [127, 69, 76, 70] ∧
  f[4]? = some (if e.wide then 2 else 1) ∧ f[5]? = some (if e.big then 2 else 1) ∧
  FieldAt f e.big 18 2 e.machine ∧
  FieldAt f e.big (if e.wide then 32 else 28) (if e.wide then 8 else 4) e.phoff ∧
  FieldAt f e.big (if e.wide then 48 else 36) 4 e.flags ∧
  FieldAt f e.big (if e.wide then 54 else 42) 2 e.phentsize ∧
  FieldAt f e.big (if e.wide then 56 else 44) 2 e.phnum

/-- Entry `i` of the table of program headers is in the file and names an interpreter: type 3, and where it is. -/
def InterpEntry (f : List Nat) (e : ElfInfo) (i offset size : Nat) : Prop :=
  e.phoff + e.phentsize * i + (if e.wide then 56 else 32) ≤ f.length ∧
  FieldAt f e.big (e.phoff + e.phentsize * i) 4 3 ∧
  FieldAt f e.big (e.phoff + e.phentsize * i + if e.wide then 8 else 4) (if e.wide then 8 else 4) offset ∧
  FieldAt f e.big (e.phoff + e.phentsize * i + if e.wide then 32 else 16) (if e.wide then 8 else 4) size

/-- A text without the zeros around it. -/
def WithoutZeros (raw s : List Nat) : Prop :=
  ∃ a b, raw = a ++ s ++ b ∧ (∀ x ∈ a, x = 0) ∧ (∀ x ∈ b, x = 0) ∧ s.head? ≠ some 0 ∧ s.getLast? ≠ some 0

end Gyp.Spec
