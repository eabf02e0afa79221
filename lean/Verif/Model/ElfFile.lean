import Verif.Basic
/-
Reading the header of an ELF file: `ELFFile` of /repo/gyp/pylib/packaging/_elffile.py.
Bytes are natural numbers.
-/
namespace Gyp

/-- The number that bytes mean, the lowest byte first. -/
def bytesLE : List Nat → Nat
  | [] => 0
  | b :: r => b + 256 * bytesLE r

/-- The number that bytes mean; `>` in a format puts the highest byte first. -/
def bytesNum (big : Bool) (bs : List Nat) : Nat := bytesLE (if big then bs.reverse else bs)

/-- `struct.unpack` with the sizes of the fields; `none` is a `struct.error` (the length is not that of the format). -/
def unpackFields (big : Bool) : List Nat → List Nat → Option (List Nat)
  | [], b => if b = [] then some [] else none
  | n :: ns, b => if b.length < n then none else (unpackFields big ns (b.drop n)).map (bytesNum big (b.take n) :: ·)

/-- _elffile.py:90-91 `_read` at a place; a file that ends early gives fewer bytes. -/
def readFields (big : Bool) (sizes : List Nat) (f : List Nat) (pos : Nat) : Option (List Nat) :=
  unpackFields big sizes ((f.drop pos).take sizes.sum)

/-- _elffile.py:46-88 what is kept of the header. -/
structure ElfInfo where
  wide : Bool
  big : Bool
  machine : Nat
  flags : Nat
  phoff : Nat
  phentsize : Nat
  phnum : Nat
deriving DecidableEq

/-- _elffile.py:61-66 `e_fmt`: `HHIIIIIHHH` or `HHIQQQIHHH`. -/
def elfHeaderSizes (wide : Bool) : List Nat :=
  if wide then [2, 2, 4, 8, 8, 8, 4, 2, 2, 2] else [2, 2, 4, 4, 4, 4, 4, 2, 2, 2]

/-- _elffile.py:61-66 `_p_fmt`: `IIIIIIII` or `IIQQQQQQ`. -/
def elfEntrySizes (wide : Bool) : List Nat :=
  if wide then [4, 4, 8, 8, 8, 8, 8, 8] else [4, 4, 4, 4, 4, 4, 4, 4]

/-- _elffile.py:57-71 the width and the order of bytes; `none` is a `KeyError`. -/
def elfKind (capacity encoding : Nat) : Option (Bool × Bool) :=
  if capacity = 1 ∧ encoding = 1 then some (false, false)
  else if capacity = 1 ∧ encoding = 2 then some (false, true)
  else if capacity = 2 ∧ encoding = 1 then some (true, false)
  else if capacity = 2 ∧ encoding = 2 then some (true, true)
  else none

/-- _elffile.py:44-88 `ELFFile.__init__`; `none` is an `ELFInvalid`. -/
def elfParse (f : List Nat) : Option ElfInfo :=
  match readFields false (List.replicate 16 1) f 0 with
  | none => none
  | some ident =>
    if ident.take 4 ≠ [127, 69, 76, 70] then none
    else
      match elfKind (ident.getD 4 0) (ident.getD 5 0) with
      | none => none
      | some (wide, big) =>
        match readFields big (elfHeaderSizes wide) f 16 with
        | some [_, machine, _, _, phoff, _, flags, _, phentsize, phnum] =>
          some ⟨wide, big, machine, flags, phoff, phentsize, phnum⟩
        | _ => none

/-- `s.strip("\0")`. -/
def stripZeros (s : List Nat) : List Nat :=
  ((s.dropWhile (· == 0)).reverse.dropWhile (· == 0)).reverse

/-- _elffile.py:98-107 the loop of `interpreter`, with `n` entries left from entry `i` on.  Simplified: the bytes are not
decoded. -/
def elfLoop (f : List Nat) (e : ElfInfo) : Nat → Nat → Option (List Nat)
  | 0, _ => none
  | n + 1, i =>
    match readFields e.big (elfEntrySizes e.wide) f (e.phoff + e.phentsize * i) with
    | none => elfLoop f e n (i + 1)
    | some data =>
      if data.getD 0 0 ≠ 3 then elfLoop f e n (i + 1)
      else
        let offset := data.getD (if e.wide then 2 else 1) 0
        let size := data.getD (if e.wide then 5 else 4) 0
        some (stripZeros ((f.drop offset).take size))

/-- _elffile.py:93-108 `interpreter`. -/
def elfInterpreter (f : List Nat) (e : ElfInfo) : Option (List Nat) := elfLoop f e e.phnum 0

end Gyp
