import Verif.Model.Path
import Verif.Model.Splitext
import Mathlib.Data.Nat.Bitwise
/-
Header maps of frameworks: `NextGreaterPowerOf2` and `WriteHmap` of
/repo/gyp/pylib/gyp/mac_tool.py:692-767.  Simplified: names are ASCII, so that `lower` is that of
ASCII and characters are bytes; the dictionary is the list of its items.
-/
namespace Gyp

/-- `int.bit_length`, used at mac_tool.py:693. -/
def bitLength (n : Nat) : Nat := if n = 0 then 0 else n.log2 + 1

/-- mac_tool.py:692-693 `NextGreaterPowerOf2`. -/
def nextGreaterPowerOf2 (n : Nat) : Nat := 2 ^ bitLength n

/-- mac_tool.py:731, 740 a slot of the table: a name and its path. -/
abbrev HmapSlot := Option (Str × Str)

/-- mac_tool.py:733-735 where the search for a name starts. -/
def hmapKey (file : Str) : Nat := (file.map fun c => c.toLower.toNat * 13).sum

/-- mac_tool.py:737-740 the next empty slot.  The bound is the number of slots; without an empty
slot the loop would not end, which is `none`. -/
def freeSlot (buckets : List HmapSlot) (capacity : Nat) : Nat → Nat → Option Nat
  | _, 0 => none
  | key, bound + 1 =>
    if (buckets.getD (key &&& (capacity - 1)) none).isSome then freeSlot buckets capacity (key + 1) bound
    else some (key &&& (capacity - 1))

/-- mac_tool.py:732-740 the names are put into the table one after the other. -/
def fillBuckets (capacity : Nat) : List (Str × Str) → List HmapSlot → Option (List HmapSlot)
  | [], buckets => some buckets
  | e :: es, buckets =>
    match freeSlot buckets capacity (hmapKey e.1) capacity with
    | none => none
    | some i => fillBuckets capacity es (buckets.set i (some e))

/-- mac_tool.py:730-740 -/
def hmapBuckets (files : List (Str × Str)) : Option (List HmapSlot) :=
  fillBuckets (nextGreaterPowerOf2 files.length) files
    (List.replicate (nextGreaterPowerOf2 files.length) none)

/-- mac_tool.py:742-752 the three numbers for each slot, from the next free place for texts. -/
def hmapOffsets : Nat → List HmapSlot → List (Nat × Nat × Nat)
  | _, [] => []
  | next, none :: bs => (0, 0, 0) :: hmapOffsets next bs
  | next, some (file, path) :: bs =>
    let prefixOffset := next + file.length + 1
    let suffixOffset := prefixOffset + (dirname path ++ ['/']).length + 1
    (next, prefixOffset, suffixOffset) :: hmapOffsets (suffixOffset + (basename path).length + 1) bs

/-- mac_tool.py:757-767 the texts of the slots as they are meant to be written. -/
def hmapTexts : List HmapSlot → Str
  | [] => []
  | none :: bs => hmapTexts bs
  | some (file, path) :: bs =>
    file ++ ['\x00'] ++ ((dirname path ++ ['/']) ++ ['\x00']) ++ (basename path ++ ['\x00']) ++ hmapTexts bs

/-- mac_tool.py:716-728, 742-752 the numbers at the start of the file, and the table. -/
structure Hmap where
  stringsOffset : Nat
  count : Nat
  capacity : Nat
  maxValueLength : Nat
  table : List (Nat × Nat × Nat)
  deriving DecidableEq

/-- mac_tool.py:696-767 how `WriteHmap` can end. -/
inductive HmapEnd where
  /-- `max` of no values: mac_tool.py:714 -/
  | noFiles
  /-- no empty slot -/
  | noEnd
  /-- mac_tool.py:760: `struct.pack` takes no `str` for `s`; the file has the header, the table and
  the byte after it -/
  | textRefused (written : Hmap)
  /-- the file is complete -/
  | finished (written : Hmap) (texts : Str)

/-- mac_tool.py:696-767 `WriteHmap`. -/
def writeHmap (files : List (Str × Str)) : HmapEnd :=
  if files = [] then .noFiles
  else
    match hmapBuckets files with
    | none => .noEnd
    | some buckets =>
      let h : Hmap :=
        { stringsOffset := 24 + 12 * nextGreaterPowerOf2 files.length
          count := files.length
          capacity := nextGreaterPowerOf2 files.length
          maxValueLength := (files.map fun e => e.2.length).foldl max 0
          table := hmapOffsets 1 buckets }
      if buckets.any (·.isSome) then .textRefused h else .finished h ['\x00']

end Gyp
