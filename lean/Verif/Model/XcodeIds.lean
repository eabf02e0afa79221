import Verif.Model.XcodeGroups
/-
The ids of the objects of an Xcode project: `gyp/pylib/gyp/xcodeproj_file.py`, `ComputeIDs`,
`EnsureNoIDCollisions` and the `Hashables` of groups and files.  SHA-1 is a parameter: any function from
bytes to five words.  Simplified: a hash that was updated step by step is the list of the texts it was
updated with; `_hashables` is empty, as it is but for the groups of products of other projects.
-/
namespace Gyp

/-- xcodeproj_file.py:427 `struct.pack(">i", n)`, for numbers that fit. -/
def packInt (n : Nat) : List UInt8 :=
  [UInt8.ofNat (n / 16777216), UInt8.ofNat (n / 65536), UInt8.ofNat (n / 256), UInt8.ofNat n]

/-- xcodeproj_file.py:418-430 `_HashUpdate`: the length in characters, then the text as UTF-8. -/
def hashUpdate (data : Str) : List UInt8 := packInt data.length ++ data.flatMap String.utf8EncodeChar

/-- What a hash was updated with. -/
def hashedBytes (chain : List Str) : List UInt8 := chain.flatMap hashUpdate

/-- xcodeproj_file.py:459-464 the words of a digest, folded into three. -/
def foldDigest (d : UInt32 × UInt32 × UInt32 × UInt32 × UInt32) : UInt32 × UInt32 × UInt32 :=
  (d.1 ^^^ d.2.2.2.1, d.2.1 ^^^ d.2.2.2.2, d.2.2.1)

/-- A digit of `%X`. -/
def hexDigitOf (n : Nat) : Char := if n < 10 then Char.ofNat (48 + n) else Char.ofNat (55 + n)

/-- `"%08X" % w` of a word. -/
def hexWord (w : UInt32) : Str :=
  [7, 6, 5, 4, 3, 2, 1, 0].map fun i => hexDigitOf (w.toNat / 16 ^ i % 16)

/-- xcodeproj_file.py:465 -/
def idOf (sha1 : List UInt8 → UInt32 × UInt32 × UInt32 × UInt32 × UInt32) (chain : List Str) : Str :=
  let f := foldDigest (sha1 (hashedBytes chain))
  hexWord f.1 ++ hexWord f.2.1 ++ hexWord f.2.2

/-- xcodeproj_file.py:1009-1062 `XCHierarchicalElement.Hashables` of what is not the main group. -/
def hierHashables (cls : Str) (name : Option Str) (tree : Str) (path : Option Str) : List Str :=
  (match name with
    | some n => [cls ++ c!".name", n]
    | none => []) ++
  match treePath tree path with
  | some p => (splitOn '/' p).flatMap fun c => [cls ++ c!".path", c]
  | none => []

/-- The name of the class of a group. -/
def groupClass (variant : Bool) : Str := if variant then c!"PBXVariantGroup" else c!"PBXGroup"

/-- xcodeproj_file.py:1000-1007 `Name` -/
def XNode.nameOf : XNode → Option Str
  | .file n _ p => xcName n p
  | .group _ n _ p _ => xcName n p

mutual
/-- xcodeproj_file.py:403-465, 500-509, 1186-1204 `ComputeIDs` of an object: what its hash and those of
all in it are updated with, in the order of `Descendants`; `seed` is what the seed was updated with. -/
def nodeChains (seed : List Str) : XNode → List (List Str)
  | .file n t p => [seed ++ hierHashables c!"PBXFileReference" n t p]
  | .group v n t p cs =>
    (seed ++ (hierHashables (groupClass v) n t p ++ cs.filterMap XNode.nameOf)) ::
      chainsOf (seed ++ hierHashables (groupClass v) n t p) cs

/-- xcodeproj_file.py:452-453 the children. -/
def chainsOf (seed : List Str) : List XNode → List (List Str)
  | [] => []
  | n :: rest => nodeChains seed n ++ chainsOf seed rest
end

/-- xcodeproj_file.py:467-485 `EnsureNoIDCollisions`, with the ids that were seen; `false` is the
`KeyError`. -/
def noCollisions (seen : List Str) : List Str → Bool
  | [] => true
  | id :: rest => if id ∈ seen then false else noCollisions (id :: seen) rest

end Gyp
