import Verif.Model.XcodeIds
/-
What the ids of the files of an Xcode project are made from.
-/
namespace Gyp.Spec

/-- The 96 bits of a digest of 160: the last 64 are added to the first without carry. -/
def Folds (d : UInt32 × UInt32 × UInt32 × UInt32 × UInt32) (a b c : UInt32) : Prop :=
  match d with
  | (d0, d1, d2, d3, d4) => a = d0 ^^^ d3 ∧ b = d1 ^^^ d4 ∧ c = d2

/-- Two digests that are the same in 96 bits. -/
def FoldSame (d e : UInt32 × UInt32 × UInt32 × UInt32 × UInt32) : Prop :=
  ∃ a b c, Folds d a b c ∧ Folds e a b c

mutual
/-- What the hashes of the files in an object are updated with: the names and the parts of the paths of
the groups they are in, from outside to inside, and their own. -/
def fileChains (seed : List Str) : XNode → List (List Str)
  | .file n t p => [seed ++ hierHashables c!"PBXFileReference" n t p]
  | .group v n t p cs => fileChainsAll (seed ++ hierHashables (groupClass v) n t p) cs

/-- The same for some objects. -/
def fileChainsAll (seed : List Str) : List XNode → List (List Str)
  | [] => []
  | n :: rest => fileChains seed n ++ fileChainsAll seed rest
end

/-- A path of names. -/
def RelPath (p : Str) : Prop := p ≠ [] ∧ ¬ c!"/" <+: p ∧ ¬ c!"/" <:+ p

/-- A group for a directory: no name of its own, and a path from the group it is in. -/
def DirGroup (n : Option Str) (t : Str) (p : Option Str) : Prop :=
  n = none ∧ t = c!"<group>" ∧ ∃ q, p = some q ∧ RelPath q

mutual
/-- All groups in an object are for directories, but for those of localized files. -/
def DirTree : XNode → Prop
  | .file _ _ _ => True
  | .group v n t p cs => (v = false → DirGroup n t p) ∧ DirTreeAll cs

/-- The same for some objects. -/
def DirTreeAll : List XNode → Prop
  | [] => True
  | n :: rest => DirTree n ∧ DirTreeAll rest
end

end Gyp.Spec
