import Verif.Model.SysTags
/-
The tags of wheels that fit a system (PEP 425, 513, 571, 599, 600).
-/
namespace Gyp.Spec

/-- A platform: an architecture and the oldest glibc that will do, written in the new way or in the old way. -/
structure ManyTag where
  arch : Str
  major : Nat
  minor : Nat
  old : Bool

/-- How the tag of a platform is written. -/
def TagText (t : ManyTag) (s : Str) : Prop :=
  if t.old then
    (t.major = 2 ∧ t.minor = 17 ∧ s = c!"manylinux2014_" ++ t.arch) ∨
    (t.major = 2 ∧ t.minor = 12 ∧ s = c!"manylinux2010_" ++ t.arch) ∨
    (t.major = 2 ∧ t.minor = 5 ∧ s = c!"manylinux1_" ++ t.arch)
  else s = c!"manylinux_" ++ natStr t.major ++ c!"_" ++ natStr t.minor ++ c!"_" ++ t.arch

/-- Versions in order. -/
def NotNewer (a b : Nat × Nat) : Prop := a.1 < b.1 ∨ a.1 = b.1 ∧ a.2 ≤ b.2

/-- The distributor of the system may refuse a version: by a function, or by one flag for each of the old names. -/
def Refused (mod : Option ManyModule) (arch : Str) (v : Nat × Nat) : Prop :=
  ∃ m, mod = some m ∧
    ((∃ f, m.compatible = some f ∧ f v.1 v.2 arch = some false) ∨
     m.compatible = none ∧
      (v = (2, 5) ∧ m.many1 = some false ∨ v = (2, 12) ∧ m.many2010 = some false ∨
       v = (2, 17) ∧ m.many2014 = some false))

/-- The oldest glibc that is supported. -/
def OldestGlibc (archs : List Str) (v : Nat × Nat) : Prop :=
  (c!"x86_64" ∈ archs ∨ c!"i686" ∈ archs) ∧ v = (2, 5) ∨
  ¬ (c!"x86_64" ∈ archs ∨ c!"i686" ∈ archs) ∧ v = (2, 17)

/-- The platforms that fit a system with this glibc: not too old, not newer than the system, not refused.
Of earlier major versions the minor versions up to 50 count. -/
def GlibcFits (glibc : Nat × Nat) (mod : Option ManyModule) (archs : List Str) (t : ManyTag) : Prop :=
  t.arch ∈ archs ∧ (∃ o, OldestGlibc archs o ∧ NotNewer o (t.major, t.minor)) ∧
  NotNewer (t.major, t.minor) glibc ∧ (t.major < glibc.1 → t.minor ≤ 50) ∧
  ¬ Refused mod t.arch (t.major, t.minor)

/-- Better tags come first: an earlier architecture, then a newer glibc, then the new way to write it. -/
def Better (archs : List Str) (a b : ManyTag) : Prop :=
  archs.idxOf a.arch < archs.idxOf b.arch ∨
  a.arch = b.arch ∧ ((b.major < a.major ∨ b.major = a.major ∧ b.minor < a.minor) ∨
    a.major = b.major ∧ a.minor = b.minor ∧ a.old = false ∧ b.old = true)

/-- The stable ABI is there from 3.2 on. -/
def HasStableAbi (major minor : Nat) : Prop := 3 < major ∨ major = 3 ∧ 2 ≤ minor

/-- The interpreter and the ABI fit CPython of this version; the number tells how well (0 is best): an ABI of its own, the
stable ABI, no ABI, the stable ABI of an earlier version, the later the better. -/
def CPythonFits (major minor : Nat) (abis : List Str) (t : WTag) (rank : Nat) : Prop :=
  t.interpreter = c!"cp" ++ natStr major ++ natStr minor ∧
    ((∃ a ∈ abis, a ≠ c!"abi3" ∧ a ≠ c!"none" ∧ t.abi = lowerStr a ∧ rank = 0) ∨
     HasStableAbi major minor ∧ t.abi = c!"abi3" ∧ rank = 1 ∨
     t.abi = c!"none" ∧ rank = 2) ∨
  HasStableAbi major minor ∧ t.abi = c!"abi3" ∧
    ∃ k, 2 ≤ k ∧ k < minor ∧ t.interpreter = c!"cp" ++ natStr major ++ natStr k ∧ rank = 2 + (minor - k)

/-- The name of a version of the language that code for `major.minor` may ask for, and how well it fits. -/
def PyFits (major minor : Nat) (s : Str) (rank : Nat) : Prop :=
  s = c!"py" ++ natStr major ++ natStr minor ∧ rank = 0 ∨ s = c!"py" ++ natStr major ∧ rank = 1 ∨
  ∃ k, k < minor ∧ s = c!"py" ++ natStr major ++ natStr k ∧ rank = 1 + (minor - k)

end Gyp.Spec
