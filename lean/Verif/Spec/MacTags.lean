import Verif.Model.MacTags
/-
The platform tags of macOS.
-/
namespace Gyp.Spec

/-- A platform: the oldest macOS that will do, and the format of the binary. -/
structure MacTag where
  major : Nat
  minor : Nat
  format : Str

/-- How the tag is written. -/
def MacText (t : MacTag) (s : Str) : Prop :=
  s = c!"macosx_" ++ natStr t.major ++ c!"_" ++ natStr t.minor ++ c!"_" ++ t.format

/-- The releases of macOS that run on a processor: Intel from 10.4 on, 64-bit PowerPC 10.4 and 10.5,
PowerPC up to 10.6. -/
def Runs (cpu : Str) (major minor : Nat) : Prop :=
  ((cpu = c!"x86_64" ∨ cpu = c!"i386") → 10 < major ∨ major = 10 ∧ 4 ≤ minor) ∧
  (cpu = c!"ppc64" → major = 10 ∧ 4 ≤ minor ∧ minor ≤ 5) ∧
  (cpu = c!"ppc" → major < 10 ∨ major = 10 ∧ minor ≤ 6)

/-- The formats of binaries with code for a processor, besides its own. -/
def HasCodeFor (format cpu : Str) : Prop :=
  format = c!"intel" ∧ (cpu = c!"x86_64" ∨ cpu = c!"i386") ∨
  format = c!"fat64" ∧ (cpu = c!"x86_64" ∨ cpu = c!"ppc64") ∨
  format = c!"fat32" ∧ (cpu = c!"x86_64" ∨ cpu = c!"i386" ∨ cpu = c!"ppc") ∨
  format = c!"fat" ∧ (cpu = c!"i386" ∨ cpu = c!"ppc") ∨
  format = c!"universal2" ∧ (cpu = c!"arm64" ∨ cpu = c!"x86_64") ∨
  format = c!"universal" ∧
    (cpu = c!"x86_64" ∨ cpu = c!"i386" ∨ cpu = c!"ppc64" ∨ cpu = c!"ppc" ∨ cpu = c!"intel")

/-- A binary for this release in this format runs on a processor. -/
def MacUsable (cpu : Str) (t : MacTag) : Prop :=
  Runs cpu t.major t.minor ∧ (t.format = cpu ∨ HasCodeFor t.format cpu)

/-- The platforms for a macOS: on 10.x the releases up to it; from 11 on the major releases up to it, and of the releases
10.4 to 10.16 the usable ones on x86_64 and universal2 on others. -/
def MacFits (version : Nat × Nat) (cpu : Str) (t : MacTag) : Prop :=
  version.1 = 10 ∧ t.major = 10 ∧ t.minor ≤ version.2 ∧ MacUsable cpu t ∨
  11 ≤ version.1 ∧ 11 ≤ t.major ∧ t.major ≤ version.1 ∧ t.minor = 0 ∧ MacUsable cpu t ∨
  11 ≤ version.1 ∧ t.major = 10 ∧ 4 ≤ t.minor ∧ t.minor ≤ 16 ∧
    (cpu = c!"x86_64" ∧ MacUsable cpu t ∨ cpu ≠ c!"x86_64" ∧ t.format = c!"universal2")

/-- Releases in order. -/
def EarlierMac (a b : MacTag) : Prop := a.major < b.major ∨ a.major = b.major ∧ a.minor < b.minor

end Gyp.Spec
