import Verif.Spec.Digits
import Verif.Model.Install
import Verif.Spec.Shasums
/-
What an installation may leave on disk.
-/
namespace Gyp.Spec

/-- A header or gypi file: the last component of the name is something followed by `.h` or
`.gypi`. -/
def IsHeader (f : Str) : Prop :=
  ∃ p b stem, (f = b ∨ f = p ++ '/' :: b) ∧ '/' ∉ b ∧ stem ≠ [] ∧
    (b = stem ++ c!".h" ∨ b = stem ++ c!".gypi")

/-- The download had the checksum that a downloaded list publishes for it. -/
def Verified (E : InstEnv) (sums : List Str) (d : Str × Str) : Prop :=
  ∃ text ∈ sums, Publishes text d.1 (E.digest d.2)

/-- Where a file comes from: it is the marker of the version, or a header of the archive given
by the user, or a header of a downloaded archive, or itself downloaded. -/
def FileFrom (E : InstEnv) (got : List (Str × Str)) (file : Str × Str) : Prop :=
  file.1 = c!"installVersion" ∨
  (∃ b, E.tarball = some b ∧ file ∈ (E.untar b).1 ∧ IsHeader file.1) ∨
  (∃ d ∈ got, (file ∈ (E.untar d.2).1 ∧ IsHeader file.1) ∨ file.2 = d.2)

/-- Nothing goes wrong while an installation is removed. -/
def RemovalWorks (E : InstEnv) : Prop :=
  ∀ n, E.fault .removeStat n = none ∧ E.fault .rm n = none

/-- The file was written with this content; on Windows with `--ensure` a file that is in use is
left as it is. -/
def Put (E : InstEnv) (old new : Files) (f c : Str) : Prop :=
  aget new f = some c ∨
    (E.win = true ∧ E.ensure = true ∧ aget old f ≠ none ∧ aget new f = aget old f)

/-- The archive that is installed: none, the one given by the user, or one downloaded.  It is
not damaged and contains a header. -/
def ArchiveOf (E : InstEnv) (rel : InstRelease) (want : Bool) (got : List (Str × Str))
    (members : Files) : Prop :=
  (want = false ∧ members = []) ∨
  (want = true ∧ (∃ m ∈ members, IsHeader m.1) ∧ ∃ bytes, E.untar bytes = (members, false) ∧
    (E.tarball = some bytes ∨ (E.tarball = none ∧ (rel.tarballName, bytes) ∈ got)))

/-- The files of a version after its installation: every header of the archive (of several
members with one name, the last), the marker, on Windows the library; the rest is as before. -/
structure Complete (E : InstEnv) (rel : InstRelease) (got : List (Str × Str)) (members old new : Files) :
    Prop where
  marker : Put E old new c!"installVersion" ((toString E.installVersion).toList ++ ['\n'])
  headers : ∀ before f c after, members = before ++ (f, c) :: after → IsHeader f →
    (∀ m ∈ after, m.1 ≠ f) → Put E old new f c
  lib : E.win = true → ∃ b, (rel.libPath, b) ∈ got ∧
    Put E old new (E.arch ++ c!"/" ++ rel.name ++ c!".lib") b
  kept : ∀ f, f ≠ c!"installVersion" →
    (E.win = true → f ≠ E.arch ++ c!"/" ++ rel.name ++ c!".lib") →
    (∀ m ∈ members, IsHeader m.1 → m.1 ≠ f) → aget new f = aget old f

/-- The text starts with this number. -/
def StartsWithNumber (text : Str) (v : Nat) : Prop :=
  ∃ a sign ds r, text = a ++ sign ++ ds ++ r ∧ Blank a ∧ (sign = [] ∨ sign = c!"+") ∧
    (∀ c ∈ ds, '0' ≤ c ∧ c ≤ '9') ∧ (∀ c, r.head? = some c → ¬ ('0' ≤ c ∧ c ≤ '9')) ∧
    decValue ds = v

/-- The directory is there and its marker records the current version of the installer, or a
later one; on Windows the library is there. -/
def UpToDate (E : InstEnv) (disk : Disk) (dir : Str) : Prop :=
  ∃ fs text v, aget disk dir = some fs ∧ aget fs c!"installVersion" = some text ∧
    StartsWithNumber text v ∧ E.installVersion ≤ v ∧
    (E.win = true → aget fs (E.arch ++ c!"/node.lib") ≠ none)

/-- The version was installed now into `dir`: only this directory changed. -/
def InstalledNow (E : InstEnv) (rel : InstRelease) (dir : Str) (s s' : InstState) : Prop :=
  ∃ want members new, ArchiveOf E rel want s'.got members ∧ aget s'.disk dir = some new ∧
    Complete E rel s'.got members ((aget s.disk dir).getD []) new ∧
    (∀ d, d ≠ dir → aget s'.disk d = aget s.disk d) ∧
    -- only a missing library makes do without the archive
    (want = false → E.ensure = true ∧ E.win = true ∧ ∃ fs text v, aget s.disk dir = some fs ∧
      aget fs c!"installVersion" = some text ∧ StartsWithNumber text v ∧ E.installVersion ≤ v)

/-- Nothing was done: nothing was downloaded and the disk is as before. -/
def NothingDone (s s' : InstState) : Prop :=
  s'.disk = s.disk ∧ s'.got = s.got ∧ s'.begun = s.begun

end Gyp.Spec
