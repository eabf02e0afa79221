import Verif.Spec.Path
import Verif.Model.Release
/-
What is meant by the places a release is fetched from.
-/
namespace Gyp.Spec

/-- `d` is the URL `u` without the slashes at its end. -/
def WithoutSlashes (u d : Str) : Prop :=
  (∃ n, u = d ++ List.replicate n '/') ∧ d.getLast? ≠ some '/'

/-- `scheme://host` or `scheme://host/…` -/
def PlainUrl (u : Str) : Prop :=
  ∃ scheme host rest, u = scheme ++ c!"://" ++ host ++ rest ∧ ':' ∉ scheme ∧ '/' ∉ host ∧
    (rest = [] ∨ ∃ p, rest = '/' :: p)

/-- The names of the directories that hold the Windows import libraries. -/
def archDirs : List Str := [c!"win-x86", c!"win-x64", c!"win-arm64", c!"win-ia32"]

/-- No directory on the way is named like one that holds import libraries. -/
def NoArchDir (u : Str) : Prop := ∀ w ∈ splitOn '/' u, w ∉ archDirs

/-- The releases that publish a tarball with only the headers: 3.0.0 and later,
0.12.10 and later in the 0.12 series, 0.10.42 and later in the 0.10 series;
never a prerelease. -/
def HasHeadersTarball (v : Semver) : Prop :=
  v.pre = [] ∧ (3 ≤ v.major ∨
    (v.major = 0 ∧ v.minor = 12 ∧ 10 ≤ v.patch) ∨ (v.major = 0 ∧ v.minor = 10 ∧ 42 ≤ v.patch))

/-- `major.minor.patch`, with `-prerelease` if there is one. -/
def VersionText (v : Semver) (t : Str) : Prop :=
  (v.pre = [] ∧ t = natStr v.major ++ c!"." ++ natStr v.minor ++ c!"." ++ natStr v.patch) ∨
  (v.pre ≠ [] ∧
    t = natStr v.major ++ c!"." ++ natStr v.minor ++ c!"." ++ natStr v.patch ++ c!"-" ++ v.pre)

/-- Where the import library of an architecture is, below the directory of the
release: since 1.0.0 in `win-<arch>`, before that at the top (32 bit) or in a
directory named like the architecture. -/
def libFile (major : Nat) (name arch : Str) : Str :=
  if 1 ≤ major then c!"win-" ++ arch ++ c!"/" ++ name ++ c!".lib"
  else if arch = c!"x86" then name ++ c!".lib"
  else arch ++ c!"/" ++ name ++ c!".lib"

end Gyp.Spec

namespace Gyp.Spec

/-- The version asked for: the first argument if it is a version, else
`--target`, else the version of the running Node. -/
def Asked (parse : Str → Option Semver) (o : ReleaseOpts) (w : Str) : Prop :=
  ((parse o.arg).isSome ∧ o.arg ≠ [] ∧ w = o.arg) ∨
  (¬ ((parse o.arg).isSome ∧ o.arg ≠ []) ∧ o.target ≠ [] ∧ w = o.target) ∨
  (¬ ((parse o.arg).isSome ∧ o.arg ≠ []) ∧ o.target = [] ∧ w = o.defaultVersion)

/-- The distribution URL asked for: `--dist-url`, else `--disturl`, else the
mirror of the environment. -/
def DistAsked (o : ReleaseOpts) (u : Str) : Prop :=
  u ≠ [] ∧
  (u = o.distUrl ∨ (o.distUrl = [] ∧ (u = o.disturl ∨ (o.disturl = [] ∧ u = o.mirror))))

/-- No distribution URL is asked for. -/
def NoDistAsked (o : ReleaseOpts) : Prop := o.distUrl = [] ∧ o.disturl = [] ∧ o.mirror = []

/-- `version` is the version of the running Node. -/
def IsRunning (parse : Str → Option Semver) (o : ReleaseOpts) (version : Str) : Prop :=
  ∃ dv, parse o.defaultVersion = some dv ∧ VersionText dv version

/-- The release `r` is downloaded from the distribution directory `d` (no slash
at the end): the one asked for, or the official one when none is asked for and
the running Node does not say where its own headers are. -/
def FromDist (parse : Str → Option Semver) (o : ReleaseOpts) (r : Release) (d : Str) : Prop :=
  (∃ u, DistAsked o u ∧ WithoutSlashes u d) ∨
  (NoDistAsked o ∧ d = c!"https://nodejs.org/dist" ∧
    (¬ IsRunning parse o r.version ∨ ∀ info, o.defaultRelease = some info → info.headersUrl = []))

end Gyp.Spec
