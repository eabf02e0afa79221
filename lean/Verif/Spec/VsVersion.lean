import Verif.Model.VsVersion
/-
What it means for a version of Visual Studio to be found on a machine, and what the scripts that set
up its compilers do.
-/
namespace Gyp.Spec

/-- The years of the versions. -/
def vsYears : List (Str × Str) :=
  [(c!"8.0", c!"2005"), (c!"9.0", c!"2008"), (c!"10.0", c!"2010"), (c!"11.0", c!"2012"),
   (c!"12.0", c!"2013"), (c!"14.0", c!"2015"), (c!"15.0", c!"2017"), (c!"16.0", c!"2019"),
   (c!"17.0", c!"2022")]

/-- The order in which versions are preferred when none is asked for. -/
def vsPreferred : List Str :=
  [c!"17.0", c!"16.0", c!"15.0", c!"14.0", c!"12.0", c!"10.0", c!"9.0", c!"8.0", c!"11.0"]

/-- The places in the registry where versions are looked for, in order: those with the directory of
the program, and those with the directory of the compilers. -/
def vsPlaces (v : Str) : List (Str × Str) :=
  [(c!"HKLM\\Software\\Microsoft\\VisualStudio\\" ++ v, c!"InstallDir"),
   (c!"HKLM\\Software\\Wow6432Node\\Microsoft\\VisualStudio\\" ++ v, c!"InstallDir"),
   (c!"HKLM\\Software\\Microsoft\\VCExpress\\" ++ v, c!"InstallDir"),
   (c!"HKLM\\Software\\Wow6432Node\\Microsoft\\VCExpress\\" ++ v, c!"InstallDir"),
   (c!"HKLM\\Software\\Microsoft\\VisualStudio\\SxS\\VC7", v),
   (c!"HKLM\\Software\\Wow6432Node\\Microsoft\\VisualStudio\\SxS\\VC7", v),
   (c!"HKLM\\Software\\Microsoft\\VisualStudio\\SxS\\VS7", v),
   (c!"HKLM\\Software\\Wow6432Node\\Microsoft\\VisualStudio\\SxS\\VS7", v)]

/-- A version is found at a place of the registry, by an edition (its name), at a directory;
`express` is whether only Express editions are asked for, `sdk` is whether only the compilers are
known to be there. -/
inductive FoundVs (m : VsMachine) (express : Bool) (v year : Str) : Str × Str → Str → Str → Bool → Prop where
  /-- The program is there. -/
  | full (key dir : Str) : m.registry key c!"InstallDir" = some dir → dir ≠ [] → express = false →
      m.fileExists (m.join [dir, c!"devenv.exe"]) = true →
      FoundVs m express v year (key, c!"InstallDir") year (m.norm (m.join [dir, c!"..", c!".."])) false
  /-- Only the program of the Express edition is there, or only that one is asked for. -/
  | express (key dir : Str) : m.registry key c!"InstallDir" = some dir → dir ≠ [] →
      (express = true ∨ m.fileExists (m.join [dir, c!"devenv.exe"]) = false) → m.expressIn dir = true →
      FoundVs m express v year (key, c!"InstallDir") (year ++ c!"e") (m.norm (m.join [dir, c!"..", c!".."])) false
  /-- The directory of version 15. -/
  | fifteen (key dir : Str) : m.registry key v = some dir → dir ≠ [] → v = c!"15.0" →
      m.fileExists dir = true → FoundVs m express v year (key, v) year (m.norm dir) false
  /-- The directory of the compilers of another version (of version 14 there is no such edition). -/
  | compilers (key dir : Str) : m.registry key v = some dir → dir ≠ [] → v ≠ c!"15.0" → v ≠ c!"14.0" →
      FoundVs m express v year (key, v) (year ++ c!"e") (m.norm (m.join [dir, c!".."])) true

/-- The editions there are. -/
def vsEditions : List Str :=
  [c!"2005", c!"2005e", c!"2008", c!"2008e", c!"2010", c!"2010e", c!"2012", c!"2012e", c!"2013", c!"2013e",
   c!"2015", c!"2017", c!"2019", c!"2022"]

/-- The versions to look for, for what is asked (a year, perhaps with an `e` for Express, or `auto`). -/
def vsCandidates (asked : Str) : List Str :=
  if asked = c!"auto" then vsPreferred
  else (vsYears.filter fun x => asked = x.2 ∨ asked = x.2 ++ c!"e").map (·.1)

/-- The versions to look for, each with its places, in order. -/
def vsSearch (asked : Str) : List (Str × Str × Str) :=
  (vsCandidates asked).flatMap fun v => (vsPlaces v).map fun p => (v, p)

/-- What is found for a version at a place. -/
def FoundAt (m : VsMachine) (asked : Str) (x : Str × Str × Str) (name path : Str) (sdk : Bool) : Prop :=
  ∃ year, (x.1, year) ∈ vsYears ∧ FoundVs m (decide ('e' ∈ asked)) x.1 year x.2 name path sdk

/-- What is asked for: by the caller, or else by the environment. -/
def vsAsked (m : VsMachine) (version : Str) : Str :=
  if version ≠ c!"auto" then version else (m.env c!"GYP_MSVS_VERSION").getD c!"auto"

/-- What the scripts set up, by name of the script and argument: on which kind of processor the
compiler runs, and for which it compiles. -/
def scriptCompilers : List (Str × Option Str × Str × Str) :=
  [(c!"SetEnv.Cmd", some c!"/x86", c!"x86", c!"x86"), (c!"SetEnv.Cmd", some c!"/x64", c!"x86", c!"x64"),
   (c!"vsvars32.bat", none, c!"x86", c!"x86"),
   (c!"vcvarsall.bat", some c!"x86", c!"x86", c!"x86"), (c!"vcvarsall.bat", some c!"amd64", c!"x64", c!"x64"),
   (c!"vcvarsall.bat", some c!"amd64_x86", c!"x64", c!"x86"), (c!"vcvarsall.bat", some c!"x86_amd64", c!"x86", c!"x64")]

/-- The processor is a 64-bit one. -/
def Is64 (m : VsMachine) : Prop :=
  m.env c!"PROCESSOR_ARCHITECTURE" = some c!"AMD64" ∨ m.env c!"PROCESSOR_ARCHITEW6432" = some c!"AMD64"

end Gyp.Spec
