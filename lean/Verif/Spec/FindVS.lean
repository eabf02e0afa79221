import Verif.Model.FindVS
import Verif.Spec.Install
/-
What makes an installation of Visual Studio usable.
-/
namespace Gyp.Spec

/-- The version text starts with the numbers `major.minor`. -/
def VsVersion (text : Str) (major minor : Nat) : Prop :=
  ∃ a b r, text = a ++ c!"." ++ b ++ r ∧ IsDigits a ∧ IsDigits b ∧
    (∀ c, r.head? = some c → ¬ ('0' ≤ c ∧ c ≤ '9')) ∧ decValue a = major ∧ decValue b = minor

/-- The versions that are known: major version, year, toolset. -/
def knownVersions : List (Nat × Nat × Str) :=
  [(15, 2017, c!"v141"), (16, 2019, c!"v142"), (17, 2022, c!"v143")]

/-- MSBuild of an installation in `path`: 2017 has it in a directory of its own,
if the package is installed; else the native one on ARM64 if it exists, else the
general one, which exists or belongs to the installed package of 2019. -/
def MsBuild (E : VsEnv) (path : Str) (packages : List Str) (year : Nat) (p : Str) : Prop :=
  let general := winJoin path [c!"MSBuild", c!"Current", c!"Bin", c!"MSBuild.exe"]
  let native := winJoin path [c!"MSBuild", c!"Current", c!"Bin", c!"arm64", c!"MSBuild.exe"]
  let package := c!"Microsoft.VisualStudio.VC.MSBuild.Base" ∈ packages
  (year = 2017 ∧ package ∧ p = winJoin path [c!"MSBuild", c!"15.0", c!"Bin", c!"MSBuild.exe"]) ∨
  (¬ (year = 2017 ∧ package) ∧
    ((E.arm64 = true ∧ E.exists_ native = true ∧ p = native) ∨
     (¬ (E.arm64 = true ∧ E.exists_ native = true) ∧
       (E.exists_ general = true ∨ (year = 2019 ∧ package)) ∧ p = general)))

/-- A C++ toolset is installed. -/
def HasToolset (E : VsEnv) (packages : List Str) : Prop :=
  c!"Microsoft.VisualStudio.Component.VC.Tools.x86.x64" ∈ packages ∨
  c!"Microsoft.VisualStudio.WDExpress" ∈ packages ∨
  (E.arm64 = true ∧ c!"Microsoft.VisualStudio.Component.VC.Tools.ARM64" ∈ packages)

/-- The package is a desktop SDK of Windows 10 or 11 with this number. -/
def SdkPackage (pkg : Str) (n : Nat) : Prop :=
  ∃ w text rest, (w = c!"10" ∨ w = c!"11") ∧
    pkg = c!"Microsoft.VisualStudio.Component.Windows" ++ w ++ c!"SDK." ++ text ++ rest ∧
    '.' ∉ text ∧ (rest = [] ∨ rest = c!".Desktop" ∨ ∃ more, rest = c!".Desktop." ++ more) ∧
    StartsWithNumber text n ∧ 0 < n

/-- The SDK used: the one of Windows 10 or 11 with the largest number, else that
of Windows 8.1. -/
def Sdk (packages : List Str) (s : Str) : Prop :=
  (∃ n, (∃ pkg ∈ packages, SdkPackage pkg n) ∧ (∀ pkg ∈ packages, ∀ m, SdkPackage pkg m → m ≤ n) ∧
    s = c!"10.0." ++ natStr n ++ c!".0") ∨
  ((∀ pkg ∈ packages, ∀ m, ¬ SdkPackage pkg m) ∧
    c!"Microsoft.VisualStudio.Component.Windows81SDK" ∈ packages ∧ s = c!"8.1")

/-- The user asked for nothing else: not for another year, not for another
directory, and not by running in the prompt of another installation. -/
def Requested (E : VsEnv) (year : Nat) (path : Str) : Prop :=
  (E.msvsVersion.length = 4 → IsDigits E.msvsVersion → decValue E.msvsVersion ≠ 0 →
    year = decValue E.msvsVersion) ∧
  (E.msvsVersion ≠ [] → ¬ (E.msvsVersion.length = 4 ∧ IsDigits E.msvsVersion) →
    E.samePath (E.resolve E.msvsVersion) path = true) ∧
  (E.vcInstallDir ≠ [] → E.samePath (E.resolveUp E.vcInstallDir) path = true)

/-- The installation `i` is usable as `r`. -/
def UsableAs (E : VsEnv) (years : List Nat) (i : VsInst) (r : VsInfo) : Prop :=
  VsVersion i.version r.versionMajor r.versionMinor ∧
  (r.versionMajor, r.versionYear, r.toolset) ∈ knownVersions ∧ r.versionYear ∈ years ∧
  r.version = i.version ∧ r.path = E.resolve i.path ∧
  MsBuild E r.path i.packages r.versionYear r.msBuild ∧
  HasToolset E i.packages ∧ (∃ s, r.sdk = some s ∧ Sdk i.packages s) ∧
  Requested E r.versionYear r.path

/-- `r` is the newest usable installation of the report, the first one of its
year. -/
def Picks (E : VsEnv) (report : List VsInst) (years : List Nat) (r : VsInfo) : Prop :=
  ∃ before i after, report = before ++ i :: after ∧ UsableAs E years i r ∧
    (∀ i' ∈ report, ∀ r', UsableAs E years i' r' → r'.versionYear ≤ r.versionYear) ∧
    (∀ i' ∈ before, ∀ r', UsableAs E years i' r' → r'.versionYear < r.versionYear)

/-- The version of the SDK in a prompt is `a.b.n.rest`. -/
def PromptSdk (s n : Str) : Prop :=
  ∃ a b rest, s = a ++ c!"." ++ b ++ c!"." ++ n ++ c!"." ++ rest ∧ IsDigits a ∧ IsDigits b ∧ IsDigits n

/-- The installation in whose prompt the program runs: it is assumed to have the
tools, and the SDK of the prompt if there is one. -/
def PromptInstallation (E : VsEnv) (i : VsInst) : Prop :=
  E.vcInstallDir ≠ [] ∧ i.path = E.resolve (E.resolveUp E.vcInstallDir) ∧ i.version = E.vscmdVer ∧
  let tools :=
    [c!"Microsoft.VisualStudio.Component.VC.Tools.x86.x64",
     c!"Microsoft.VisualStudio.Component.VC.Tools.ARM64",
     c!"Microsoft.VisualStudio.VC.MSBuild.Base"]
  ((∃ n, PromptSdk E.sdkVersion n ∧
      i.packages = tools ++ [c!"Microsoft.VisualStudio.Component.Windows10SDK." ++ n ++ c!".Desktop"]) ∨
   ((∀ n, ¬ PromptSdk E.sdkVersion n) ∧ i.packages = tools))

/-- An old version, from its two registry entries. -/
def OldVersion (E : VsEnv) (version : Str) (major year : Nat) (toolset : Str) (r : VsInfo) : Prop :=
  ∃ vc ms, E.regVC7 version = some vc ∧ E.regMSBuild version = some ms ∧
    r = ⟨version, major, 0, year, E.resolveUp vc, winJoin ms [c!"MSBuild.exe"], toolset, none⟩ ∧
    Requested E year (E.resolveUp vc)

/-- The sources of installations, in the order in which they are asked, with what
each offers.  2017 is for Node before 22, 2015 for Node before 19, 2013 for Node
before 9. -/
def vsSources (E : VsEnv) : List (VsInfo → Prop) :=
  [fun r => ∃ i, PromptInstallation E i ∧ UsableAs E [2019, 2022] i r,
   fun r => ∃ l, E.setupModule [2019, 2022] = some l ∧ Picks E l [2019, 2022] r,
   fun r => ∃ l, E.powerShell [2019, 2022] = some l ∧ Picks E l [2019, 2022] r,
   fun r => E.nodeMajor < 22 ∧ ∃ i, PromptInstallation E i ∧ UsableAs E [2017] i r,
   fun r => E.nodeMajor < 22 ∧ ∃ l, E.setupModule [2017] = some l ∧ Picks E l [2017] r,
   fun r => E.nodeMajor < 22 ∧ ∃ l, E.powerShell [2017] = some l ∧ Picks E l [2017] r,
   fun r => E.nodeMajor < 19 ∧ OldVersion E c!"14.0" 14 2015 c!"v140" r,
   fun r => E.nodeMajor < 9 ∧ OldVersion E c!"12.0" 12 2013 c!"v120" r]

/-- `path.resolve` never returns an empty text. -/
def PathsResolve (E : VsEnv) : Prop := (∀ p, E.resolve p ≠ []) ∧ ∀ p, E.resolveUp p ≠ []

end Gyp.Spec
