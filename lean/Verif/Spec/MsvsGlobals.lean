import Verif.Model.MsvsGlobals
/-
What the properties of a whole Visual Studio project should be, in words of the registry, of directories
and of MSBuild.
-/
namespace Gyp.Spec

/-- The version that a configuration names itself: it has to begin with a digit. -/
def NamesVersion (c : GlobConfig) (v : Str) : Prop :=
  c.targetVersion = some v ∧ ∃ d r, v = d :: r ∧ d.isDigit = true

/-- The SDKs to look for: the one that the configuration names, or those of Visual Studio. -/
def SearchedSdks (sdks : List Str) (c : GlobConfig) (vers : List Str) : Prop :=
  (∃ v, c.sdkVersion = some v ∧ v ≠ [] ∧ vers = [v]) ∨
  ((c.sdkVersion = none ∨ c.sdkVersion = some []) ∧ vers = sdks)

/-- The places of an SDK in the registry: of 64 bits first, then of 32 bits. -/
def registryPlaces (vers : List Str) : List Str :=
  vers.flatMap fun v =>
    [c!"HKLM\\Software\\Microsoft\\" ++ c!"Microsoft SDKs\\Windows\\" ++ v,
     c!"HKLM\\Software\\Wow6432Node\\" ++ c!"Microsoft\\Microsoft SDKs\\" ++ c!"Windows\\" ++ v]

/-- Version `v` of an SDK is installed at a place: there is a folder, and headers of version `v` in it,
where `v` begins with the version of the product. -/
def SdkInstalled (m : SdkMachine) (place v : Str) : Prop :=
  ∃ dir names, m.registry place c!"InstallationFolder" = some dir ∧ dir ≠ [] ∧
    m.listDir (dir ++ c!"\\include") = some names ∧ v ∈ names ∧
    ∃ rest, v = (m.registry place c!"ProductVersion").getD [] ++ rest

/-- `v` is the version of the SDK for a configuration: the one it names itself; else, of the first place
that has any, the last one in the order of text. -/
def SdkOf (m : SdkMachine) (sdks : List Str) (c : GlobConfig) (v : Str) : Prop :=
  NamesVersion c v ∨
  ((∀ w, ¬ NamesVersion c w) ∧ ∃ vers before place after, SearchedSdks sdks c vers ∧
    registryPlaces vers = before ++ place :: after ∧
    (∀ p ∈ before, ∀ w, ¬ SdkInstalled m p w) ∧
    SdkInstalled m place v ∧ ∀ w, SdkInstalled m place w → strLe w v = true)

/-- Names of files are not empty. -/
def SaneNames (m : SdkMachine) : Prop := ∀ d names, m.listDir d = some names → [] ∉ names

/-- The tool set of a project: that of Windows Phone, that of drivers, the one the default configuration
names, and else that of Visual Studio. -/
def ToolsetOf (t : GlobTarget) (versionDefault : Option Str) (name : Str) : Prop :=
  name ≠ [] ∧
  if t.winphone = true then name = c!"v120_wp81"
  else if t.type = c!"windows_driver" then name = c!"WindowsKernelModeDriver" ++ c!"10.0"
  else ∃ c, aget t.configurations t.defaultConfiguration = some c ∧
    (c.toolset = some name ∨
      ((c.toolset = none ∨ c.toolset = some []) ∧ versionDefault = some name))

/-- The values that a list of properties has for a name, in order. -/
def valuesOf (name : Str) (l : List (Str × Str)) : List Str :=
  (l.filter fun p => p.1 = name).map (·.2)

/-- The place of a part in what MSBuild reads from top to bottom. -/
def placeOf : ProjectPart → Option Nat
  | .configurations _ => some 0
  | .globals _ => some 1
  | .details _ => some 3
  | .toolset _ => some 4
  | .extensions _ => some 6
  | .sheets _ => some 7
  | .macros => some 8
  | .properties _ => some 9
  | .settings _ => some 10
  | .sources _ => some 11
  | .references _ => some 12
  | .extensionTargets _ => some 14
  | .builder _ => some 15
  | .imported p =>
    if p = c!"$(VCTargetsPath)\\" ++ c!"Microsoft.Cpp.Default.props" then some 2
    else if endsWith p c!".props" then some 5
    else if endsWith p c!".targets" then some 13
    else none

/-- The part is to be read no later than the other one. -/
def NotAfter (a b : ProjectPart) : Prop :=
  ∃ i j, placeOf a = some i ∧ placeOf b = some j ∧ i ≤ j

/-- The files that a project imports from Visual Studio, in order. -/
def vcImports (parts : List ProjectPart) : List Str :=
  parts.filterMap fun
    | .imported p => some p
    | _ => none

/-- A file of Visual Studio. -/
def vcPath (name : Str) : Str := c!"$(VCTargetsPath)\\" ++ name

/-- A configuration is shown as a configuration and a platform: the name up to its last `_`, and its own
platform, except that tools for the host of an `arm64` build are for `x64`. -/
def ConfigShownAs (toolset : Str) (c : Str × GlobConfig) (q : Str × Str) : Prop :=
  (('_' ∉ c.1 ∧ q.1 = c.1) ∨ ∃ suffix, '_' ∉ suffix ∧ c.1 = q.1 ++ '_' :: suffix) ∧
  q.2 = (if toolset = c!"host" ∧ c.2.platform = some c!"arm64" then c!"x64"
    else c.2.platform.getD c!"Win32")

end Gyp.Spec
