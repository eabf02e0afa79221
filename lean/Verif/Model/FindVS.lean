import Verif.Model.Install
import Verif.Model.Version
import Verif.Model.Sort
/-
`lib/find-visualstudio.js`: the search for Visual Studio.

Simplifications.
* What the tools report (the setup module, the PowerShell script, the registry)
  is a parameter, already parsed: `none` where the code gives up on a tool
  (`parseData` and the test for the module, lines 187-221 and 253-299).
* `path.resolve`, and the test `path.relative(a, b) === ''` of Windows paths, are
  parameters; `path.join` appends names with backslashes (the first argument is a
  resolved path, which ends in a backslash only if it is a root).
* A variable that is not set is the empty string (the code tests truthiness).
* Messages are dropped (`validVersions` is only used in them).
-/
namespace Gyp

/-- A reported installation. -/
structure VsInst where
  path : Str
  version : Str
  packages : List Str
  deriving DecidableEq, Repr

/-- What the finder returns. -/
structure VsInfo where
  version : Str
  versionMajor : Nat
  versionMinor : Nat
  versionYear : Nat
  path : Str
  msBuild : Str
  toolset : Str
  sdk : Option Str
  deriving DecidableEq, Repr

structure VsEnv where
  /-- `nodeSemver.major` -/
  nodeMajor : Nat
  /-- `--msvs_version` -/
  msvsVersion : Str
  /-- VCINSTALLDIR -/
  vcInstallDir : Str
  /-- VSCMD_VER -/
  vscmdVer : Str
  /-- WindowsSDKVersion -/
  sdkVersion : Str
  /-- `process.arch === 'arm64'` -/
  arm64 : Bool
  exists_ : Str → Bool
  /-- `path.resolve(p)` -/
  resolve : Str → Str
  /-- `path.resolve(p, '..')` -/
  resolveUp : Str → Str
  /-- `path.relative(a, b) === ''` -/
  samePath : Str → Str → Bool
  /-- the report of the VSSetup module when asked for these years -/
  setupModule : List Nat → Option (List VsInst)
  /-- the report of the PowerShell script when asked for these years -/
  powerShell : List Nat → Option (List VsInst)
  /-- the registry entry of an old version: its VC directory -/
  regVC7 : Str → Option Str
  /-- the registry entry of an old version: its MSBuild directory -/
  regMSBuild : Str → Option Str

/-- `path.join(dir, n1, n2, …)` -/
def winJoin (dir : Str) (names : List Str) : Str :=
  (if endsWith dir c!"\\" then dir else dir ++ c!"\\") ++ joinWith c!"\\" names

def isDec (c : Char) : Bool := '0' ≤ c ∧ c ≤ '9'

/-- find-visualstudio.js:30-45 the configured year. -/
def configYear (E : VsEnv) : Option Nat :=
  if E.msvsVersion.length = 4 ∧ E.msvsVersion.all isDec then some (leadingNat E.msvsVersion) else none

/-- find-visualstudio.js:38-42 the configured path, empty for none. -/
def configPath (E : VsEnv) : Str :=
  if E.msvsVersion = [] then []
  else if E.msvsVersion.length = 4 ∧ E.msvsVersion.all isDec then []
  else E.resolve E.msvsVersion

/-- find-visualstudio.js:47-54 `envVcInstallDir`, empty for none. -/
def envVcInstallDir (E : VsEnv) : Str :=
  if E.vcInstallDir = [] then [] else E.resolveUp E.vcInstallDir

/-- find-visualstudio.js:573-593 `checkConfigVersion` (`configVersionYear` 0, from
the text `0000`, is falsy). -/
def checkConfigVersion (E : VsEnv) (versionYear : Nat) (vsPath : Str) : Bool :=
  if (configYear E).any fun y => y ≠ 0 && y ≠ versionYear then false
  else if configPath E ≠ [] ∧ ¬ E.samePath (configPath E) vsPath then false
  else if envVcInstallDir E ≠ [] ∧ ¬ E.samePath (envVcInstallDir E) vsPath then false
  else true

/-- find-visualstudio.js:368-394 `getVersionInfo`: `/^(\d+)\.(\d+)(?:\..*)?/` and the
year of the major version; `none` for `{}`. -/
def getVersionInfo (version : Str) : Option (Nat × Nat × Nat) :=
  let d := version.takeWhile isDec
  match version.dropWhile isDec with
  | '.' :: rest =>
    if d = [] ∨ rest.takeWhile isDec = [] then none
    else
      let major := leadingNat d
      let minor := leadingNat (rest.takeWhile isDec)
      if major = 15 then some (major, minor, 2017)
      else if major = 16 then some (major, minor, 2019)
      else if major = 17 then some (major, minor, 2022)
      else none
  | _ => none

/-- find-visualstudio.js:401-429 `getMSBuild`; the paths are those of a resolved
installation. -/
def getMSBuild (E : VsEnv) (path : Str) (packages : List Str) (versionYear : Option Nat) : Option Str :=
  let pkg := c!"Microsoft.VisualStudio.VC.MSBuild.Base"
  let msbuildPath := winJoin path [c!"MSBuild", c!"Current", c!"Bin", c!"MSBuild.exe"]
  let msbuildPathArm64 := winJoin path [c!"MSBuild", c!"Current", c!"Bin", c!"arm64", c!"MSBuild.exe"]
  if pkg ∈ packages ∧ versionYear = some 2017 then
    some (winJoin path [c!"MSBuild", c!"15.0", c!"Bin", c!"MSBuild.exe"])
  else if pkg ∈ packages ∧ versionYear = some 2019 then
    if E.arm64 ∧ E.exists_ msbuildPathArm64 then some msbuildPathArm64 else some msbuildPath
  else if E.arm64 ∧ E.exists_ msbuildPathArm64 then some msbuildPathArm64
  else if E.exists_ msbuildPath then some msbuildPath
  else none

/-- find-visualstudio.js:432-462 `getToolset` -/
def getToolset (E : VsEnv) (packages : List Str) (versionYear : Option Nat) : Option Str :=
  let pkgArm64 := c!"Microsoft.VisualStudio.Component.VC.Tools.ARM64"
  let pkgX64 := c!"Microsoft.VisualStudio.Component.VC.Tools.x86.x64"
  let express := c!"Microsoft.VisualStudio.WDExpress"
  if (E.arm64 ∧ pkgArm64 ∈ packages) ∨ pkgX64 ∈ packages ∨ express ∈ packages then
    if versionYear = some 2017 then some c!"v141"
    else if versionYear = some 2019 then some c!"v142"
    else if versionYear = some 2022 then some c!"v143"
    else none
  else none

/-- find-visualstudio.js:471-488 one step of the loop over the packages.  A text
without a number (`NaN`) leaves the maximum as it is; so does `0`, which is what
`parseIntOr0` returns for it, since the maximum starts at 0. -/
def sdkStep (best : Int) (pkg : Str) : Int :=
  if !startsWith pkg c!"Microsoft.VisualStudio.Component.Windows10SDK." &&
      !startsWith pkg c!"Microsoft.VisualStudio.Component.Windows11SDK." then best
  else
    let parts := splitOn '.' pkg
    if parts.length > 5 ∧ parts[5]? ≠ some c!"Desktop" then best
    else max best (parseIntOr0 ((parts[4]?).getD []))

/-- find-visualstudio.js:465-497 `getSDK` -/
def getSDK (packages : List Str) : Option Str :=
  let best := packages.foldl sdkStep 0
  if best ≠ 0 then some (c!"10.0." ++ intStr best ++ c!".0")
  else if c!"Microsoft.VisualStudio.Component.Windows81SDK" ∈ packages then some c!"8.1"
  else none

/-- find-visualstudio.js:304-313 a processed installation; the fields the later
steps find missing are `none`. -/
structure VsCand where
  version : Option (Nat × Nat × Nat)
  text : Str
  path : Str
  msBuild : Option Str
  toolset : Option Str
  sdk : Option Str

def vsProcess (E : VsEnv) (i : VsInst) : VsCand :=
  let path := E.resolve i.path
  let v := getVersionInfo i.version
  let year := v.map fun t => t.2.2
  { version := v, text := i.version, path := path
    msBuild := getMSBuild E path i.packages year
    toolset := getToolset E i.packages year
    sdk := getSDK i.packages }

def VsCand.year (c : VsCand) : Nat := match c.version with | some t => t.2.2 | none => 0

/-- find-visualstudio.js:329-360 what is accepted in the loop. -/
def vsAccept (E : VsEnv) (c : VsCand) : Option VsInfo :=
  match c.version, c.msBuild, c.toolset, c.sdk with
  | some (major, minor, year), some msBuild, some toolset, some sdk =>
    if checkConfigVersion E year c.path then
      some ⟨c.text, major, minor, year, c.path, msBuild, toolset, some sdk⟩
    else none
  | _, _, _, _ => none

/-- find-visualstudio.js:303-365 `processData` -/
def processData (E : VsEnv) (vsInfo : List VsInst) (supportedYears : List Nat) : Option VsInfo :=
  let infos := vsInfo.map (vsProcess E)
  let infos := infos.filter fun c => c.version.isSome && supportedYears.contains c.year
  let infos := pySorted (fun a b => decide (b.year ≤ a.year)) infos
  infos.findSome? (vsAccept E)

/-- find-visualstudio.js:155-159 `/^(\d+)\.(\d+)\.(\d+)\..*/`: the third number. -/
def sdkBuild (s : Str) : Option Str :=
  match splitOn '.' s with
  | a :: b :: c :: _ :: _ =>
    if a ≠ [] ∧ b ≠ [] ∧ c ≠ [] ∧ a.all isDec ∧ b.all isDec ∧ c.all isDec then some c else none
  | _ => none

/-- find-visualstudio.js:134-162 `findVSFromSpecifiedLocation` -/
def findVSFromSpecifiedLocation (E : VsEnv) (years : List Nat) : Option VsInfo :=
  if envVcInstallDir E = [] then none
  else
    processData E
      [{ path := E.resolve (envVcInstallDir E), version := E.vscmdVer
         packages :=
          [c!"Microsoft.VisualStudio.Component.VC.Tools.x86.x64",
           c!"Microsoft.VisualStudio.Component.VC.Tools.ARM64",
           c!"Microsoft.VisualStudio.VC.MSBuild.Base"] ++
          (match sdkBuild E.sdkVersion with
           | some n => [c!"Microsoft.VisualStudio.Component.Windows10SDK." ++ n ++ c!".Desktop"]
           | none => []) }] years

/-- find-visualstudio.js:177-221 `findNewVSUsingSetupModule` -/
def findNewVSUsingSetupModule (E : VsEnv) (years : List Nat) : Option VsInfo :=
  match E.setupModule years with
  | none => none
  | some l => processData E l years

/-- find-visualstudio.js:241-260 `findNewVS` -/
def findNewVS (E : VsEnv) (years : List Nat) : Option VsInfo :=
  match E.powerShell years with
  | none => none
  | some l => processData E l years

/-- find-visualstudio.js:532-566 `findOldVS` -/
def findOldVS (E : VsEnv) (version : Str) (major minor year : Nat) (toolset : Str) : Option VsInfo :=
  match E.regVC7 version with
  | none => none
  | some vc =>
    let vsPath := E.resolveUp vc
    match E.regMSBuild version with
    | none => none
    | some ms =>
      let msBuild := winJoin ms [c!"MSBuild.exe"]
      if checkConfigVersion E year vsPath then
        some ⟨version, major, minor, year, vsPath, msBuild, toolset, none⟩
      else none

/-- find-visualstudio.js:56-74, 121-132, 164-175, 225-237, 500-529: the eight
checks in order, the older versions only for the Node versions that support them. -/
def findVisualStudio (E : VsEnv) : Option VsInfo :=
  [findVSFromSpecifiedLocation E [2019, 2022],
   findNewVSUsingSetupModule E [2019, 2022],
   findNewVS E [2019, 2022],
   if E.nodeMajor ≥ 22 then none else findVSFromSpecifiedLocation E [2017],
   if E.nodeMajor ≥ 22 then none else findNewVSUsingSetupModule E [2017],
   if E.nodeMajor ≥ 22 then none else findNewVS E [2017],
   if E.nodeMajor ≥ 19 then none else findOldVS E c!"14.0" 14 0 2015 c!"v140",
   if E.nodeMajor ≥ 9 then none else findOldVS E c!"12.0" 12 0 2013 c!"v120"].findSome? id

end Gyp
