import Verif.Basic
import Verif.Model.Assoc
import Verif.Model.Sort
/-
`gyp/pylib/gyp/MSVSVersion.py`: which version of Visual Studio projects are made for, and which script
sets up its compilers.  The registry, the files and the paths of the machine are parameters; how the
registry is read (lines 154-259) and `cygpath` (427-432) are not modelled.
-/
namespace Gyp

/-- The machine: the registry (key and value name), which files there are, whether there is a file
`*express.exe` in a directory, how paths are joined and made normal, and the environment. -/
structure VsMachine where
  registry : Str → Str → Option Str
  fileExists : Str → Bool
  expressIn : Str → Bool
  join : List Str → Str
  norm : Str → Str
  env : Str → Option Str

/-- MSVSVersion.py:22-46 what is known of a version (`compatible_sdks` is left out, and so is the
description). -/
structure VsVersion where
  shortName : Str
  solutionVersion : Str
  projectVersion : Str
  flatSln : Bool
  usesVcxproj : Bool
  path : Option Str
  sdkBased : Bool
  defaultToolset : Option Str
deriving DecidableEq

/-- MSVSVersion.py:271-423 the table: name, solution version, project version, flat, vcxproj, toolset. -/
def vsTable : List (Str × Str × Str × Bool × Bool × Option Str) :=
  [(c!"2022", c!"12.00", c!"17.0", false, true, some c!"v143"),
   (c!"2019", c!"12.00", c!"16.0", false, true, some c!"v142"),
   (c!"2017", c!"12.00", c!"15.0", false, true, some c!"v141"),
   (c!"2015", c!"12.00", c!"14.0", false, true, some c!"v140"),
   (c!"2013", c!"13.00", c!"12.0", false, true, some c!"v120"),
   (c!"2013e", c!"13.00", c!"12.0", true, true, some c!"v120"),
   (c!"2012", c!"12.00", c!"4.0", false, true, some c!"v110"),
   (c!"2012e", c!"12.00", c!"4.0", true, true, some c!"v110"),
   (c!"2010", c!"11.00", c!"4.0", false, true, none),
   (c!"2010e", c!"11.00", c!"4.0", true, true, none),
   (c!"2008", c!"10.00", c!"9.00", false, false, none),
   (c!"2008e", c!"10.00", c!"9.00", true, false, none),
   (c!"2005", c!"9.00", c!"8.00", false, false, none),
   (c!"2005e", c!"9.00", c!"8.00", true, false, none)]

/-- MSVSVersion.py:262-424 `_CreateVersion`; `none` is `KeyError`. -/
def createVersion (m : VsMachine) (name : Str) (path : Option Str) (sdkBased : Bool) : Option VsVersion :=
  let path := path.map fun p => if p = [] then p else m.norm p
  (vsTable.find? fun r => r.1 = name).map fun r =>
    { shortName := name, solutionVersion := r.2.1, projectVersion := r.2.2.1, flatSln := r.2.2.2.1,
      usesVcxproj := r.2.2.2.2.1, path, sdkBased, defaultToolset := r.2.2.2.2.2 }

/-- MSVSVersion.py:454-464 `version_to_year`. -/
def versionYear (v : Str) : Str :=
  (aget [(c!"8.0", c!"2005"), (c!"9.0", c!"2008"), (c!"10.0", c!"2010"), (c!"11.0", c!"2012"),
    (c!"12.0", c!"2013"), (c!"14.0", c!"2015"), (c!"15.0", c!"2017"), (c!"16.0", c!"2019"),
    (c!"17.0", c!"2022")] v).getD []

/-- MSVSVersion.py:470-475 the first keys. -/
def installKeys (v : Str) : List Str :=
  [c!"HKLM\\Software\\Microsoft\\VisualStudio\\" ++ v,
   c!"HKLM\\Software\\Wow6432Node\\Microsoft\\VisualStudio\\" ++ v,
   c!"HKLM\\Software\\Microsoft\\VCExpress\\" ++ v,
   c!"HKLM\\Software\\Wow6432Node\\Microsoft\\VCExpress\\" ++ v]

/-- MSVSVersion.py:501-506 the other keys. -/
def sxsKeys : List Str :=
  [c!"HKLM\\Software\\Microsoft\\VisualStudio\\SxS\\VC7",
   c!"HKLM\\Software\\Wow6432Node\\Microsoft\\VisualStudio\\SxS\\VC7",
   c!"HKLM\\Software\\Microsoft\\VisualStudio\\SxS\\VS7",
   c!"HKLM\\Software\\Wow6432Node\\Microsoft\\VisualStudio\\SxS\\VS7"]

/-- MSVSVersion.py:476-498 what one of the first keys adds. -/
def detectInstalled (m : VsMachine) (force : Bool) (v key : Str) : Option (List VsVersion) :=
  match m.registry key c!"InstallDir" with
  | none => some []
  | some path =>
    if path = [] then some []
    else if !force && m.fileExists (m.join [path, c!"devenv.exe"]) then
      (createVersion m (versionYear v) (some (m.join [path, c!"..", c!".."])) false).map ([·])
    else if m.expressIn path then
      (createVersion m (versionYear v ++ c!"e") (some (m.join [path, c!"..", c!".."])) false).map ([·])
    else some []

/-- MSVSVersion.py:507-522 what one of the other keys adds. -/
def detectSxs (m : VsMachine) (v key : Str) : Option (List VsVersion) :=
  match m.registry key v with
  | none => some []
  | some path =>
    if path = [] then some []
    else if v = c!"15.0" then
      if m.fileExists path then (createVersion m c!"2017" (some path) false).map ([·]) else some []
    else if v ≠ c!"14.0" then
      (createVersion m (versionYear v ++ c!"e") (some (m.join [path, c!".."])) true).map ([·])
    else some []

/-- MSVSVersion.py:435-524 `_DetectVisualStudioVersions`; `none` is `KeyError`. -/
def detectVersions (m : VsMachine) (force : Bool) (vs : List Str) : Option (List VsVersion) := do
  let found ← vs.mapM fun v => do
    let a ← (installKeys v).mapM (detectInstalled m force v)
    let b ← sxsKeys.mapM (detectSxs m v)
    some (a.flatten ++ b.flatten)
  some found.flatten

/-- MSVSVersion.py:538-554 `version_map`. -/
def versionMap : List (Str × List Str) :=
  [(c!"auto", [c!"17.0", c!"16.0", c!"15.0", c!"14.0", c!"12.0", c!"10.0", c!"9.0", c!"8.0", c!"11.0"]),
   (c!"2005", [c!"8.0"]), (c!"2005e", [c!"8.0"]), (c!"2008", [c!"9.0"]), (c!"2008e", [c!"9.0"]),
   (c!"2010", [c!"10.0"]), (c!"2010e", [c!"10.0"]), (c!"2012", [c!"11.0"]), (c!"2012e", [c!"11.0"]),
   (c!"2013", [c!"12.0"]), (c!"2013e", [c!"12.0"]), (c!"2015", [c!"14.0"]), (c!"2017", [c!"15.0"]),
   (c!"2019", [c!"16.0"]), (c!"2022", [c!"17.0"])]

/-- MSVSVersion.py:527-574 `SelectVisualStudioVersion`; `none` is an exception (`ValueError` or
`KeyError`). -/
def selectVersion (m : VsMachine) (version : Str) (allowFallback : Bool) : Option VsVersion :=
  let version := if version = c!"auto" then (m.env c!"GYP_MSVS_VERSION").getD c!"auto" else version
  let override := (m.env c!"GYP_MSVS_OVERRIDE_PATH").getD []
  if override ≠ [] then
    let name := (m.env c!"GYP_MSVS_VERSION").getD []
    if name = [] then none
    else createVersion m name (some override) true
  else
    (aget versionMap version).bind fun vs =>
      (detectVersions m (decide ('e' ∈ version)) vs).bind fun versions =>
        match versions with
        | first :: _ => some first
        | [] =>
          if !allowFallback then none
          else if version = c!"auto" then createVersion m c!"2005" none false
          else createVersion m version none false

/-- MSVSVersion.py:87-142 `_SetupScriptInternal`; `none` is a failed assertion, or the
`TypeError` of a version without a path. -/
def setupScriptInternal (m : VsMachine) (v : VsVersion) (target : Str) : Option (List Str) :=
  if target ≠ c!"x86" ∧ target ≠ c!"x64" then none
  else
    let sdkDir := (m.env c!"WindowsSDKDir").getD []
    let setup := m.norm (m.join [sdkDir, c!"Bin", c!"SetEnv.Cmd"])
    if v.sdkBased && decide (sdkDir ≠ []) && m.fileExists setup then some [setup, c!"/" ++ target]
    else
      v.path.bind fun path =>
      let host64 := m.env c!"PROCESSOR_ARCHITECTURE" = some c!"AMD64" ∨
        m.env c!"PROCESSOR_ARCHITEW6432" = some c!"AMD64"
      if strLe c!"2017" v.shortName then
        let script := m.norm (m.join [path, c!"VC", c!"Auxiliary", c!"Build", c!"vcvarsall.bat"])
        let hostArch := if host64 then c!"amd64" else c!"x86"
        let targetArch := if target = c!"x64" then c!"amd64" else c!"x86"
        some [script, if hostArch ≠ targetArch then hostArch ++ c!"_" ++ targetArch else hostArch]
      else
        let vcvarsall := m.norm (m.join [path, c!"VC", c!"vcvarsall.bat"])
        let express := v.shortName.getLast? = some 'e'
        if target = c!"x86" then
          if strLe c!"2013" v.shortName ∧ ¬ express ∧ host64 then some [vcvarsall, c!"amd64_x86"]
          else some [m.norm (m.join [path, c!"Common7", c!"Tools", c!"vsvars32.bat"])]
        else
          some [vcvarsall, if ¬ express ∧ host64 then c!"amd64" else c!"x86_amd64"]

/-- MSVSVersion.py:144-151 `SetupScript`; `none` is an exception. -/
def setupScript (m : VsMachine) (v : VsVersion) (target : Str) : Option (List Str) :=
  (setupScriptInternal m v target).bind fun data =>
    if m.fileExists (data.headD []) then some data else none

end Gyp
