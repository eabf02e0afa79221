import Verif.Model.MsvsSources
import Verif.Model.Splitext
import Verif.Model.Sort
/-
`gyp/pylib/gyp/generator/msvs.py`: what is said once of a Visual Studio project (the properties of all
configurations, the Windows SDK, the tool set) and the order of the parts of a `.vcxproj` file.  The
registry and the directories of the machine are parameters.
-/
namespace Gyp

/-- The machine: the registry (key and value name), the names in a directory (`none`: there is no such
directory) and the environment. -/
structure SdkMachine where
  registry : Str → Str → Option Str
  listDir : Str → Option (List Str)
  env : Str → Option Str

/-- A configuration: `msvs_configuration_platform`, `msvs_windows_target_platform_version`,
`msvs_windows_sdk_version` and `msbuild_toolset`. -/
structure GlobConfig where
  platform : Option Str := none
  targetVersion : Option Str := none
  sdkVersion : Option Str := none
  toolset : Option Str := none
deriving DecidableEq

/-- A target: its type and tool set (`host`, `target`), its configurations in order, the name of the
default one, and the settings that its project has once.  A value that is missing and an empty one are
the same to the code; both are `[]` here. -/
structure GlobTarget where
  type : Str
  toolset : Str
  configurations : List (Str × GlobConfig)
  defaultConfiguration : Str
  targetPlatform : Str := []
  targetPlatformMin : Str := []
  winrt : Bool := false
  winphone : Bool := false
  revision : Str := []
  external : Bool := false
deriving DecidableEq

/-- The key of `MSVSVersion.py:44`: `float(v.replace("v", ""))`, in tenths; only digits and one digit
after the point are modelled. -/
def sdkTenths (v : Str) : Nat :=
  (v.filter Char.isDigit).foldl (fun n c => 10 * n + (c.toNat - '0'.toNat)) 0

/-- MSVSVersion.py:43-45 and the table of 271-423: the SDKs that a version of Visual Studio works with,
the newest first. -/
def compatibleSdks (name : Str) : List Str :=
  pySorted (fun a b => decide (sdkTenths b ≤ sdkTenths a))
    (if name ∈ [c!"2022", c!"2019", c!"2017"] then [c!"v8.1", c!"v10.0"] else [])

/-- msvs.py:307-308 `_ConfigPlatform`. -/
def globPlatform (c : GlobConfig) : Str := c.platform.getD c!"Win32"

/-- msvs.py:330-333 the keys of an SDK in the registry. -/
def sdkKeys (ver : Str) : List Str :=
  [c!"HKLM\\Software\\Microsoft\\" ++ c!"Microsoft SDKs\\Windows\\" ++ ver,
   c!"HKLM\\Software\\Wow6432Node\\" ++ c!"Microsoft\\Microsoft SDKs\\" ++ c!"Windows\\" ++ ver]

/-- msvs.py:334-353 one key: the last, in the order of text, of the names in `include` that begin with
the version of the product.  The warning of 354-359 is not modelled. -/
def sdkAt (m : SdkMachine) (key : Str) : Option Str :=
  match m.registry key c!"InstallationFolder" with
  | none => none
  | some [] => none
  | some dir =>
    let version := (m.registry key c!"ProductVersion").getD []
    let names := (m.listDir (dir ++ c!"\\include")).getD []
    (pySorted (fun a b => strLe b a) (names.filter fun x => startsWith x version)).head?

/-- msvs.py:323-359 `_ConfigWindowsTargetPlatformVersion`.  `\d` is taken as a digit of ASCII. -/
def configSdk (m : SdkMachine) (sdks : List Str) (c : GlobConfig) : Option Str :=
  match c.targetVersion with
  | some (d :: r) => if d.isDigit then some (d :: r) else look
  | _ => look
where
  /-- msvs.py:327-353 the loops over versions and keys. -/
  look : Option Str :=
    let vers := match c.sdkVersion with
      | some (d :: r) => [d :: r]
      | _ => sdks
    (vers.flatMap sdkKeys).findSome? (sdkAt m)

/-- Python `a or b` of values that are text or `None`. -/
def textOr (a b : Option Str) : Option Str :=
  match a with
  | some (c :: r) => some (c :: r)
  | _ => b

/-- Whether a value counts as true in Python. -/
def textTrue (a : Option Str) : Bool :=
  match a with
  | some (_ :: _) => true
  | _ => false

/-- msvs.py:2972-2981 the loop over configurations: the platform and the version of the SDK. -/
def globLoop (m : SdkMachine) (sdks : List Str) :
    List GlobConfig → Option Str × Option Str → Option Str × Option Str
  | [], acc => acc
  | c :: cs, (platform, sdk) =>
    let platform := textOr platform (some (globPlatform c))
    let sdk := textOr sdk (configSdk m sdks c)
    if textTrue platform && textTrue sdk then (platform, sdk) else globLoop m sdks cs (platform, sdk)

/-- msvs.py:2927-2995 `_GetMSBuildGlobalProperties`: names and values in order; `none` is the
`GypError` of 2987-2990. -/
def globalProperties (m : SdkMachine) (sdks : List Str) (t : GlobTarget) (guid projectName : Str) :
    Option (List (Str × Str)) :=
  let start := [(c!"ProjectGuid", guid), (c!"Keyword", c!"Win32Proj"),
    (c!"RootNamespace", (splitext projectName).1),
    (c!"IgnoreWarnCompileDuplicatedFilename", c!"true")]
  let arch :=
    if m.env c!"PROCESSOR_ARCHITECTURE" = some c!"AMD64" ∨
        m.env c!"PROCESSOR_ARCHITEW6432" = some c!"AMD64" then
      [(c!"PreferredToolArchitecture", c!"x64")]
    else []
  let given :=
    if t.targetPlatform = [] then []
    else [(c!"WindowsTargetPlatformVersion", t.targetPlatform),
      (c!"WindowsTargetPlatformMinVersion",
        if t.targetPlatformMin = [] then t.targetPlatform else t.targetPlatformMin)]
  let store :=
    if t.winrt then
      [(c!"DefaultLanguage", c!"en-US"), (c!"AppContainerApplication", c!"true"),
        (c!"ApplicationTypeRevision", if t.revision = [] then c!"8.1" else t.revision),
        (c!"ApplicationType", if t.winphone then c!"Windows Phone" else c!"Windows Store")]
    else []
  let found := globLoop m sdks (t.configurations.map (·.2)) (none, none)
  let arm :=
    if found.1 = some c!"ARM" then [(c!"WindowsSDKDesktopARMSupport", c!"true")] else []
  match found.2 with
  | some (d :: r) =>
    some (start ++ arch ++ given ++ store ++ [(c!"WindowsTargetPlatformVersion", d :: r)] ++ arm)
  | _ => if sdks = [] then some (start ++ arch ++ given ++ store ++ arm) else none

/-- msvs.py:990-1007 `_GetMsbuildToolsetOfProject`, with 960-961; the outer `none` is the `KeyError` of
a default configuration that is not there. -/
def projectToolset (t : GlobTarget) (versionDefault : Option Str) : Option (Option Str) :=
  (aget t.configurations t.defaultConfiguration).map fun c =>
    let toolset := if ¬ textTrue c.toolset ∧ textTrue versionDefault then versionDefault else c.toolset
    if t.type = c!"windows_driver" then some (c!"WindowsKernelModeDriver" ++ c!"10.0") else toolset

/-- The parts of a project.  `given` is a part that other models are about, with its text. -/
inductive ProjectPart where
  /-- an item of the group `ProjectConfigurations`, all in one part: configuration and platform -/
  | configurations (l : List (Str × Str))
  | globals (l : List (Str × Str))
  | imported (project : Str)
  /-- the group `Configuration` of properties -/
  | details (text : Str)
  | toolset (name : Str)
  /-- the group `ExtensionSettings` of imports -/
  | extensions (files : List Str)
  | sheets (text : Str)
  | macros
  | properties (text : Str)
  | settings (text : Str)
  | sources (text : Str)
  | references (text : Str)
  /-- the group `ExtensionTargets` of imports -/
  | extensionTargets (files : List Str)
  /-- a target of an external builder -/
  | builder (text : Str)
deriving DecidableEq

/-- The parts of a project that are made elsewhere: details of configurations, property sheets,
properties, settings of tools, sources, references, the files of rules, and the targets of an external
builder (msvs.py:3831-3870). -/
structure ProjectGiven where
  details : List Str
  sheets : List Str
  properties : List Str
  settings : List Str
  sources : List Str
  references : List Str
  rulesProps : List Str
  rulesTargets : List Str
  builder : List Str

/-- msvs.py:2911-2924 `_GetMSBuildProjectConfigurations`, with 2897-2902. -/
def globConfigurations (t : GlobTarget) : List (Str × Str) :=
  (pySorted (fun a b => strLe a.1 b.1) t.configurations).map fun c =>
    configurationAndPlatform c.1 { platform := globPlatform c.2 } t.toolset

/-- msvs.py:3027-3038 `_GetMSBuildLocalProperties`. -/
def localProperties (toolset : Option Str) : List ProjectPart :=
  match toolset with
  | some (c :: r) => [.toolset (c :: r)]
  | _ => []

/-- msvs.py:3748-3768 the files imported from Visual Studio. -/
def vcFile (name : Str) : Str := c!"$(VCTargetsPath)\\" ++ name

/-- msvs.py:3770-3821 `_GenerateMSBuildProject`: the parts of a project in order (the attributes of the
root are left out); `none` is an error. -/
def projectParts (m : SdkMachine) (sdks : List Str) (t : GlobTarget) (versionDefault : Option Str)
    (guid projectName : Str) (g : ProjectGiven) : Option (List ProjectPart) := do
  let toolset ← projectToolset t versionDefault
  let globals ← globalProperties m sdks t guid projectName
  let platforms := uniquePlatforms (t.configurations.map fun c =>
    (c.1, { platform := globPlatform c.2 }))
  let marmasm := c!"arm64" ∈ platforms ∧ t.toolset = c!"target"
  pure ([.configurations (globConfigurations t), .globals globals,
      .imported (vcFile c!"Microsoft.Cpp.Default.props")] ++
    g.details.map .details ++
    localProperties (if t.winphone then some c!"v120_wp81" else toolset) ++
    [.imported (vcFile c!"Microsoft.Cpp.props"),
      .imported (vcFile (c!"BuildCustomizations\\" ++ c!"masm.props"))] ++
    (if marmasm then [.imported (vcFile (c!"BuildCustomizations\\" ++ c!"marmasm.props"))] else []) ++
    [.extensions g.rulesProps] ++
    g.sheets.map .sheets ++
    [.macros] ++
    g.properties.map .properties ++
    g.settings.map .settings ++
    g.sources.map .sources ++
    g.references.map .references ++
    [.imported (vcFile c!"Microsoft.Cpp.targets"),
      .imported (vcFile (c!"BuildCustomizations\\" ++ c!"masm.targets"))] ++
    (if marmasm then [.imported (vcFile (c!"BuildCustomizations\\" ++ c!"marmasm.targets"))] else []) ++
    [.extensionTargets (pySorted strLe g.rulesTargets)] ++
    (if t.external then g.builder.map .builder else []))

end Gyp
