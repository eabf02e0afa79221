import Verif.Model.Assoc
import Verif.Model.Cli
import Verif.Model.FindVS
/-
`lib/create-config-gypi.js`: the settings that `configure` computes and writes to
`build/config.gypi`, and the way `lib/build.js` reads that file.

Simplifications.
* A JavaScript object is the list of its properties in their order; keys that are
  array indices, which JavaScript enumerates first, are not moved.  Numbers are integers.
* `undefined` is the absence of the property: `JSON.stringify` leaves it out.
* The settings to start with (`getBaseConfigGypi`: of the running Node or of the headers
  that are used) are a parameter.
* `path.resolve` and the writing of the file are not modelled.
-/
namespace Gyp

/-- A value of JavaScript that JSON can represent. -/
inductive JVal where
  | null
  | bool (b : Bool)
  | num (i : Int)
  | str (s : Str)
  | arr (l : List JVal)
  | obj (l : List (Str × JVal))

/-! ### `JSON.stringify(config, boolsToString, 2)` -/

/-- A hexadecimal digit as `JSON.stringify` prints it. -/
def hexLower (n : Nat) : Char := if n < 10 then Char.ofNat (48 + n) else Char.ofNat (87 + n)

/-- ECMAScript `QuoteJSONString`: one character. -/
def jsonChar (c : Char) : Str :=
  if c = '\x08' then c!"\\b"
  else if c = '\t' then c!"\\t"
  else if c = '\n' then c!"\\n"
  else if c = '\x0c' then c!"\\f"
  else if c = '\r' then c!"\\r"
  else if c = '"' then c!"\\\""
  else if c = '\\' then c!"\\\\"
  else if c.toNat < 32 then c!"\\u00" ++ [hexLower (c.toNat / 16), hexLower (c.toNat % 16)]
  else [c]

def jsonString (s : Str) : Str := c!"\"" ++ s.flatMap jsonChar ++ c!"\""

mutual
/-- create-config-gypi.js:134-139 (`boolsToString`) and 147: a value, inside brackets that are indented
by `ind`. -/
def jsonText (ind : Str) : JVal → Str
  | .null => c!"null"
  | .bool b => jsonString (if b then c!"true" else c!"false")
  | .num i => intStr i
  | .str s => jsonString s
  | .arr [] => c!"[]"
  | .arr (x :: xs) => c!"[\n" ++ jsonItems (ind ++ c!"  ") (x :: xs) ++ c!"\n" ++ ind ++ c!"]"
  | .obj [] => c!"{}"
  | .obj (x :: xs) => c!"{\n" ++ jsonMembers (ind ++ c!"  ") (x :: xs) ++ c!"\n" ++ ind ++ c!"}"
def jsonItems (ind : Str) : List JVal → Str
  | [] => []
  | [x] => ind ++ jsonText ind x
  | x :: y :: xs => ind ++ jsonText ind x ++ c!",\n" ++ jsonItems ind (y :: xs)
def jsonMembers (ind : Str) : List (Str × JVal) → Str
  | [] => []
  | [(k, x)] => ind ++ jsonString k ++ c!": " ++ jsonText ind x
  | (k, x) :: y :: xs => ind ++ jsonString k ++ c!": " ++ jsonText ind x ++ c!",\n" ++ jsonMembers ind (y :: xs)
end

/-- create-config-gypi.js:145 -/
def gypiPrefix : Str := c!"# Do not edit. File was generated by node-gyp's \"configure\" step"

/-- create-config-gypi.js:145-149 what is written to the file. -/
def gypiText (config : JVal) : Str := gypiPrefix ++ c!"\n" ++ jsonText [] config ++ c!"\n"

/-! ### build.js -/

/-- A character that `.` of a regular expression does not match. -/
def jsLineEnd (c : Char) : Bool := c = '\n' || c = '\r' || c.toNat = 0x2028 || c.toNat = 0x2029

/-- build.js:56 `data.replace(/#.+\n/, '')` -/
def dropComment : Str → Str
  | [] => []
  | c :: s =>
    if c = '#' ∧ s.takeWhile (fun x => !jsLineEnd x) ≠ [] ∧
        (s.dropWhile (fun x => !jsLineEnd x)).head? = some '\n' then
      (s.dropWhile (fun x => !jsLineEnd x)).tail
    else c :: dropComment s

/-! ### The settings -/

/-- What `configure` knows when it computes the settings. -/
structure CfgEnv where
  /-- `gyp.opts` in their order -/
  opts : List (Str × JVal)
  /-- `opt in gyp.configDefs` (true also for names every object has) -/
  known : Str → Bool
  /-- `process.arch` -/
  arch : Str
  win : Bool
  nodeDir : Str
  python : Str
  /-- what the search for Visual Studio found; with the make generator there is no search
  (configure.js:110-113) -/
  vs : Option VsInfo

/-- JavaScript truthiness. -/
def JVal.truthy : JVal → Bool
  | .null => false
  | .bool b => b
  | .num i => i ≠ 0
  | .str s => s ≠ []
  | .arr _ => true
  | .obj _ => true

/-- `gyp.opts.x` as a condition. -/
def optTruthy (E : CfgEnv) (k : Str) : Bool :=
  match aget E.opts k with
  | some v => v.truthy
  | none => false

/-- create-config-gypi.js:117 every dash of the option's name is replaced by an underscore. -/
def underscored (s : Str) : Str := s.map fun c => if c = '-' then '_' else c

/-- create-config-gypi.js:69-71 `gyp.opts.arch || process.arch || 'ia32'` -/
def targetArch (E : CfgEnv) : JVal :=
  match aget E.opts c!"arch" with
  | some v => if v.truthy then v else if E.arch ≠ [] then .str E.arch else .str c!"ia32"
  | none => if E.arch ≠ [] then .str E.arch else .str c!"ia32"

/-- `variables.target_arch === 'arm64'` -/
def isArm64 : JVal → Bool
  | .str s => s = c!"arm64"
  | _ => false

/-- `o.k = v` where `v` may be `undefined`. -/
def putOpt (d : List (Str × JVal)) (k : Str) : Option Str → List (Str × JVal)
  | some v => aset d k (.str v)
  | none => d.filter fun p => p.1 ≠ k

/-- create-config-gypi.js:90-91 (the second comparison looks at the major version again) -/
def marmasm (vs : Option VsInfo) : Bool :=
  match vs with
  | some vs => vs.versionMajor > 15 || (vs.versionMajor = 15 && vs.versionMajor ≥ 9)
  | none => false

/-- create-config-gypi.js:84-87 `vsInfo.sdk` when it is not empty -/
def vsSdk (vs : Option VsInfo) : Option Str :=
  match vs with
  | some vs => match vs.sdk with
    | some s => if s ≠ [] then some s else none
    | none => none
  | none => none

/-- create-config-gypi.js:58-61 -/
def cfgDebug (E : CfgEnv) (d : List (Str × JVal)) : List (Str × JVal) :=
  match aget E.opts c!"debug" with
  | some v => aset d c!"default_configuration" (.str (if v.truthy then c!"Debug" else c!"Release"))
  | none => d

/-- create-config-gypi.js:63-65 -/
def cfgRelease (d : List (Str × JVal)) : List (Str × JVal) :=
  match aget d c!"default_configuration" with
  | some v => if v.truthy then d else aset d c!"default_configuration" (.str c!"Release")
  | none => aset d c!"default_configuration" (.str c!"Release")

/-- create-config-gypi.js:85-87 -/
def cfgSdk (E : CfgEnv) (d : List (Str × JVal)) : List (Str × JVal) :=
  match vsSdk E.vs with
  | some sdk => aset d c!"msvs_windows_target_platform_version" (.str sdk)
  | none => d

/-- create-config-gypi.js:52-101 `config.target_defaults` -/
def cfgDefaults (E : CfgEnv) (base : List (Str × JVal)) : List (Str × JVal) :=
  let d := aset (aset (aset (aset base c!"cflags" (.arr [])) c!"defines" (.arr []))
    c!"include_dirs" (.arr [])) c!"libraries" (.arr [])
  let d := cfgRelease (cfgDebug E d)
  let d := if isArm64 (targetArch E) then
      aset (aset d c!"msvs_configuration_platform" (.str c!"ARM64")) c!"xcode_configuration_platform" (.str c!"arm64")
    else d
  if E.win then
    let d := putOpt d c!"msbuild_toolset" (E.vs.map VsInfo.toolset)
    let d := cfgSdk E d
    if isArm64 (targetArch E) ∧ marmasm E.vs then aset d c!"msvs_enable_marmasm" (.num 1) else d
  else d

/-- `config.variables.clang === 1` -/
def isOne : Option JVal → Bool
  | some (.num i) => i = 1
  | _ => false

/-- create-config-gypi.js:70-105 the fixed part of `config.variables` -/
def cfgFixed (E : CfgEnv) (base : List (Str × JVal)) : List (Str × JVal) :=
  let v := aset base c!"target_arch" (targetArch E)
  let v := aset v c!"nodedir" (.str E.nodeDir)
  let v := aset v c!"python" (.str E.python)
  let v := aset v c!"standalone_static_library" (.num (if optTruthy E c!"thin" then 0 else 1))
  if E.win then
    let v := putOpt v c!"msbuild_path" (E.vs.map VsInfo.msBuild)
    if isOne (aget v c!"clang") then aset v c!"clang" (.num 0) else v
  else v

/-- create-config-gypi.js:111-119 the options that are not node-gyp's own become variables. -/
def cfgVariables (E : CfgEnv) (base : List (Str × JVal)) : List (Str × JVal) :=
  E.opts.foldl (fun v o =>
    if o.1 = c!"argv" then v
    else if E.known o.1 then v
    else aset v (underscored o.1) o.2) (cfgFixed E base)

/-- The properties of an object; `{}` is assigned where the value is missing or falsy
(create-config-gypi.js:41-46).  A truthy value that is no object is not modelled (its properties cannot
be set). -/
def objOrEmpty : Option JVal → List (Str × JVal)
  | some (.obj l) => l
  | _ => []

/-- create-config-gypi.js:39-122 `getCurrentConfigGypi` -/
def currentConfig (E : CfgEnv) (base : List (Str × JVal)) : List (Str × JVal) :=
  let td := objOrEmpty (aget base c!"target_defaults")
  let vs := objOrEmpty (aget base c!"variables")
  aset (aset base c!"target_defaults" (.obj (cfgDefaults E td))) c!"variables" (.obj (cfgVariables E vs))

end Gyp
