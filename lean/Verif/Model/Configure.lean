import Verif.Model.Options
import Verif.Model.ConfigGypi

/-
`lib/configure.js`: where the headers come from, and the command line on which `gyp`
is started.

Simplifications.
* `path.resolve` and `path.join` of two arguments are the parameters `resolve` and `join`
  (they differ between Windows and the other systems).
* `processRelease`, `findPython`, `findVisualStudio`, `install` and `createConfigGypi`
  are modelled elsewhere; here only their results are given.
* `os.homedir()` has no `$` (`String.replace` would interpret it).
* Log messages and the environment variables set for `gyp` (`PYTHON`, `PYTHONPATH`,
  `GYP_MSVS_VERSION`, `GYP_MSVS_OVERRIDE_PATH`) are left out.
-/
namespace Gyp

/-- What `fs.stat` says. -/
inductive StatResult where
  | found
  /-- `ENOENT` -/
  | missing
  | failed
  deriving DecidableEq, Repr

/-- What `configure` is given and finds. -/
structure ConfigureWorld where
  platform : Str
  /-- `path.join` of two arguments -/
  join : Str → Str → Str
  /-- `path.resolve` of two arguments -/
  resolve : Str → Str → Str
  dirname : Str → Str
  cwd : Str
  home : Str
  /-- `gyp.devDir` -/
  devDir : Str
  /-- the directory of node-gyp itself -/
  packageDir : Str
  /-- `gyp.opts.nodedir`, empty if not given -/
  nodedir : Str
  /-- `gyp.opts.node_engine`, empty if not given -/
  nodeEngine : Str
  /-- `process.jsEngine`, empty if not there -/
  jsEngine : Str
  /-- `process.config.variables.use_prefix_to_find_headers` -/
  usePrefix : Bool
  /-- `process.config.variables.node_prefix`, empty if not there -/
  nodePrefix : Str
  /-- the text of a file, `none` if it cannot be read -/
  readFile : Str → Option Str
  stat : Str → StatResult
  /-- the file can be opened for reading -/
  readable : Str → Bool
  /-- `release.version` -/
  version : Str
  /-- `release.semver` is there -/
  semver : Bool
  /-- `release.name` -/
  name : Str
  /-- `release.versionDir` -/
  versionDir : Str
  /-- `install` succeeds -/
  installs : Bool
  /-- a Visual Studio is found (Windows) -/
  visualStudio : Bool
  /-- what `createConfigGypi` returns -/
  configPath : Str
  /-- `findNodeDirectory()` -/
  nodeRoot : Str
  /-- `process.env.ZOSLIB_INCLUDES`, empty if not there -/
  zoslibIncludes : Str
  /-- `release.version.split('.')[0] >= 16` -/
  since16 : Bool

/-- `configure.js:8` -/
def ConfigureWorld.win (W : ConfigureWorld) : Bool := W.platform = c!"win32"

inductive ConfigureErr where
  | invalidVersion
  | installFailed
  | noVisualStudio
  | statFailed
  | noExportsFile
  | noZoslib
  | gypFailed
  deriving DecidableEq, Repr

/-! ### The headers -/

/-- The lines of a text, for the flag `m` of a regular expression. -/
def jsLines : Str → List Str
  | [] => [[]]
  | c :: cs =>
    if jsLineEnd c then [] :: jsLines cs
    else
      match jsLines cs with
      | l :: ls => (c :: l) :: ls
      | [] => [[c]]

/-- `configure.js:16-18`: one line against `^#define KEY (\d+)`. -/
def defineDigits (key line : Str) : Option Str :=
  let start := c!"#define " ++ key ++ c!" "
  if startsWith line start then
    let d := (line.drop start.length).takeWhile asciiDigit
    if d = [] then none else some d
  else none

/-- `configure.js:43-45`: the first match. -/
def headerNumber (key text : Str) : Option Str := (jsLines text).findSome? (defineDigits key)

/-- `configure.js:39-47` `availVersion` -/
def headerVersion (text : Option Str) : Option Str := do
  let t ← text
  let major ← headerNumber c!"NODE_MAJOR_VERSION" t
  let minor ← headerNumber c!"NODE_MINOR_VERSION" t
  let patch ← headerNumber c!"NODE_PATCH_VERSION" t
  some (major ++ c!"." ++ minor ++ c!"." ++ patch)

/-- `configure.js:41-42` -/
def versionHeader (W : ConfigureWorld) : Str :=
  W.join (W.join (W.join W.nodePrefix c!"include") c!"node") c!"node_version.h"

/-- `configure.js:34-54`: `gyp.opts.nodedir` afterwards. -/
def effectiveNodedir (W : ConfigureWorld) : Str :=
  if W.nodedir = [] ∧ W.usePrefix = true then
    if headerVersion (if W.nodePrefix = [] then none else W.readFile (versionHeader W)) = some W.version then
      W.nodePrefix
    else []
  else W.nodedir

/-- `configure.js:58` -/
def expandHome (home : Str) : Str → Str
  | '~' :: rest => home ++ rest
  | s => s

/-- `configure.js:30-86` `getNodeDir`: the directory, and the version that is installed
first, if any. -/
def getNodeDir (W : ConfigureWorld) : Except ConfigureErr (Str × Option Str) :=
  if effectiveNodedir W ≠ [] then .ok (expandHome W.home (effectiveNodedir W), none)
  else if W.semver = false then .error .invalidVersion
  else if W.installs = false then .error .installFailed
  else .ok (W.resolve W.devDir W.versionDir, some W.version)

/-! ### The build directory -/

/-- `configure.js:96-109` `usingMakeGenerator` (the loop goes backwards; the result does
not depend on that). -/
def usingMakeGenerator : List Str → Bool
  | [] => false
  | arg :: rest =>
    usingMakeGenerator rest ||
    (if arg = c!"-f" ∨ arg = c!"--format" then
      match rest with
      | format :: _ => startsWith format c!"make"
      | [] => false
    else startsWith arg c!"--format=make")

/-- `configure.js:95-117` -/
def needsVisualStudio (W : ConfigureWorld) (argv : List Str) : Bool :=
  W.win && !usingMakeGenerator argv

/-- `configure.js:129-149` `findConfigs` -/
def findConfigs (W : ConfigureWorld) : List Str → List Str → Except ConfigureErr (List Str)
  | configs, [] => .ok configs
  | configs, name :: names =>
    match W.stat (W.resolve W.cwd name) with
    | .found => findConfigs W (configs ++ [W.resolve W.cwd name]) names
    | .missing => findConfigs W configs names
    | .failed => .error .statFailed

/-! ### The command line -/

/-- `util.js:57-74` `findAccessibleSync` -/
def findAccessible (W : ConfigureWorld) (dir : Str) (candidates : List Str) : Option Str :=
  (candidates.map (W.resolve dir)).find? W.readable

/-- `configure.js:175` -/
def needsExports (platform : Str) : Bool :=
  platform = c!"aix" || platform = c!"os390" || platform = c!"os400"

/-- `configure.js:176-198` -/
def exportCandidates (platform : Str) : List Str :=
  if platform = c!"aix" ∨ platform = c!"os400" then
    [c!"include/node/node.exp", c!"out/Release/node.exp", c!"out/Debug/node.exp", c!"node.exp"]
  else
    [c!"out/Release/lib.target/libnode.x", c!"out/Debug/lib.target/libnode.x",
     c!"out/Release/obj.target/libnode.x", c!"out/Debug/obj.target/libnode.x", c!"lib/libnode.x"]

/-- `configure.js:169-208` -/
def exportsFile (W : ConfigureWorld) : Except ConfigureErr (Option Str) :=
  if needsExports W.platform then
    match findAccessible W W.nodeRoot (exportCandidates W.platform) with
    | some f => .ok (some f)
    | none => .error .noExportsFile
  else .ok none

/-- `configure.js:212-246` -/
def zoslibDir (W : ConfigureWorld) : Except ConfigureErr (Option Str) :=
  if W.platform = c!"os390" then
    let found :=
      if W.zoslibIncludes ≠ [] then findAccessible W W.zoslibIncludes [c!"zos-base.h"]
      else findAccessible W W.nodeRoot
        [c!"include/node/zoslib/zos-base.h", c!"include/zoslib/zos-base.h",
         c!"zoslib/include/zos-base.h", c!"install/include/node/zoslib/zos-base.h"]
    match found with
    | some f => .ok (some (W.dirname f))
    | none => if W.since16 then .error .noZoslib else .ok none
  else .ok none

/-- `configure.js:251-256` -/
def commonGypi (W : ConfigureWorld) (nodeDir : Str) : Str :=
  if W.stat (W.resolve nodeDir c!"include/node/common.gypi") = .found then
    W.resolve nodeDir c!"include/node/common.gypi"
  else W.resolve nodeDir c!"common.gypi"

/-- `configure.js:258-262` -/
def outputDir (W : ConfigureWorld) : Str := if W.win then W.resolve W.cwd c!"build" else c!"build"

/-- `configure.js:265-267, 282-286` -/
def nodeLibFile (W : ConfigureWorld) (nodeDir : Str) : Str :=
  let f := W.join (W.join nodeDir (if effectiveNodedir W = [] then c!"<(target_arch)" else c!"$(Configuration)"))
    (W.name ++ c!".lib")
  if W.win then f.flatMap fun c => if c = '\\' then c!"\\\\" else [c] else f

/-- `configure.js:289-290` -/
def nodeEngine (W : ConfigureWorld) : Str :=
  if W.nodeEngine ≠ [] then W.nodeEngine else if W.jsEngine ≠ [] then W.jsEngine else c!"v8"

/-- `configure.js:271-290`: the variables that are set, in order. -/
def forcedVariables (W : ConfigureWorld) (nodeDir : Str) (expFile zoslib : Option Str) : List (Str × Str) :=
  [(c!"library", c!"shared_library"), (c!"visibility", c!"default"), (c!"node_root_dir", nodeDir)] ++
  (match expFile with
   | some f => [(c!"node_exp_file", f)]
   | none => []) ++
  (match zoslib with
   | some d => if d = [] then [] else [(c!"zoslib_include_dir", d)]
   | none => []) ++
  [(c!"node_gyp_dir", W.packageDir), (c!"node_lib_file", nodeLibFile W nodeDir),
   (c!"module_root_dir", W.cwd), (c!"node_engine", nodeEngine W)]

/-- `configure.js:152-162` -/
def forcedFormat (W : ConfigureWorld) (argv : List Str) : List Str :=
  if c!"-f" ∈ argv ∨ c!"--format" ∈ argv then []
  else [c!"-f", if W.win then c!"msvs" else c!"make"]

/-- `configure.js:164-167, 269-270` -/
def includeArgs (files : List Str) : List Str := files.flatMap fun f => [c!"-I", f]

/-- `configure.js:271-290` -/
def defineArgs (vars : List (Str × Str)) : List Str := vars.map fun p => c!"-D" ++ (p.1 ++ c!"=" ++ p.2)

/-- `configure.js:151-304` `runGyp`: the arguments after the script. -/
def gypArgs (W : ConfigureWorld) (argv configs : List Str) (nodeDir : Str) (expFile zoslib : Option Str) :
    List Str :=
  c!"binding.gyp" :: argv ++ forcedFormat W argv ++ includeArgs configs ++
  includeArgs [W.resolve W.packageDir c!"addon.gypi", commonGypi W nodeDir] ++
  defineArgs (forcedVariables W nodeDir expFile zoslib) ++
  [c!"--depth=.", c!"--no-parallel", c!"--generator-output", outputDir W, c!"-Goutput_dir=."]

/-- `configure.js:20-304`: the arguments with which `gyp` is started. -/
def configurePlan (W : ConfigureWorld) (argv : List Str) : Except ConfigureErr (List Str) := do
  let (nodeDir, _) ← getNodeDir W
  if needsVisualStudio W argv && !W.visualStudio then .error .noVisualStudio
  let configs ← findConfigs W [W.configPath] [c!"config.gypi", c!"common.gypi"]
  let expFile ← exportsFile W
  let zoslib ← zoslibDir W
  .ok (gypArgs W argv configs nodeDir expFile zoslib)

/-- `configure.js:313-323`: how the command ends; `code` is `none` when a signal ended
`gyp`. -/
def finishConfigure (code : Option Nat) : Except ConfigureErr Unit :=
  if code = some 0 then .ok () else .error .gypFailed

end Gyp
