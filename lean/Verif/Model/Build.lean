import Verif.Model.ConfigGypi
import Verif.Model.Install
/-
`lib/build.js`: the command that compiles the addon.

Simplifications.
* `JSON.parse`, `path.extname(arg) === '.sln'`, `which`, `glob` and `os.cpus()` are parameters.
* `toLowerCase` and `toUpperCase` act on ASCII letters.
* Errors of the file operations around the directory of links are not modelled, except that a
  missing old link is no error.
-/
namespace Gyp

/-- What a build depends on. -/
structure BuildWorld where
  /-- `process.platform` -/
  platform : Str
  /-- `gyp.opts` -/
  opts : List (Str × JVal)
  /-- `process.env.MAKE`, `process.env.JOBS`; absent or empty is the same -/
  makeVar : Str
  jobsVar : Str
  /-- `process.env.PATH` -/
  pathVar : Str
  /-- the text of `build/config.gypi`, if there is such a file -/
  configFile : Option Str
  /-- `JSON.parse` -/
  parse : Str → Option JVal
  verbose : Bool
  /-- `build/*.sln` -/
  solutions : List Str
  /-- there is `build/Makefile` or `build/*.mk` -/
  makefiles : Bool
  /-- a command is on the `PATH` -/
  found : Str → Bool
  cpus : Nat
  isSln : Str → Bool
  /-- `path.resolve('build', 'node_gyp_bins')` -/
  binsDir : Str

inductive BuildErr where
  | notConfigured
  | badConfig
  | noSolution
  | noMsbuild
  | notFound (command : Str)
  | failed (command : Str)
  deriving DecidableEq

/-- `process.platform === 'win32'` -/
def BuildWorld.win (W : BuildWorld) : Bool := W.platform = c!"win32"

/-- `s.indexOf(t) !== -1` -/
def hasSub (t : Str) : Str → Bool
  | [] => t = []
  | c :: s => startsWith (c :: s) t || hasSub t s

/-- build.js:12-19 -/
def platformMake (W : BuildWorld) : Str :=
  if W.platform = c!"aix" then c!"gmake"
  else if W.platform = c!"os400" then c!"gmake"
  else if hasSub c!"bsd" W.platform then c!"gmake"
  else c!"make"

/-- A value as text, in a string concatenation (arrays are not modelled as such). -/
def jsText : JVal → Str
  | .null => c!"null"
  | .bool b => if b then c!"true" else c!"false"
  | .num i => intStr i
  | .str s => s
  | .arr _ => c!"[object Object]"
  | .obj _ => c!"[object Object]"

/-- `gyp.opts.x` if it is truthy -/
def truthyOpt (W : BuildWorld) (k : Str) : Option JVal :=
  match aget W.opts k with
  | some v => if v.truthy then some v else none
  | none => none

/-- build.js:25 -/
def makeCommand (W : BuildWorld) : Str :=
  match truthyOpt W c!"make" with
  | some v => jsText v
  | none => if W.makeVar ≠ [] then W.makeVar else platformMake W

/-- build.js:27 `gyp.opts.jobs || process.env.JOBS`, empty if neither is there -/
def jobsWord (W : BuildWorld) : Str :=
  match truthyOpt W c!"jobs" with
  | some v => jsText v
  | none => W.jobsVar

/-- `toLowerCase` -/
def asciiLower (s : Str) : Str := s.map Char.toLower

/-- build.js:161-166 and 173-180: the number of jobs -/
def jobsCount (W : BuildWorld) : Option Nat :=
  if jobsWord W = [] then none
  else if 0 < parseIntOr0 (jobsWord W) then some (parseIntOr0 (jobsWord W)).toNat
  else if asciiLower (jobsWord W) = c!"max" then some W.cpus
  else none

/-- `config[k]`, an error if `config` has no properties -/
def prop : Option JVal → Str → Except BuildErr (Option JVal)
  | some (.obj l), k => .ok (aget l k)
  | some .null, _ => .error .badConfig
  | none, _ => .error .badConfig
  | some _, _ => .ok none

/-- build.js:58-72 the build type: that of the option, else that of the settings, else `Release` -/
def buildType (W : BuildWorld) (fromConfig : Option JVal) : Str :=
  match aget W.opts c!"debug" with
  | some d => if d.truthy then c!"Debug" else c!"Release"
  | none => match fromConfig with
    | some v => if v.truthy then jsText v else c!"Release"
    | none => c!"Release"

/-- What is run: build.js:187-208. -/
structure Spawned where
  command : Str
  args : List Str
  /-- `PATH` of the command -/
  path : Str
  /-- where `node_gyp_bins/python3` points, if that directory is made -/
  link : Option Str

/-- build.js:174-183 -/
def makeJobs (W : BuildWorld) : List Str :=
  match jobsCount W with
  | some j => [c!"--jobs", natStr j]
  | none => []

/-- build.js:160-167 -/
def msJobs (W : BuildWorld) : List Str :=
  match jobsCount W with
  | some j => [c!"/m:" ++ natStr j]
  | none => []

/-- build.js:131-185 the arguments without solution -/
def makeArgs (W : BuildWorld) (argv : List Str) (type : Str) : List Str :=
  argv ++ (if W.verbose then [c!"V=1"] else []) ++ [c!"BUILDTYPE=" ++ type, c!"-C", c!"build"] ++ makeJobs W

/-- build.js:147-155 -/
def msPlatform (arch : Str) : Str :=
  if asciiLower arch = c!"x64" then c!"x64"
  else if asciiLower arch = c!"arm" then c!"ARM"
  else if asciiLower arch = c!"arm64" then c!"ARM64"
  else c!"Win32"

/-- build.js:194 `gyp.opts.solution || guessedSolution` -/
def solutionArg (W : BuildWorld) (solution : Str) : Str :=
  match truthyOpt W c!"solution" with
  | some v => jsText v
  | none => solution

/-- build.js:131-196 with MSBuild -/
def msArgs (W : BuildWorld) (argv : List Str) (type arch solution : Str) : List Str :=
  let args := argv ++ (if W.verbose then [] else [c!"/clp:Verbosity=minimal"]) ++ [c!"/nologo"] ++
    [c!"/p:Configuration=" ++ type ++ c!";Platform=" ++ msPlatform arch] ++ msJobs W
  if args.any W.isSln then args else solutionArg W solution :: args

/-- `` `${python}` `` -/
def textOrUndefined : Option JVal → Str
  | some v => jsText v
  | none => c!"undefined"

/-- build.js:198-212 outside Windows a directory with a link to Python is put in front of the `PATH`. -/
def withLink (W : BuildWorld) (command : Str) (args : List Str) (python : Option JVal) : Spawned :=
  if W.win then ⟨command, args, W.pathVar, none⟩
  else ⟨command, args, W.binsDir ++ c!":" ++ W.pathVar,
    some (textOrUndefined python)⟩

/-- build.js:106-121 and 128-185 with make -/
def withMake (W : BuildWorld) (argv : List Str) (type : Str) (python : Option JVal) : Except BuildErr Spawned :=
  if W.found (makeCommand W) then .ok (withLink W (makeCommand W) (makeArgs W argv type) python)
  else .error (.notFound (makeCommand W))

/-- build.js:109-115 and 128-196 with MSBuild -/
def withMsbuild (W : BuildWorld) (argv : List Str) (type : Str) (arch msbuild python : Option JVal)
    (solution : Str) : Except BuildErr Spawned :=
  match msbuild with
  | some v =>
    if v.truthy then
      match arch with
      | some (.str a) => .ok (withLink W (jsText v) (msArgs W argv type a solution) python)
      | _ => .error .badConfig
    else .error .noMsbuild
  | none => .error .noMsbuild

/-- build.js:17-23 the targets given by the user -/
def userArgs (W : BuildWorld) (argv : List Str) : List Str :=
  if W.win then argv.map fun t => c!"/t:" ++ t else argv

/-- build.js:57-100 after the settings were read -/
def buildWith (W : BuildWorld) (argv : List Str) (config : JVal) : Except BuildErr Spawned := do
  let defaults ← prop (some config) c!"target_defaults"
  let type ← prop defaults c!"default_configuration"
  let vars ← prop (some config) c!"variables"
  let arch ← prop vars c!"target_arch"
  let python ← prop vars c!"python"
  let msbuild ← prop vars c!"msbuild_path"
  if W.win then
    match W.solutions with
    | [] =>
      if W.makefiles then withMake W (userArgs W argv) (buildType W type) python
      else .error .noSolution
    | s :: _ => withMsbuild W (userArgs W argv) (buildType W type) arch msbuild python s
  else withMake W (userArgs W argv) (buildType W type) python

/-- build.js:11-212 what is run. -/
def buildPlan (W : BuildWorld) (argv : List Str) : Except BuildErr Spawned :=
  match W.configFile with
  | none => .error .notConfigured
  | some text =>
    match W.parse (dropComment text) with
    | none => .error .badConfig
    | some config => buildWith W argv config

/-- build.js:214-228 how the command ends (`code` is absent if it was killed): the result, and whether
the directory of links is there afterwards. -/
def finishBuild (s : Spawned) (code : Option Nat) (signal : Option Str) (binsBefore : Bool) :
    Except BuildErr Unit × Bool :=
  (if code ≠ some 0 then .error (.failed s.command)
   else if signal ≠ none then .error (.failed s.command)
   else .ok (),
   if s.link.isSome then false else binsBefore)

end Gyp
