import Verif.Model.Assoc
import Verif.Model.Path
import Verif.Model.Options
/-
`gyp/common.py` and `gyp/__init__.py`: the system a build is for, and the variables that go with it.

Not modelled: the time and the file names of temporary files, and how a compiler is run; running a compiler
and splitting a text like a shell are parameters.  The texts in C of directories are a parameter.  Of the
generators only `make` and `msvs`, those that node-gyp asks for, are modelled.
-/
namespace Gyp

/-- What is outside of gyp. -/
structure FlavorHost where
  /-- `sys.platform` -/
  platform : Str
  /-- `os.environ` -/
  env : Str → Option Str
  /-- `shlex.split`; `none` is an exception -/
  shlex : Str → Option (List Str)
  /-- running a command and reading what it prints; `none` when it fails -/
  run : List Str → Option Str
  /-- common.py:449 a temporary file -/
  temporary : Str

/-- common.py:434 a variable of the environment counts only when it is not empty. -/
def envText (h : FlavorHost) (k : Str) : Option Str :=
  match h.env k with
  | some v => if v = [] then none else some v
  | none => none

/-- common.py:432-433 `replace_sep`: `os.sep` is `\` with `win32` only. -/
def replaceSep (h : FlavorHost) (s : Str) : Str :=
  if h.platform = c!"win32" then replaceChar '\\' ['/'] s else s

/-- common.py:435-438 and 439-442: a compiler with its flags; `none` is an exception. -/
def compilerWords (h : FlavorHost) (compiler flagsVar : Str) : Option (List Str) :=
  match h.shlex (replaceSep h compiler) with
  | none => none
  | some cmd =>
    match envText h flagsVar with
    | none => some cmd
    | some flags =>
      match h.shlex (replaceSep h flags) with
      | none => none
      | some ws => some (cmd ++ ws)

/-- common.py:435-444 the command; `some none` when there is no compiler, `none` is an exception. -/
def crossCommand (h : FlavorHost) : Option (Option (List Str)) :=
  match (envText h c!"CC_target").or (envText h c!"CC") with
  | some cc => (compilerWords h cc c!"CFLAGS").map some
  | none =>
    match (envText h c!"CXX_target").or (envText h c!"CXX") with
    | some cxx => (compilerWords h cxx c!"CXXFLAGS").map some
    | none => some none

/-- common.py:466-470 the macros of an output. -/
def macrosOf (out : Str) : List (Str × Str) :=
  (splitOn '\n' (replaceStr c!"\r\n" c!"\n" out)).foldl (fun d line =>
    if startsWith line c!"#define " then
      match splitOn ' ' line with
      | _ :: key :: value => aset d key (joinWith [' '] value)
      | _ => d
    else d) []

/-- common.py:426-471 `GetCrossCompilerPredefines`; `none` is an exception. -/
def getPredefines (h : FlavorHost) : Option (List (Str × Str)) :=
  match crossCommand h with
  | none => none
  | some none => some []
  | some (some cmd) =>
    let input := if h.platform = c!"win32" then h.temporary else c!"/dev/null"
    match h.run (cmd ++ [c!"-dM", c!"-E", c!"-x", c!"c", input]) with
    | none => none
    | some out => some (macrosOf out)

/-- common.py:473-498 `GetFlavorByPlatform` -/
def flavorOfPlatform (p : Str) : Str :=
  if p = c!"cygwin" ∨ p = c!"win32" then c!"win"
  else if p = c!"darwin" then c!"mac"
  else if startsWith p c!"sunos" then c!"solaris"
  else if startsWith p c!"dragonfly" ∨ startsWith p c!"freebsd" then c!"freebsd"
  else if startsWith p c!"openbsd" then c!"openbsd"
  else if startsWith p c!"netbsd" then c!"netbsd"
  else if startsWith p c!"aix" then c!"aix"
  else if startsWith p c!"os390" ∨ startsWith p c!"zos" then c!"zos"
  else if p = c!"os400" then c!"os400"
  else c!"linux"

/-- common.py:500-510 `GetFlavor`; `none` is an exception. -/
def getFlavor (h : FlavorHost) (given : Option Str) : Option Str :=
  match given with
  | some f => some f
  | none =>
    match getPredefines h with
    | none => none
    | some d =>
      if (aget d c!"__EMSCRIPTEN__").isSome then some c!"emscripten"
      else if (aget d c!"__wasm__").isSome then
        some (if (aget d c!"__wasi__").isSome then c!"wasi" else c!"wasm")
      else some (flavorOfPlatform h.platform)

/-- common.py:516-526 the tool a flavor needs. -/
def toolOf (flavor : Str) : Option Str :=
  if flavor = c!"aix" ∨ flavor = c!"os400" ∨ flavor = c!"solaris" then some c!"flock"
  else if flavor = c!"mac" ∨ flavor = c!"ios" then some c!"mac"
  else if flavor = c!"win" then some c!"win"
  else none

/-- common.py:536-539 the lines for a toolchain. -/
def toolchainLines (flavor : Str) (toolchain : Option Str) : Str :=
  match toolchain with
  | some dir =>
    if flavor = c!"mac" ∧ dir ≠ [] then c!"import os;\n" ++ c!"os.environ['DEVELOPER_DIR']='" ++ dir ++ c!"'\n" else []
  | none => []

/-- common.py:513-547 `CopyTool`: the file written and its text; `lines` are the lines of a tool. -/
def copyTool (lines : Str → List Str) (flavor outPath : Str) (toolchain : Option Str) : Option (Str × Str) :=
  match toolOf flavor with
  | none => none
  | some tool =>
    let header := c!"# Generated by gyp. " ++ c!"Do not edit.\n" ++ toolchainLines flavor toolchain
    match lines (tool ++ c!"_tool.py") with
    | [] => none
    | first :: rest => some (pathJoin outPath (c!"gyp-" ++ tool ++ c!"-tool"), first ++ header ++ rest.flatten)

/-- `d.setdefault(k, v)` -/
def setDefaultVar (d : List (Str × NvVal)) (k : Str) (v : NvVal) : List (Str × NvVal) :=
  match aget d k with
  | some _ => d
  | none => aset d k v

/-- make.py:36-51 -/
def makeDefaults : List (Str × Str) :=
  [(c!"EXECUTABLE_PREFIX", []), (c!"EXECUTABLE_SUFFIX", []), (c!"STATIC_LIB_PREFIX", c!"lib"), (c!"SHARED_LIB_PREFIX", c!"lib"),
    (c!"STATIC_LIB_SUFFIX", c!".a"), (c!"INTERMEDIATE_DIR", c!"$(obj).$(TOOLSET)/$(TARGET)/geni"),
    (c!"SHARED_INTERMEDIATE_DIR", c!"$(obj)/gen"), (c!"PRODUCT_DIR", c!"$(builddir)"), (c!"RULE_INPUT_ROOT", c!"%(INPUT_ROOT)s"),
    (c!"RULE_INPUT_DIRNAME", c!"%(INPUT_DIRNAME)s"), (c!"RULE_INPUT_PATH", c!"$(abspath $<)"), (c!"RULE_INPUT_EXT", c!"$(suffix $<)"),
    (c!"RULE_INPUT_NAME", c!"$(notdir $<)"), (c!"CONFIGURATION_NAME", c!"$(BUILDTYPE)")]

/-- msvs.py:41-61 -/
def msvsDefaults : List (Str × Str) :=
  [(c!"DRIVER_PREFIX", []), (c!"DRIVER_SUFFIX", c!".sys"), (c!"EXECUTABLE_PREFIX", []), (c!"EXECUTABLE_SUFFIX", c!".exe"),
    (c!"STATIC_LIB_PREFIX", []), (c!"SHARED_LIB_PREFIX", []), (c!"STATIC_LIB_SUFFIX", c!".lib"), (c!"SHARED_LIB_SUFFIX", c!".dll"),
    (c!"INTERMEDIATE_DIR", c!"$(IntDir)"), (c!"SHARED_INTERMEDIATE_DIR", c!"$(OutDir)/obj/global_intermediate"), (c!"OS", c!"win"),
    (c!"PRODUCT_DIR", c!"$(OutDir)"), (c!"LIB_DIR", c!"$(OutDir)lib"), (c!"RULE_INPUT_ROOT", c!"$(InputName)"),
    (c!"RULE_INPUT_DIRNAME", c!"$(InputDir)"), (c!"RULE_INPUT_EXT", c!"$(InputExt)"), (c!"RULE_INPUT_NAME", c!"$(InputFileName)"),
    (c!"RULE_INPUT_PATH", c!"$(InputPath)"), (c!"CONFIGURATION_NAME", c!"$(ConfigurationName)")]

/-- make.py:66-108 `CalculateVariables`, the variables. -/
def makeVariables (flavor : Str) (d : List (Str × NvVal)) : List (Str × NvVal) :=
  if flavor = c!"mac" then
    [(c!"OS", c!"mac"), (c!"SHARED_LIB_SUFFIX", c!".dylib"), (c!"SHARED_LIB_DIR", c!"$(builddir)"), (c!"LIB_DIR", c!"$(builddir)")].foldl
      (fun d kv => setDefaultVar d kv.1 (.str kv.2)) d
  else
    [(c!"OS", if flavor = c!"android" then c!"linux" else flavor),
      (c!"SHARED_LIB_SUFFIX", if flavor = c!"aix" then c!".a" else if flavor = c!"zos" then c!".x" else c!".so"),
      (c!"SHARED_LIB_DIR", c!"$(builddir)/lib.$(TOOLSET)"), (c!"LIB_DIR", c!"$(obj).$(TOOLSET)")].foldl
      (fun d kv => setDefaultVar d kv.1 (.str kv.2)) d

/-- msvs.py:2010-2038 `CalculateVariables`, the variables; `version` is the version of Visual Studio. -/
def msvsVariables (version : Str) (bits64 : Bool) (flavor : Str) (d : List (Str × NvVal)) : List (Str × NvVal) :=
  let d := aset d c!"MSVS_VERSION" (.str version)
  let d := aset d c!"MSVS_OS_BITS" (.int (if bits64 then 64 else 32))
  if flavor = c!"ninja" then aset d c!"SHARED_INTERMEDIATE_DIR" (.str c!"$(OutDir)gen") else d

/-- What `Load` is called with, and what it finds. -/
structure LoadInput where
  host : FlavorHost
  /-- `--format` -/
  format : Str
  /-- `-D` -/
  given : List (Str × NvVal)
  /-- `--generator-output`, or the directory the tree is in -/
  outputDir : Str
  /-- `EscapeForCString` -/
  cText : Str → Str
  /-- the short name of the version of Visual Studio; `none` when there is none -/
  version : Option Str
  bits64 : Bool

/-- __init__.py:85-86 the format and the flavor of it. -/
def formatOf (format : Str) : Str × Option Str :=
  match split1 '-' format with
  | some (f, flavor) => (f, some flavor)
  | none => (format, none)

/-- __init__.py:88-137 `Load`, the variables; `none` is an exception. -/
def loadVariables (i : LoadInput) : Option (List (Str × NvVal)) :=
  let format := (formatOf i.format).1
  let flavor := (formatOf i.format).2
  let d := aset i.given c!"GENERATOR" (.str format)
  let d := aset d c!"GENERATOR_FLAVOR" (.str (flavor.getD []))
  let defaults :=
    if format = c!"make" then some makeDefaults else if format = c!"msvs" then some msvsDefaults else none
  match defaults with
  | none => none
  | some defaults =>
    let d := defaults.foldl (fun d kv => setDefaultVar d kv.1 (.str kv.2)) d
    match aget d c!"CONFIGURATION_NAME" with
    | some (.str configuration) =>
      let productDir := pathJoin i.outputDir configuration
      let d := setDefaultVar d c!"PRODUCT_DIR_ABS" (.str productDir)
      let d := setDefaultVar d c!"PRODUCT_DIR_ABS_CSTR" (.str (i.cText productDir))
      if format = c!"make" then
        match getFlavor i.host flavor with
        | none => none
        | some f => some (makeVariables f d)
      else
        match i.version with
        | none => none
        | some version =>
          match getFlavor i.host flavor with
          | none => none
          | some f => some (msvsVariables version i.bits64 f d)
    | _ => none

/-- __init__.py:56-63 `FindBuildFiles`; `files` are the names in the directory. -/
def findBuildFiles (files : List Str) : List Str := files.filter fun f => endsWith f c!".gyp"

end Gyp
