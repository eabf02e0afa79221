import Verif.Model.MakeRule
import Verif.Model.Assoc
/-
The part of the root makefile that says which compiler, linker and archiver are run
(`gyp/pylib/gyp/generator/make.py`, `GenerateOutput` and `SHARED_HEADER`), for hosts other than
Windows (there `replace_sep` turns the backslashes of the environment's values into slashes; here it
is the identity, make.py:736-739).
-/
namespace Gyp

/-- The environment gyp runs in, `os.environ`. -/
abbrev Environ := Str → Option Str

/-- common.py:118-125 `GetEnvironFallback`. -/
def environFallback (env : Environ) : List Str → Str → Str
  | [], default => default
  | var :: vars, default =>
    match env var with
    | some v => v
    | none => environFallback env vars default

/-- The ten values of `header_params` the tools are set from (make.py:2489-2498). -/
structure ToolParams where
  ccTarget : Str
  arTarget : Str
  cxxTarget : Str
  linkTarget : Str
  pliTarget : Str
  ccHost : Str
  arHost : Str
  cxxHost : Str
  linkHost : Str
  pliHost : Str
  deriving DecidableEq

/-- make.py:2467-2476, 2489-2498. -/
def toolParams (env : Environ) : ToolParams where
  ccTarget := environFallback env [c!"CC_target", c!"CC"] c!"$(CC)"
  arTarget := environFallback env [c!"AR_target", c!"AR"] c!"$(AR)"
  cxxTarget := environFallback env [c!"CXX_target", c!"CXX"] c!"$(CXX)"
  linkTarget := environFallback env [c!"LINK_target", c!"LINK"] c!"$(LINK)"
  pliTarget := environFallback env [c!"PLI_target", c!"PLI"] c!"pli"
  ccHost := environFallback env [c!"CC_host", c!"CC"] c!"gcc"
  arHost := environFallback env [c!"AR_host", c!"AR"] c!"ar"
  cxxHost := environFallback env [c!"CXX_host", c!"CXX"] c!"g++"
  linkHost := environFallback env [c!"LINK_host", c!"LINK"] c!"$(CXX.host)"
  pliHost := environFallback env [c!"PLI_host", c!"PLI"] c!"pli"

/-- make.py:2512-2545 what the branch for `zos` changes of them. -/
def zosParams (env : Environ) (p : ToolParams) : ToolParams :=
  let ccTarget := environFallback env [c!"CC_target", c!"CC"] c!"njsc"
  let (cc, cxx) :=
    if ccTarget = c!"clang" then (c!"clang", c!"clang++")
    else if ccTarget = c!"ibm-clang64" then (c!"ibm-clang64", c!"ibm-clang++64")
    else if ccTarget = c!"ibm-clang" then (c!"ibm-clang", c!"ibm-clang++")
    else (c!"njsc", c!"njsc++")
  { p with
    ccTarget := ccTarget
    cxxTarget := environFallback env [c!"CXX_target", c!"CXX"] cxx
    ccHost := environFallback env [c!"CC_host", c!"CC"] cc
    cxxHost := environFallback env [c!"CXX_host", c!"CXX"] cxx }

/-- make.py:2500-2580 the values for a flavor; no other branch changes the tools. -/
def flavorParams (flavor : Str) (env : Environ) : ToolParams :=
  if flavor = c!"zos" then zosParams env (toolParams env) else toolParams env

/-- make.py:2584-2587 the wrappers: the key without `_wrapper`, and the command. -/
def wrappersOf (settings : List (Str × Str)) : List (Str × Str) :=
  settings.foldl (fun ws kv =>
    if endsWith kv.1 c!"_wrapper" then
      aset ws (kv.1.take (kv.1.length - c!"_wrapper".length)) (c!"$(abspath " ++ kv.2 ++ c!")")
    else ws) []

/-- `re.match(".*_wrapper", key)`: `_wrapper` occurs in the key, before the first newline. -/
def matchesWrapper : Str → Bool
  | [] => false
  | c :: s => startsWith (c :: s) c!"_wrapper" || (c != '\n' && matchesWrapper s)

/-- make.py:2588-2609 the loop over `make_global_settings`; `none` is the `IndexError` of
`value[0]`. -/
def globalLines (env : Environ) : List (Str × Str) → List (Str × Str) → Option (List Str)
  | _, [] => some []
  | wrappers, (key, value) :: rest =>
    if matchesWrapper key then globalLines env wrappers rest
    else
      match value.head? with
      | none => none
      | some c =>
        let value := if c ≠ '$' then c!"$(abspath " ++ value ++ c!")" else value
        let (value, wrappers) :=
          match aget wrappers key with
          | some w => if w = [] then (value, wrappers)
                      else (w ++ c!" " ++ value, wrappers.filter fun x => x.1 ≠ key)
          | none => (value, wrappers)
        let lines :=
          if key ∈ [c!"CC", c!"CC.host", c!"CXX", c!"CXX.host"] then
            let value := (env (replaceChar '.' c!"_" key)).getD value
            [c!"ifneq (,$(filter $(origin " ++ key ++ c!"), undefined default))",
             c!"  " ++ key ++ c!" = " ++ value, c!"endif"]
          else [key ++ c!" ?= " ++ value]
        (globalLines env wrappers rest).map (lines ++ ·)

/-- make.py:374-397 the lines of `SHARED_HEADER` after the global settings. -/
def headerLines (p : ToolParams) : List Str :=
  [[],
   [],
   c!"CC.target ?= " ++ p.ccTarget,
   c!"CFLAGS.target ?= $(CPPFLAGS) $(CFLAGS)",
   c!"CXX.target ?= " ++ p.cxxTarget,
   c!"CXXFLAGS.target ?= $(CPPFLAGS) $(CXXFLAGS)",
   c!"LINK.target ?= " ++ p.linkTarget,
   c!"LDFLAGS.target ?= $(LDFLAGS)",
   c!"AR.target ?= " ++ p.arTarget,
   c!"PLI.target ?= " ++ p.pliTarget,
   [],
   c!"# C++ apps need to be linked with g++.",
   c!"LINK ?= $(CXX.target)",
   [],
   c!"# TODO(evan): move all cross-compilation logic to gyp-time so we don't need",
   c!"# to replicate this environment fallback in make as well.",
   c!"CC.host ?= " ++ p.ccHost,
   c!"CFLAGS.host ?= $(CPPFLAGS_host) $(CFLAGS_host)",
   c!"CXX.host ?= " ++ p.cxxHost,
   c!"CXXFLAGS.host ?= $(CPPFLAGS_host) $(CXXFLAGS_host)",
   c!"LINK.host ?= " ++ p.linkHost,
   c!"LDFLAGS.host ?= $(LDFLAGS_host)",
   c!"AR.host ?= " ++ p.arHost,
   c!"PLI.host ?= " ++ p.pliHost]

/-- The part of the root makefile from the global settings to the last tool (make.py:374-397,
2582-2617); `none` when an empty value is given in `make_global_settings`. -/
def toolsText (flavor : Str) (env : Environ) (settings : List (Str × Str)) : Option Str :=
  (globalLines env (wrappersOf settings) settings).map fun g =>
    writeLines (g ++ headerLines (flavorParams flavor env))

/-- make.py:2582-2583, 2645-2649 `GenerateOutput` over the settings of the build files of the
targets, in the order of the targets: those of the first are used, and it is an assertion failure
(`none`) if a target's differ.  (The makefile is written before the assertion is checked.) -/
def toolsOfTargets (flavor : Str) (env : Environ) : List (List (Str × Str)) → Option Str
  | [] => none
  | s :: rest => if ∀ t ∈ rest, s = t then toolsText flavor env s else none

end Gyp
