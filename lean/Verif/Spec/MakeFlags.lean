import Verif.Spec.MakeRun
/-
Which arguments the compilers and the linker are to get.
-/
namespace Gyp.Spec

/-- The common header: the directories are set, and the configuration to be built. -/
structure HeaderOk (v0 : MakeVars) (build : Str) : Prop where
  dirs : ∀ n ∈ headerVars, ∃ w, aget v0 n = some w ∧ MkWord w
  build : aget v0 c!"BUILDTYPE" = some build

/-- The variables that names and flags of a target may refer to. -/
def seenVars (m : MkSelf) (v0 : MakeVars) : MakeVars := ownVars m.spec ++ v0

/-- Of all variables, the text refers to those only, and with their values it is `x`. -/
def StandsFor (v : MakeVars) (f x : Str) : Prop :=
  ∀ env : Str → Str, (∀ n ∈ localVars, env n = valueOf v n) → deep env f = some x

/-- The arguments that a flag gives: one with a quotation mark is one argument, as it is; any
other is read by make and by the shell. -/
inductive FlagWords (v : MakeVars) : Str → List Str → Prop
  | quoted {f : Str} : '"' ∈ f → (∀ c ∈ f, c ∉ ['$', '`', '\\', '#', '\n']) → FlagWords v f [f]
  | plain {f x : Str} {ws : List Str} : '"' ∉ f → ListItem f → StandsFor v f x →
      shellWords x = some ws → FlagWords v f ws

/-- The names of configurations: characters of variable names, different, and such that
`C_Debug` and `CC_Debug` are not configurations next to `Debug`. -/
structure ConfigsOk (configs : List MkConfig) : Prop where
  chars : ∀ c ∈ configs, ∀ x ∈ c.name, x ∉ [':', '\n', '#', '\\', '$', '(', ')', ' ', '\t']
  nodup : (configs.map (·.name)).Nodup
  apart : ∀ c ∈ configs, ∀ c' ∈ configs, c'.name ≠ c!"C_" ++ c.name ∧ c'.name ≠ c!"CC_" ++ c.name

/-- Definitions and include directories of a configuration. -/
structure CompileOk (m : MkSelf) (v0 : MakeVars) (c : MkConfig) : Prop where
  defines : ∀ d ∈ c.defines, '\n' ∉ d ∧ ¬ c!"\\#" <:+: d
  includes : ∀ i ∈ c.includeDirs, FileText i ∧ PlainWord (c!"-I" ++ expand v0 (inputName m i))

/-- The arguments for definitions and include directories. -/
def commonArgs (m : MkSelf) (v0 : MakeVars) (c : MkConfig) : List Str :=
  c.defines.map (c!"-D" ++ ·) ++ c.includeDirs.map fun i => c!"-I" ++ expand v0 (inputName m i)

/-- One of the dependencies is a shared library. -/
def SharedDep (t : MkOutputs) (s : MkSpec) : Prop :=
  ∃ f, DependencyFile t s f ∧ (c!".so" <:+ f ∨ c!".so." <:+: f)

/-- The objects among the sources. -/
def objectSources (s : MkSpec) : List Str := (allSources s).filter fun x => (c!".o").isSuffixOf x

/-- A list without its repetitions. -/
def once : List Str → List Str
  | [] => []
  | x :: rest => x :: (once rest).filter (· ≠ x)

/-- The libraries that the dependencies have made to link with. -/
def linkedLibs (t : MkOutputs) (s : MkSpec) : List Str :=
  once (s.dependencies.filterMap (aget t.linkDeps))

/-- The arguments of the linker, by platform and kind of product: `link` the linker, `out` the
product, `flags` those of the target, `more` those of the environment, `inputs` what is linked,
`all` what the product is made from, `libs` the libraries of the target. -/
def linkArgs (flavor type : Str) (host : Bool) (link : List Str) (out : Str)
    (flags more inputs all libs : List Str) : Option (List Str) :=
  let soname := c!"-Wl,-soname=" ++ basename out
  let whole := [c!"-Wl,--whole-archive"] ++ inputs ++ [c!"-Wl,--no-whole-archive"]
  if flavor = c!"android" then
    if type = c!"executable" then
      some (link ++ flags ++ more ++ [c!"-o", out, c!"-Wl,--start-group"] ++ inputs ++
        [c!"-Wl,--end-group"] ++ libs)
    else if type = c!"shared_library" then
      some (link ++ [c!"-shared"] ++ flags ++ more ++ [soname, c!"-o", out] ++ whole ++ libs)
    else if type = c!"loadable_module" then
      some (link ++ [c!"-shared"] ++ flags ++ more ++ [soname, c!"-o", out] ++
        (if host then all else [c!"-Wl,--start-group"] ++ all ++ [c!"-Wl,--end-group"]) ++ libs)
    else none
  else if flavor = c!"aix" ∨ flavor = c!"os400" ∨ flavor = c!"zos" then
    let shared := if type = c!"executable" ∨ flavor = c!"zos" then [] else [c!"-shared"]
    if type = c!"executable" ∨ type = c!"shared_library" then
      some (link ++ shared ++ flags ++ more ++ [c!"-o", out] ++ inputs ++ libs)
    else if type = c!"loadable_module" then
      some (link ++ shared ++ flags ++ more ++ [c!"-o", out] ++ all ++ libs)
    else none
  else
    let group (l : List Str) := if flavor = c!"wasi" ∨ flavor = c!"wasm" then l
      else [c!"-Wl,--start-group"] ++ l ++ [c!"-Wl,--end-group"]
    if type = c!"executable" then
      some (link ++ [c!"-o", out] ++ flags ++ more ++ group (inputs ++ libs))
    else if type = c!"shared_library" then
      some (link ++ [c!"-o", out, c!"-shared"] ++ flags ++ more ++ [soname] ++ whole ++ libs)
    else if type = c!"loadable_module" then
      some (link ++ [c!"-o", out, c!"-shared"] ++ flags ++ more ++ [soname] ++ group all ++ libs)
    else none

end Gyp.Spec
