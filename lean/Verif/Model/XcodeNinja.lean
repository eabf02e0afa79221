import Verif.Model.Assoc
import Verif.Model.Sort
import Verif.Model.Path
import Mathlib.Data.List.Dedup
/-
The wrapper of Xcode around ninja: /repo/gyp/pylib/gyp/xcode_ninja.py.
-/
namespace Gyp

/-- The part of a target that the wrapper reads.  A missing `product_extension` is the empty text. -/
structure XnSpec where
  name : Str
  type : Str
  productExtension : Str
  xctest : Bool
  configurations : List (Str × List (Str × Str))
  sources : List Str
  resources : List Str
  sourcesExcluded : List Str
  resourcesExcluded : List Str
  actions : List (List Str × List Str)

/-- xcode_ninja.py:149-150 is a name among those that are always added? -/
def askedFor (extras : Option (Str → Bool)) (name : Str) : Bool :=
  match extras with
  | none => false
  | some e => e name

/-- xcode_ninja.py:137-163 `IsValidTargetForWrapper`; a regular expression is the set of names it finds. -/
def isValidForWrapper (extras pattern : Option (Str → Bool)) (s : XnSpec) : Bool :=
  if askedFor extras s.name then true
  else if s.xctest || (s.type = c!"executable" && s.productExtension ≠ c!"bundle") then
    match pattern with
    | none => true
    | some p => p s.name
  else false

def xnTarget : Str := c!"IPHONEOS_DEPLOYMENT_TARGET"
def xnSigning : Str := c!"CODE_SIGNING_REQUIRED"
def xnLoader : Str := c!"BUNDLE_LOADER"
def xnHost : Str := c!"TEST_HOST"
def xnBuildDir : Str := c!"CONFIGURATION_BUILD_DIR"

/-- xcode_ninja.py:100-102 one of the two copied settings. -/
def carryOne (old new : List (Str × Str)) (key : Str) : List (Str × Str) :=
  match aget old key with
  | none => new
  | some v => aset new key v

/-- xcode_ninja.py:92-102 what the settings of one configuration do to `new_xcode_settings`. -/
def carrySettings (new old : List (Str × Str)) : List (Str × Str) :=
  let new := match aget old xnTarget with
    | none => new
    | some v => aset (aset new xnSigning c!"NO") xnTarget v
  carryOne old (carryOne old new xnLoader) xnHost

/-- xcode_ninja.py:84-88 `new_xcode_settings` before the loop. -/
def firstSettings : Option Str → List (Str × Str)
  | none => []
  | some d => [(xnBuildDir, d)]

/-- xcode_ninja.py:84-107 `new_xcode_settings` after the loop over the configurations. -/
def wrapperSettings (buildDir : Option Str) (configs : List (Str × List (Str × Str))) : List (Str × Str) :=
  configs.foldl (fun new c => carrySettings new c.2) (firstSettings buildDir)

/-- xcode_ninja.py:89-107 the configurations of the wrapped target.  All of them hold one and the same dictionary
`new_xcode_settings`, so that in the end each of them has what the whole loop made of it. -/
def wrapperConfigurations (buildDir : Option Str) (configs : List (Str × List (Str × Str))) :
    List (Str × List (Str × Str)) :=
  configs.map fun c => (c.1, wrapperSettings buildDir configs)

/-- xcode_ninja.py:212-218, 283-288 `new_target_list`. -/
def wrapperTargets (mainGyp sourcesGyp : Str) (extras pattern : Option (Str → Bool)) (ts : List XnSpec) : List Str :=
  ((ts.filter (isValidForWrapper extras pattern)).map fun s => mainGyp ++ c!":" ++ s.name ++ c!"#target") ++
  [sourcesGyp ++ c!":sources_for_indexing#target"]

/-- xcode_ninja.py:255-273 the files of one target. -/
def indexFiles (skipExcluded : Bool) (s : XnSpec) : List Str :=
  (s.sources ++ s.resources ++ (if skipExcluded then [] else s.sourcesExcluded ++ s.resourcesExcluded) ++
    s.actions.flatMap fun a => a.1 ++ (if skipExcluded then [] else a.2)).filter fun f => !startsWith f c!"$"

/-- xcode_ninja.py:252-281 the sources for indexing, `sorted(set(sources))`.  `rel base file` is
`os.path.relpath(os.path.join(base, file), relative_path)`. -/
def indexSources (skipExcluded : Bool) (rel : Str → Str → Str) (ts : List (Str × XnSpec)) : List Str :=
  pySorted strLe (ts.flatMap fun t => (indexFiles skipExcluded t.2).map (rel (dirname t.1))).dedup

end Gyp
