import Verif.Model.Path
import Verif.Model.Splitext
/-
Where the parts of a macOS or iOS bundle are: `gyp/pylib/gyp/xcode_emulation.py`, `XcodeSettings` and
`GetMacBundleResources`.  Simplified: the settings that are asked for are given (that they agree in all
configurations is checked when they are asked for); a failed assertion is `none`.
-/
namespace Gyp

/-- What is asked of a target (`mac_bundle` and the like are numbers; only whether they are zero
counts). -/
structure BundleSpec where
  type : Str
  targetName : Str
  productName : Option Str := none
  productExtension : Option Str := none
  macBundle : Bool := false
  xctest : Bool := false
  xcuitest : Bool := false
  appExtension : Bool := false
  watchkitExtension : Bool := false
  /-- the setting `WRAPPER_EXTENSION` -/
  wrapperExtension : Option Str := none
  /-- the setting `FRAMEWORK_VERSION` -/
  frameworkVersion : Option Str := none
  ios : Bool := false

namespace BundleSpec

/-- xcode_emulation.py:233-238 `_IsBundle` -/
def isBundle (s : BundleSpec) : Bool := s.macBundle || s.xctest || s.xcuitest

/-- xcode_emulation.py:230-231 `IsIosFramework` -/
def isIosFramework (s : BundleSpec) : Bool := decide (s.type = c!"shared_library") && s.isBundle && s.ios

/-- xcode_emulation.py:255-259 `GetFrameworkVersion` -/
def version (s : BundleSpec) : Option Str :=
  if s.isBundle then some (s.frameworkVersion.getD c!"A") else none

/-- xcode_emulation.py:261-283 `GetWrapperExtension` -/
def wrapperExt (s : BundleSpec) : Option Str :=
  if s.isBundle then
    if s.type = c!"loadable_module" then
      some ('.' :: s.productExtension.getD (s.wrapperExtension.getD c!"bundle"))
    else if s.type = c!"shared_library" then
      some ('.' :: s.productExtension.getD (s.wrapperExtension.getD c!"framework"))
    else if s.type = c!"executable" then
      if s.appExtension || s.watchkitExtension then some ('.' :: s.productExtension.getD c!"appex")
      else some ('.' :: s.productExtension.getD c!"app")
    else none
  else none

/-- xcode_emulation.py:285-287, 493-497 `GetProductName`, and `GetExecutableName` of a bundle. -/
def product (s : BundleSpec) : Str := s.productName.getD s.targetName

/-- xcode_emulation.py:296-300 `GetWrapperName` -/
def wrapper (s : BundleSpec) : Option Str := s.wrapperExt.map fun e => s.product ++ e

/-- xcode_emulation.py:302-314 `GetBundleContentsFolderPath` -/
def contents (s : BundleSpec) : Option Str :=
  if s.ios then s.wrapper
  else if s.type = c!"shared_library" then
    match s.wrapper, s.version with
    | some w, some v => some (pathJoin (pathJoin w c!"Versions") v)
    | _, _ => none
  else s.wrapper.map fun w => pathJoin w c!"Contents"

/-- xcode_emulation.py:316-322 `GetBundleResourceFolder` -/
def resources (s : BundleSpec) : Option Str :=
  if s.ios then s.contents else s.contents.map fun c => pathJoin c c!"Resources"

/-- xcode_emulation.py:324-331 `GetBundleExecutableFolderPath` -/
def executables (s : BundleSpec) : Option Str :=
  if s.type = c!"shared_library" ∨ s.ios = true then s.contents
  else if s.type = c!"executable" ∨ s.type = c!"loadable_module" then
    s.contents.map fun c => pathJoin c c!"MacOS"
  else none

/-- xcode_emulation.py:333-337 `GetBundleJavaFolderPath` -/
def java (s : BundleSpec) : Option Str := s.resources.map fun c => pathJoin c c!"Java"

/-- xcode_emulation.py:339-343 `GetBundleFrameworksFolderPath` -/
def frameworks (s : BundleSpec) : Option Str := s.contents.map fun c => pathJoin c c!"Frameworks"

/-- xcode_emulation.py:345-349 `GetBundleSharedFrameworksFolderPath` -/
def sharedFrameworks (s : BundleSpec) : Option Str :=
  s.contents.map fun c => pathJoin c c!"SharedFrameworks"

/-- xcode_emulation.py:351-358 `GetBundleSharedSupportFolderPath` -/
def sharedSupport (s : BundleSpec) : Option Str :=
  if s.type = c!"shared_library" then s.resources
  else s.contents.map fun c => pathJoin c c!"SharedSupport"

/-- xcode_emulation.py:360-364 `GetBundlePlugInsFolderPath` -/
def plugIns (s : BundleSpec) : Option Str := s.contents.map fun c => pathJoin c c!"PlugIns"

/-- xcode_emulation.py:366-370 `GetBundleXPCServicesFolderPath` -/
def xpcServices (s : BundleSpec) : Option Str := s.contents.map fun c => pathJoin c c!"XPCServices"

/-- xcode_emulation.py:372-384 `GetBundlePlistPath` -/
def plist (s : BundleSpec) : Option Str :=
  if s.type = c!"executable" ∨ s.type = c!"loadable_module" ∨ s.isIosFramework = true then
    s.contents.map fun c => pathJoin c c!"Info.plist"
  else s.contents.map fun c => pathJoin (pathJoin c c!"Resources") c!"Info.plist"

/-- xcode_emulation.py:438-445, 501-507 `GetExecutablePath` of a bundle. -/
def executable (s : BundleSpec) : Option Str := s.executables.map fun d => pathJoin d s.product

end BundleSpec

/-- xcode_emulation.py:1627-1651 where one resource goes; `none` is the assertion that there is no
space in its name. -/
def resourceOutput (dest res : Str) : Option Str :=
  if ' ' ∈ res then none
  else
    let lproj := basename (dirname res)
    let output := if endsWith lproj c!".lproj" then pathJoin dest lproj else dest
    let output := pathJoin output (basename res)
    let output := if endsWith output c!".xib" then (splitext output).1 ++ c!".nib" else output
    some (if endsWith output c!".storyboard" then (splitext output).1 ++ c!".storyboardc" else output)

/-- xcode_emulation.py:1616-1651 `GetMacBundleResources` -/
def bundleResources (productDir : Str) (s : BundleSpec) (res : List Str) : Option (List (Str × Str)) :=
  match s.resources with
  | none => none
  | some folder => res.mapM fun r => (resourceOutput (pathJoin productDir folder) r).map fun o => (o, r)

end Gyp
