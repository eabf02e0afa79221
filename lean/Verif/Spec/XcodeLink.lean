import Verif.Model.XcodeLink
import Verif.Spec.XcodeFlags
/-
What `xcode_settings` mean for the commands of linkers on macOS.
-/
namespace Gyp.Spec

/-- Flags for linkers that are followed by the name of a file. -/
def fileFlags : List Str := [c!"-exported_symbols_list", c!"-unexported_symbols_list", c!"-reexported_symbols_list"]

/-- A word: it has no white space. -/
def LinkWord (s : Str) : Prop := s ≠ [] ∧ ∀ c ∈ s, linkBlank c = false

/-- A word with no comma. -/
def LinkName (s : Str) : Prop := LinkWord s ∧ ',' ∉ s

/-- The switches for linkers. -/
def linkSwitches : List XcodeSwitch := [
  ⟨c!"DEAD_CODE_STRIPPING", c!"YES", false, c!"-Wl,-dead_strip"⟩,
  ⟨c!"PREBINDING", c!"YES", false, c!"-Wl,-prebind"⟩]

/-- Settings with values for linkers. -/
def linkValued : List Valued := [
  ⟨c!"DYLIB_COMPATIBILITY_VERSION", c!"-compatibility_version ", none⟩,
  ⟨c!"DYLIB_CURRENT_VERSION", c!"-current_version ", none⟩,
  ⟨c!"MACOSX_DEPLOYMENT_TARGET", c!"-mmacosx-version-min=", none⟩,
  ⟨c!"CLANG_CXX_LIBRARY", c!"-stdlib=", none⟩]

/-- All configurations of a target have the same value (or none) for a setting. -/
def SameInAll (t : XTarget) (key : Str) (v : Option XVal) : Prop :=
  ∀ c ∈ t.configs, aget c.2 key = v

/-- The flag is not one the user wrote (or an odd name of an SDK, of an architecture or of a library). -/
def NotLinked (m : XMachine) (t : XTarget) (s : XSettings) (toBuild : Str → Str) (platform : Option Str)
    (flag : Str) : Prop :=
  flag ∉ (xItems (aget s c!"OTHER_LDFLAGS")).map (mapLinkerFlag toBuild) ∧
  (∀ p, c!"-Wl," ++ toBuild p ≠ flag) ∧
  (∀ root, m.sdkPath root ≠ some flag) ∧ aget s c!"SDKROOT" ≠ some (.text flag) ∧
  flag ∉ xItems (aget s c!"ARCHS") ∧ platform ≠ some flag ∧
  (∀ n, installName t = some (some n) → replaceStr c!" " c!"\\ " n ≠ flag)

/-- The name of the file of a shared library. -/
def sharedFile (t : XTarget) : Str :=
  let plain := match t.targetName with
    | 'l' :: 'i' :: 'b' :: rest => rest
    | name => name
  t.productPrefix.getD c!"lib" ++ t.productName.getD plain ++ (t.productExtension.elim c!".dylib" ('.' :: ·))

/-- The name under which Xcode installs libraries when it is not told otherwise. -/
def standardInstallName : Str := c!"$(DYLIB_INSTALL_NAME_BASE:standardizepath)" ++ c!"/" ++ c!"$(EXECUTABLE_PATH)"

/-- The setting is a text in all configurations, or the text given when it is left out in all. -/
def TextInAll (t : XTarget) (key default v : Str) : Prop :=
  SameInAll t key (some (.text v)) ∨ (SameInAll t key none ∧ v = default)

end Gyp.Spec
