import Verif.Model.XcodeFlags
/-
What `xcode_settings` mean for the commands of compilers on macOS.
-/
namespace Gyp.Spec

/-- A setting that turns a flag on: its name, the value it must have, whether leaving it out counts as
having that value, and the flag. -/
structure XcodeSwitch where
  setting : Str
  value : Str
  whenUnset : Bool
  flag : Str

/-- The setting has the value. -/
def XcodeSwitch.On (w : XcodeSwitch) (s : XSettings) : Prop :=
  aget s w.setting = some (.text w.value) ∨ (aget s w.setting = none ∧ w.whenUnset = true)

/-- Switches for all languages. -/
def allSwitches : List XcodeSwitch := [
  ⟨c!"CLANG_WARN_CONSTANT_CONVERSION", c!"YES", false, c!"-Wconstant-conversion"⟩,
  ⟨c!"GCC_CHAR_IS_UNSIGNED_CHAR", c!"YES", false, c!"-funsigned-char"⟩,
  ⟨c!"GCC_CW_ASM_SYNTAX", c!"YES", true, c!"-fasm-blocks"⟩,
  ⟨c!"GCC_DYNAMIC_NO_PIC", c!"YES", false, c!"-mdynamic-no-pic"⟩,
  ⟨c!"GCC_ENABLE_PASCAL_STRINGS", c!"YES", true, c!"-mpascal-strings"⟩,
  ⟨c!"GCC_GENERATE_DEBUGGING_SYMBOLS", c!"YES", true, c!"-gdwarf-2"⟩,
  ⟨c!"GCC_STRICT_ALIASING", c!"YES", false, c!"-fstrict-aliasing"⟩,
  ⟨c!"GCC_STRICT_ALIASING", c!"NO", false, c!"-fno-strict-aliasing"⟩,
  ⟨c!"GCC_SYMBOLS_PRIVATE_EXTERN", c!"YES", false, c!"-fvisibility=hidden"⟩,
  ⟨c!"GCC_TREAT_WARNINGS_AS_ERRORS", c!"YES", false, c!"-Werror"⟩,
  ⟨c!"GCC_WARN_ABOUT_MISSING_NEWLINE", c!"YES", false, c!"-Wnewline-eof"⟩,
  ⟨c!"LLVM_LTO", c!"YES", false, c!"-flto"⟩]

/-- Switches that count for Intel processors only. -/
def intelSwitches : List XcodeSwitch := [
  ⟨c!"GCC_ENABLE_SSE3_EXTENSIONS", c!"YES", false, c!"-msse3"⟩,
  ⟨c!"GCC_ENABLE_SUPPLEMENTAL_SSE3_INSTRUCTIONS", c!"YES", false, c!"-mssse3"⟩,
  ⟨c!"GCC_ENABLE_SSE41_EXTENSIONS", c!"YES", false, c!"-msse4.1"⟩,
  ⟨c!"GCC_ENABLE_SSE42_EXTENSIONS", c!"YES", false, c!"-msse4.2"⟩]

/-- Switches for C++. -/
def cxxSwitches : List XcodeSwitch := [
  ⟨c!"GCC_ENABLE_CPP_RTTI", c!"NO", false, c!"-fno-rtti"⟩,
  ⟨c!"GCC_ENABLE_CPP_EXCEPTIONS", c!"NO", false, c!"-fno-exceptions"⟩,
  ⟨c!"GCC_INLINES_ARE_PRIVATE_EXTERN", c!"YES", false, c!"-fvisibility-inlines-hidden"⟩,
  ⟨c!"GCC_THREADSAFE_STATICS", c!"NO", false, c!"-fno-threadsafe-statics"⟩,
  ⟨c!"GCC_WARN_ABOUT_INVALID_OFFSETOF_MACRO", c!"NO", false, c!"-Wno-invalid-offsetof"⟩]

/-- Switches for Objective-C and Objective-C++. -/
def objcSwitches : List XcodeSwitch := [
  ⟨c!"GCC_ENABLE_OBJC_GC", c!"supported", false, c!"-fobjc-gc"⟩,
  ⟨c!"GCC_ENABLE_OBJC_GC", c!"required", false, c!"-fobjc-gc-only"⟩,
  ⟨c!"CLANG_ENABLE_OBJC_ARC", c!"YES", false, c!"-fobjc-arc"⟩,
  ⟨c!"CLANG_WARN_OBJC_MISSING_PROPERTY_SYNTHESIS", c!"YES", false, c!"-Wobjc-missing-property-synthesis"⟩]

/-- A setting whose value is part of a flag: its name, what goes before the value, and the value
when it is left out. -/
structure Valued where
  setting : Str
  front : Str
  whenUnset : Option Str

/-- The value. -/
def Valued.Is (w : Valued) (s : XSettings) (t : Str) : Prop :=
  aget s w.setting = some (.text t) ∨ (aget s w.setting = none ∧ w.whenUnset = some t)

/-- Settings with values for all languages. -/
def allValued : List Valued := [
  ⟨c!"GCC_OPTIMIZATION_LEVEL", c!"-O", some c!"s"⟩,
  ⟨c!"MACOSX_DEPLOYMENT_TARGET", c!"-mmacosx-version-min=", none⟩]

/-- Everything that counts for the flags for all languages. -/
def allKnown : List Str :=
  allSwitches.map (·.setting) ++ intelSwitches.map (·.setting) ++ allValued.map (·.setting) ++
    [c!"SDKROOT", c!"IPHONEOS_DEPLOYMENT_TARGET", c!"DEBUG_INFORMATION_FORMAT", c!"ARCHS", c!"VALID_ARCHS",
     c!"WARNING_CFLAGS"]

/-- Everything that counts for the flags for C++. -/
def cxxKnown : List Str :=
  cxxSwitches.map (·.setting) ++
    [c!"CLANG_CXX_LANGUAGE_STANDARD", c!"CLANG_CXX_LIBRARY", c!"OTHER_CPLUSPLUSFLAGS", c!"OTHER_CFLAGS"]

/-- The flag is not one the user wrote (or an odd name of an SDK or of an architecture). -/
def NotWritten (m : XMachine) (s : XSettings) (platform : Option Str) (flag : Str) : Prop :=
  flag ∉ xItems (aget s c!"WARNING_CFLAGS") ∧
  (∀ root, m.sdkPath root ≠ some flag) ∧ aget s c!"SDKROOT" ≠ some (.text flag) ∧
  flag ∉ xItems (aget s c!"ARCHS") ∧ platform ≠ some flag

/-- References to the flags for C, and to the flags inherited (which are those for C). -/
def cflagsReferences : List Str :=
  [c!"$inherited", c!"$(inherited)", c!"${inherited}", c!"$OTHER_CFLAGS", c!"$(OTHER_CFLAGS)", c!"${OTHER_CFLAGS}"]

/-- `out` is `flags` with every reference replaced by the flags for C. -/
inductive Replaced (cflags : List Str) : List Str → List Str → Prop where
  | nil : Replaced cflags [] []
  | reference {f rest out} : f ∈ cflagsReferences → Replaced cflags rest out →
      Replaced cflags (f :: rest) (cflags ++ out)
  | plain {f rest out} : f ∉ cflagsReferences → Replaced cflags rest out →
      Replaced cflags (f :: rest) (f :: out)

/-- The architectures `$(ARCHS_STANDARD)` and `$(ARCHS_STANDARD_INCLUDING_64_BIT)` stand for with Xcode
5.1 and later. -/
def standardArchs (sdk : Str) : List Str :=
  let s := sdk.map Char.toLower
  if c!"iphoneos" <:+: s then [c!"armv7", c!"armv7s", c!"arm64"]
  else if c!"iphonesimulator" <:+: s then [c!"i386", c!"x86_64"]
  else [c!"x86_64"]

/-- The architectures an entry of `ARCHS` stands for: a variable that is not known stands for none. -/
def ArchStandsFor (sdk entry arch : Str) : Prop :=
  if entry = c!"$(ARCHS_STANDARD)" ∨ entry = c!"$(ARCHS_STANDARD_INCLUDING_64_BIT)" then arch ∈ standardArchs sdk
  else archVariable entry = false ∧ arch = entry

end Gyp.Spec
