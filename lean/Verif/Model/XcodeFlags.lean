import Verif.Basic
import Verif.Model.Assoc
import Verif.Model.Sort
import Verif.Model.Path
import Verif.Model.Build
/-
`gyp/pylib/gyp/xcode_emulation.py`: the flags for compilers that follow from `xcode_settings`, as used
for makefiles on macOS.  Not modelled: bundles, tests and extensions (`mac_bundle`, `mac_xctest_bundle`,
`ios_app_extension` and others are not set), header maps (made for Ninja only), warnings that are
printed.  Numbers in settings are taken as their texts.
-/
namespace Gyp

/-- A value of a setting. -/
inductive XVal where
  | text (s : Str)
  | list (l : List Str)
deriving DecidableEq

abbrev XSettings := List (Str × XVal)

/-- The machine: what `xcrun --sdk name --show-sdk-path` says, the version of Xcode, and whether
`GYP_CROSSCOMPILE` is set. -/
structure XMachine where
  sdkPath : Str → Option Str
  xcodeVersion : Str
  crossCompile : Bool

/-- xcode_emulation.py:213-214 `_Test`: a list is never equal to a text. -/
def xTest (s : XSettings) (key value default : Str) : Bool :=
  decide ((aget s key).getD (.text default) = .text value)

/-- The items Python goes through for a value: those of a list, the characters of a text; `[]` when
there is no value. -/
def xItems : Option XVal → List Str
  | none => []
  | some (.text t) => t.map ([·])
  | some (.list l) => l

/-- The text `str` gives for a value; for a list it is left open. -/
def xText (repr : List Str → Str) : XVal → Str
  | .text t => t
  | .list l => repr l

/-- xcode_emulation.py:216-220 `_Appendf`; the format is a text before the value. -/
def xAppendf (repr : List Str → Str) (s : XSettings) (key front : Str) (default : Str) : List Str :=
  match aget s key with
  | some v => [front ++ xText repr v]
  | none => if default = [] then [] else [front ++ default]

/-! ### Architectures -/

/-- xcode_emulation.py:48 `variable_pattern`, with the end of line that `$` allows. -/
def archVariable (a : Str) : Bool :=
  let a := if endsWith a c!"\n" then a.dropLast else a
  startsWith a c!"$(" && endsWith a c!")" &&
    let name := (a.drop 2).dropLast
    match name with
    | [] => false
    | c :: cs => (c.isAlpha || c = '_') && cs.all fun c => c.isAlpha || c = '_' || c.isDigit

/-- xcode_emulation.py:31-37, 115-145: the default, and what the variables stand for by kind of SDK
(mac, simulator, device), by version of Xcode. -/
def archsDefault (version : Str) : Str × (List (Str × List Str)) × (List (Str × List Str)) × List (Str × List Str) :=
  if !strLe c!"0500" version then
    (c!"$(ARCHS_STANDARD)", [(c!"$(ARCHS_STANDARD)", [c!"i386"])], [(c!"$(ARCHS_STANDARD)", [c!"i386"])],
      [(c!"$(ARCHS_STANDARD)", [c!"armv7"])])
  else if !strLe c!"0510" version then
    (c!"$(ARCHS_STANDARD_INCLUDING_64_BIT)",
      [(c!"$(ARCHS_STANDARD)", [c!"x86_64"]), (c!"$(ARCHS_STANDARD_INCLUDING_64_BIT)", [c!"x86_64"])],
      [(c!"$(ARCHS_STANDARD)", [c!"i386"]), (c!"$(ARCHS_STANDARD_INCLUDING_64_BIT)", [c!"i386", c!"x86_64"])],
      [(c!"$(ARCHS_STANDARD)", [c!"armv7", c!"armv7s"]),
       (c!"$(ARCHS_STANDARD_INCLUDING_64_BIT)", [c!"armv7", c!"armv7s", c!"arm64"])])
  else
    (c!"$(ARCHS_STANDARD)",
      [(c!"$(ARCHS_STANDARD)", [c!"x86_64"]), (c!"$(ARCHS_STANDARD_INCLUDING_64_BIT)", [c!"x86_64"])],
      [(c!"$(ARCHS_STANDARD)", [c!"i386", c!"x86_64"]),
       (c!"$(ARCHS_STANDARD_INCLUDING_64_BIT)", [c!"i386", c!"x86_64"])],
      [(c!"$(ARCHS_STANDARD)", [c!"armv7", c!"armv7s", c!"arm64"]),
       (c!"$(ARCHS_STANDARD_INCLUDING_64_BIT)", [c!"armv7", c!"armv7s", c!"arm64"])])

/-- xcode_emulation.py:54-62 `_VariableMapping`. -/
def archMapping (version sdkroot : Str) : List (Str × List Str) :=
  let d := archsDefault version
  let s := sdkroot.map Char.toLower
  if hasSub c!"iphoneos" s then d.2.2.2
  else if hasSub c!"iphonesimulator" s then d.2.2.1
  else d.2.1

/-- Appending what is not there yet. -/
def addNew (l : List Str) (a : Str) : List Str := if a ∈ l then l else l ++ [a]

/-- xcode_emulation.py:64-80 `_ExpandArchs`. -/
def expandArchs (mapping : List (Str × List Str)) (archs : List Str) : List Str :=
  archs.foldl (fun out arch =>
    if archVariable arch then
      match aget mapping arch with
      | some l => l.foldl addNew out
      | none => out
    else addNew out arch) []

/-- Whether a value counts as true for Python. -/
def xTruthy : Option XVal → Bool
  | none => false
  | some (.text t) => decide (t ≠ [])
  | some (.list l) => decide (l ≠ [])

/-- xcode_emulation.py:89-92 `arch in valid_archs`: for a text it asks for a part of the text. -/
def validArch (v : XVal) (arch : Str) : Bool :=
  match v with
  | .text t => hasSub arch t
  | .list l => decide (arch ∈ l)

/-- xcode_emulation.py:82-93 and 509-517 `ActiveArchs` and `GetActiveArchs`.  `SDKROOT` is a text. -/
def activeArchs (m : XMachine) (s : XSettings) (sdkroot : Str) : List Str :=
  let given := aget s c!"ARCHS"
  let archs := if xTruthy given then xItems given else [(archsDefault m.xcodeVersion).1]
  let expanded := expandArchs (archMapping m.xcodeVersion sdkroot) archs
  match aget s c!"VALID_ARCHS" with
  | none => expanded
  | some v => if xTruthy (some v) then expanded.filter (validArch v) else expanded

/-! ### Flags -/

/-- xcode_emulation.py:529-532 `_SdkRoot` for a configuration; `none` when it is not a text (then
`startswith` fails). -/
def sdkRoot (s : XSettings) : Option Str :=
  match aget s c!"SDKROOT" with
  | none => some []
  | some (.text t) => some t
  | some (.list _) => none

/-- xcode_emulation.py:543-555 `_SdkPath`: the inner `none` is `None`.  The cache is left out: the
same question has the same answer. -/
def sdkPathOf (m : XMachine) (root : Str) : Option Str :=
  if startsWith root c!"/" then some root else m.sdkPath root

/-- xcode_emulation.py:557-569 `_AppendPlatformVersionMinFlags`; `none` is an exception. -/
def platformMin (repr : List Str → Str) (m : XMachine) (s : XSettings) (root : Str) : Option (List Str) :=
  let mac := xAppendf repr s c!"MACOSX_DEPLOYMENT_TARGET" c!"-mmacosx-version-min=" []
  match aget s c!"IPHONEOS_DEPLOYMENT_TARGET" with
  | none => some mac
  | some v =>
    match sdkPathOf m root with
    | none => none
    | some p =>
      let base := (((rsplit1 '/' p).map (·.2)).getD p).map Char.toLower
      if startsWith base c!"iphonesimulator" then
        some (mac ++ [c!"-mios-simulator-version-min=" ++ xText repr v])
      else some (mac ++ [c!"-miphoneos-version-min=" ++ xText repr v])

/-- A flag when a setting has a value. -/
def flagIf (b : Bool) (flag : Str) : List Str := if b then [flag] else []

/-- xcode_emulation.py:613-622: the flag for debugging; `none` is `NotImplementedError`. -/
def debugFlag (s : XSettings) : Option (List Str) :=
  if xTest s c!"GCC_GENERATE_DEBUGGING_SYMBOLS" c!"YES" c!"YES" then
    let format := (aget s c!"DEBUG_INFORMATION_FORMAT").getD (.text c!"dwarf")
    if format = .text c!"dwarf" then some [c!"-gdwarf-2"]
    else if format = .text c!"stabs" then none
    else if format = .text c!"dwarf-with-dsym" then some [c!"-gdwarf-2"]
    else none
  else some []

/-- xcode_emulation.py:661-670 (and 960-969): the architecture for compilers and linkers; `platform` is
the `xcode_configuration_platform` of the configuration. -/
def archOf (m : XMachine) (s : XSettings) (root : Str) (platform : Option Str) : Str :=
  match platform.elim (activeArchs m s root) ([·]) with
  | [a] => a
  | _ => c!"i386"

/-- xcode_emulation.py:660-686: the flags for the architecture. -/
def archFlags (m : XMachine) (s : XSettings) (root : Str) (platform : Option Str) : List Str :=
  if m.crossCompile then []
  else
    let arch := archOf m s root platform
    [c!"-arch", arch] ++
    if arch = c!"i386" ∨ arch = c!"x86_64" then
      flagIf (xTest s c!"GCC_ENABLE_SSE3_EXTENSIONS" c!"YES" c!"NO") c!"-msse3" ++
      flagIf (xTest s c!"GCC_ENABLE_SUPPLEMENTAL_SSE3_INSTRUCTIONS" c!"YES" c!"NO") c!"-mssse3" ++
      flagIf (xTest s c!"GCC_ENABLE_SSE41_EXTENSIONS" c!"YES" c!"NO") c!"-msse4.1" ++
      flagIf (xTest s c!"GCC_ENABLE_SSE42_EXTENSIONS" c!"YES" c!"NO") c!"-msse4.2"
    else []

/-- xcode_emulation.py:571-697 `GetCflags`; `none` is an exception. -/
def xcodeCflags (repr : List Str → Str) (m : XMachine) (s : XSettings) (frameworkDirs : List Str)
    (platform : Option Str) : Option (List Str) := do
  let root ← sdkRoot s
  let sdk := (sdkPathOf m root).getD []
  let debug ← debugFlag s
  let min ← platformMin repr m s root
  some
    ((if c!"SDKROOT" ∈ akeys s ∧ sdk ≠ [] then [c!"-isysroot", sdk] else []) ++
    flagIf (xTest s c!"CLANG_WARN_CONSTANT_CONVERSION" c!"YES" c!"NO") c!"-Wconstant-conversion" ++
    flagIf (xTest s c!"GCC_CHAR_IS_UNSIGNED_CHAR" c!"YES" c!"NO") c!"-funsigned-char" ++
    flagIf (xTest s c!"GCC_CW_ASM_SYNTAX" c!"YES" c!"YES") c!"-fasm-blocks" ++
    flagIf (xTest s c!"GCC_DYNAMIC_NO_PIC" c!"YES" []) c!"-mdynamic-no-pic" ++
    flagIf (xTest s c!"GCC_ENABLE_PASCAL_STRINGS" c!"YES" c!"YES") c!"-mpascal-strings" ++
    xAppendf repr s c!"GCC_OPTIMIZATION_LEVEL" c!"-O" c!"s" ++
    debug ++
    (if xTest s c!"GCC_STRICT_ALIASING" c!"YES" [] then [c!"-fstrict-aliasing"]
      else flagIf (xTest s c!"GCC_STRICT_ALIASING" c!"NO" []) c!"-fno-strict-aliasing") ++
    flagIf (xTest s c!"GCC_SYMBOLS_PRIVATE_EXTERN" c!"YES" c!"NO") c!"-fvisibility=hidden" ++
    flagIf (xTest s c!"GCC_TREAT_WARNINGS_AS_ERRORS" c!"YES" c!"NO") c!"-Werror" ++
    flagIf (xTest s c!"GCC_WARN_ABOUT_MISSING_NEWLINE" c!"YES" c!"NO") c!"-Wnewline-eof" ++
    flagIf (xTest s c!"LLVM_LTO" c!"YES" c!"NO") c!"-flto" ++
    min ++
    archFlags m s root platform ++
    xItems (aget s c!"WARNING_CFLAGS") ++
    frameworkDirs.map fun d => c!"-F" ++ replaceStr c!"$(SDKROOT)" sdk d)

/-- xcode_emulation.py:699-709 `GetCflagsC`. -/
def xcodeCflagsC (repr : List Str → Str) (s : XSettings) : List Str :=
  (if xTest s c!"GCC_C_LANGUAGE_STANDARD" c!"ansi" [] then [c!"-ansi"]
    else xAppendf repr s c!"GCC_C_LANGUAGE_STANDARD" c!"-std=" []) ++
  xItems (aget s c!"OTHER_CFLAGS")

/-- xcode_emulation.py:737-749: the other flags for C++. -/
def otherCxxFlags (s : XSettings) : List Str :=
  (match aget s c!"OTHER_CPLUSPLUSFLAGS" with
    | none => [c!"$(inherited)"]
    | some v => xItems (some v)).flatMap fun flag =>
      let flag := if flag ∈ [c!"$inherited", c!"$(inherited)", c!"${inherited}"] then c!"$OTHER_CFLAGS" else flag
      if flag ∈ [c!"$OTHER_CFLAGS", c!"$(OTHER_CFLAGS)", c!"${OTHER_CFLAGS}"] then xItems (aget s c!"OTHER_CFLAGS")
      else [flag]

/-- xcode_emulation.py:716-721: the language for C++. -/
def cxxStandard (repr : List Str → Str) (s : XSettings) : List Str :=
  match aget s c!"CLANG_CXX_LANGUAGE_STANDARD" with
  | none => []
  | some v => if xTruthy (some v) then [c!"-std=" ++ xText repr v] else []

/-- xcode_emulation.py:711-751 `GetCflagsCC`. -/
def xcodeCflagsCc (repr : List Str → Str) (s : XSettings) : List Str :=
  cxxStandard repr s ++
  xAppendf repr s c!"CLANG_CXX_LIBRARY" c!"-stdlib=" [] ++
  flagIf (xTest s c!"GCC_ENABLE_CPP_RTTI" c!"NO" c!"YES") c!"-fno-rtti" ++
  flagIf (xTest s c!"GCC_ENABLE_CPP_EXCEPTIONS" c!"NO" c!"YES") c!"-fno-exceptions" ++
  flagIf (xTest s c!"GCC_INLINES_ARE_PRIVATE_EXTERN" c!"YES" c!"NO") c!"-fvisibility-inlines-hidden" ++
  flagIf (xTest s c!"GCC_THREADSAFE_STATICS" c!"NO" c!"YES") c!"-fno-threadsafe-statics" ++
  flagIf (xTest s c!"GCC_WARN_ABOUT_INVALID_OFFSETOF_MACRO" c!"NO" c!"YES") c!"-Wno-invalid-offsetof" ++
  otherCxxFlags s

/-- xcode_emulation.py:753-778 `GetCflagsObjC`. -/
def xcodeCflagsObjC (s : XSettings) : List Str :=
  (if xTest s c!"GCC_ENABLE_OBJC_GC" c!"supported" c!"unsupported" then [c!"-fobjc-gc"]
    else flagIf (xTest s c!"GCC_ENABLE_OBJC_GC" c!"required" c!"unsupported") c!"-fobjc-gc-only") ++
  flagIf (xTest s c!"CLANG_ENABLE_OBJC_ARC" c!"YES" c!"NO") c!"-fobjc-arc" ++
  flagIf (xTest s c!"CLANG_WARN_OBJC_MISSING_PROPERTY_SYNTHESIS" c!"YES" c!"NO") c!"-Wobjc-missing-property-synthesis"

/-- xcode_emulation.py:780-790 `GetCflagsObjCC`. -/
def xcodeCflagsObjCC (s : XSettings) : List Str :=
  xcodeCflagsObjC s ++
  flagIf (xTest s c!"GCC_OBJC_CALL_CXX_CDTORS" c!"YES" c!"NO") c!"-fobjc-call-cxx-cdtors"

/-- xcode_emulation.py:190-207 `_ConvertConditionalKeys`: the settings of a configuration. -/
def convertConditional (configname : Str) (s : XSettings) : XSettings :=
  (s.filter fun x => endsWith x.1 c!"]").foldl (fun d x =>
    let d :=
      if endsWith x.1 c!"[sdk=iphoneos*]" ∧ endsWith configname c!"iphoneos" then
        aset d ((splitOn '[' x.1).headD []) ((aget d x.1).getD x.2)
      else d
    d.filter fun y => decide (y.1 ≠ x.1)) s

end Gyp
