import Verif.Model.XcodeFlags
import Verif.Model.XcodeEnv
import Verif.Model.ShellQuote
import Verif.Model.NinjaSyntax
import Verif.Model.Splitext
/-
What is to run after a target is linked on macOS: `gyp/pylib/gyp/xcode_emulation.py` (the commands),
`generator/make.py` and `generator/ninja.py` (how they are written).  `none` is an exception.
Simplified: what `_IsBundle`, `_IsXCTest`, `isIOS` and the like answer is given, as are the answers of
`security`, `xcrun` and `GetFullProductName`.  Not modelled: the warning about `OTHER_CODE_SIGN_FLAGS`.
-/
namespace Gyp

/-- What the code asks of a target. -/
structure PbTarget where
  name : Str
  type : Str
  bundle : Bool
  appExtension : Bool
  xctest : Bool
  ios : Bool
  iosFramework : Bool
  product : Str
  postbuilds : List (Str × List Str)

/-- What the code asks of the machine: the path of Python, the fingerprint for an identity (empty when
there is none), and the path of the platform. -/
structure PbMachine where
  python : Str
  fingerprint : Str → Str
  platform : Str

/-- xcode_emulation.py:1070-1077 the style when none is given. -/
def defaultStripStyle (t : PbTarget) : Str :=
  if (t.type = c!"loadable_module" ∨ t.appExtension = true) ∧ t.bundle = true then c!"non-global"
  else if t.type = c!"executable" then c!"all"
  else c!"debugging"

/-- xcode_emulation.py:1080-1082 the flag of a style; `none` is the `KeyError`. -/
def stripStyleFlag (style : Str) : Option Str :=
  aget [(c!"all", []), (c!"non-global", c!"-x"), (c!"debugging", c!"-S")] style

/-- xcode_emulation.py:1079-1086 all the flags; lists are not hashable and have no references. -/
def stripFlags (t : PbTarget) (s : XSettings) : Option Str :=
  match (aget s c!"STRIP_STYLE").getD (.text (defaultStripStyle t)) with
  | .list _ => none
  | .text style =>
    match stripStyleFlag style with
    | none => none
    | some flag =>
      match aget s c!"STRIPFLAGS" with
      | none => some flag
      | some (.list l) => if l = [] then some flag else none
      | some (.text x) => if x = [] then some flag else some (flag ++ [' '] ++ normalizeRefs x)

/-- xcode_emulation.py:1060-1093 `_GetStripPostbuilds`. -/
def stripPostbuilds (t : PbTarget) (s : XSettings) (binary : Str) (quiet : Bool) : Option (List Str) :=
  if xTest s c!"DEPLOYMENT_POSTPROCESSING" c!"YES" c!"NO" ∧ xTest s c!"STRIP_INSTALLED_PRODUCT" c!"YES" c!"NO" then
    match stripFlags t s with
    | none => none
    | some flags =>
      some ((if quiet then [] else [c!"echo STRIP\\(" ++ t.name ++ c!"\\)"]) ++
        [c!"strip " ++ flags ++ [' '] ++ binary])
  else some []

/-- xcode_emulation.py:1095-1115 `_GetDebugInfoPostbuilds`. -/
def debugPostbuilds (t : PbTarget) (s : XSettings) (output binary : Str) (quiet : Bool) : List Str :=
  if xTest s c!"GCC_GENERATE_DEBUGGING_SYMBOLS" c!"YES" c!"YES" ∧
      xTest s c!"DEBUG_INFORMATION_FORMAT" c!"dwarf-with-dsym" c!"dwarf" ∧ t.type ≠ c!"static_library" then
    (if quiet then [] else [c!"echo DSYMUTIL\\(" ++ t.name ++ c!"\\)"]) ++
      [c!"dsymutil " ++ binary ++ c!" -o " ++ (output ++ c!".dSYM")]
  else []

/-- xcode_emulation.py:1117-1123 `_GetTargetPostbuilds`. -/
def targetPostbuilds (t : PbTarget) (s : XSettings) (output binary : Str) (quiet : Bool) : Option (List Str) :=
  match stripPostbuilds t s binary quiet with
  | none => none
  | some strip => some (debugPostbuilds t s output binary quiet ++ strip)

/-- `settings.get(key, "")` in a text; for a list it is left open. -/
def settingText (repr : List Str → Str) (s : XSettings) (key : Str) : Str :=
  xText repr ((aget s key).getD (.text []))

/-- xcode_emulation.py:1173-1186,1191-1203,1206-1219 one call of the signing tool. -/
def signCommand (repr : List Str → Str) (m : PbMachine) (s : XSettings) (key path : Str) (preserve : Str) : Str :=
  m.python ++ [' '] ++ pathJoin c!"${TARGET_BUILD_DIR}" c!"gyp-mac-tool" ++ c!" code-sign-bundle \"" ++ key ++
    c!"\" \"" ++ settingText repr s c!"CODE_SIGN_ENTITLEMENTS" ++ c!"\" \"" ++
    settingText repr s c!"PROVISIONING_PROFILE" ++ c!"\" \"" ++ path ++ c!"\" " ++ preserve

/-- xcode_emulation.py:1223-1239 `_GetIOSCodeSignIdentityKey`; for a list, which is not hashable, there is
an exception. -/
def signKey (m : PbMachine) (s : XSettings) : Option Str :=
  match aget s c!"CODE_SIGN_IDENTITY" with
  | none => some []
  | some (.list l) => if l = [] then some [] else none
  | some (.text i) => some (if i = [] then [] else m.fingerprint i)

/-- xcode_emulation.py:1140-1145 what copies tests, and the directory of their host; `dirname` of no
text is an exception. -/
def testHost (s : XSettings) : Option Str :=
  match aget s c!"TEST_HOST" with
  | some (.text h) => some (dirname h)
  | _ => none

/-- xcode_emulation.py:1159-1203 what runs for tests before the product is signed. -/
def testSigning (repr : List Str → Str) (t : PbTarget) (m : PbMachine) (s : XSettings) (key host : Str) : List Str :=
  ([c!"Developer/Library/PrivateFrameworks" ++ c!"/IDEBundleInjection.framework",
    c!"Developer/Library/Frameworks" ++ c!"/XCTest.framework"].flatMap fun f =>
      let source := pathJoin m.platform f
      let destination := pathJoin (pathJoin host c!"Frameworks") (basename f)
      [c!"ditto " ++ source ++ [' '] ++ destination, signCommand repr m s key destination c!"True"]) ++
    [pathJoin (pathJoin host c!"PlugIns") t.product, host].map fun p => signCommand repr m s key p c!"True"

/-- xcode_emulation.py:1125-1221 `_GetIOSPostbuilds`. -/
def iosPostbuilds (repr : List Str → Str) (t : PbTarget) (m : PbMachine) (s : XSettings) : Option (List Str) :=
  if ¬ ((t.ios = true ∧ (t.type = c!"executable" ∨ t.xctest = true)) ∨ t.iosFramework = true) then some []
  else
    let product := pathJoin c!"${BUILT_PRODUCTS_DIR}" t.product
    match (if t.xctest then testHost s else some []) with
    | none => none
    | some host =>
      let copy := if t.xctest then
        [c!"ditto " ++ product ++ [' '] ++ pathJoin (pathJoin host c!"PlugIns") t.product] else []
      match signKey m s with
      | none => none
      | some key =>
        if key = [] then some copy
        else
          some (copy ++ (if t.xctest then testSigning repr t m s key host else []) ++
            [signCommand repr m s key product c!"False"])

/-- xcode_emulation.py:1241-1249 `AddImplicitPostbuilds`. -/
def addImplicitPostbuilds (repr : List Str → Str) (t : PbTarget) (m : PbMachine) (s : XSettings)
    (output binary : Str) (postbuilds : List Str) (quiet : Bool) : Option (List Str) :=
  match targetPostbuilds t s output binary quiet with
  | none => none
  | some pre =>
    match iosPostbuilds repr t m s with
    | none => none
    | some post => some (pre ++ postbuilds ++ post)

/-- xcode_emulation.py:1896-1908 `GetSpecPostbuildCommands`. -/
def specPostbuildCommands (t : PbTarget) (quiet : Bool) : List Str :=
  t.postbuilds.flatMap fun p =>
    (if quiet then [] else [c!"echo POSTBUILD\\(" ++ t.name ++ c!"\\) " ++ p.1]) ++ [EncodePOSIXShellList p.2]

/-! ### Makefiles -/

/-- generator/make.py:1706-1732 `target_postbuilds`: an entry for each configuration, given sorted by name,
that has commands; `output` and `binary` are the texts made of the names of the outputs. -/
def makeTargetPostbuilds (repr : List Str → Str) (t : PbTarget) (m : PbMachine) (output binary : Str) :
    List (Str × XSettings) → Option (List (Str × List Str))
  | [] => some []
  | (name, s) :: rest =>
    match addImplicitPostbuilds repr t m s output binary [] false with
    | none => none
    | some cmds =>
      match makeTargetPostbuilds repr t m output binary rest with
      | none => none
      | some more => some (if cmds = [] then more else (name, cmds) :: more)

/-- generator/make.py:1768-1772 the list before the `cd` is put in front. -/
def makePostbuildTexts (t : PbTarget) (implicit : List (Str × List Str)) : List Str :=
  (if implicit = [] then [] else [c!"$(TARGET_POSTBUILDS_$(BUILDTYPE))"]) ++ specPostbuildCommands t false

/-- generator/make.py:1793-1795 what does not begin with a dollar is quoted. -/
def quotePostbuild (p : Str) : Str := if startsWith p ['$'] then p else makeEscapeShellArgument p

/-- generator/make.py:1766-1802 the lines for the target.  Simplified: the lines for the environment
(1778) are not among them. -/
def makePostbuildLines (t : PbTarget) (implicit : List (Str × List Str)) (output path : Str) : List Str :=
  let texts := makePostbuildTexts t implicit
  if texts = [] then []
  else
    (implicit.map fun e => QuoteSpaces output ++ c!": TARGET_POSTBUILDS_" ++ e.1 ++ c!" := " ++
      EncodePOSIXShellList e.2 ++ ['\n']) ++
    [QuoteSpaces output ++ c!": builddir := $(abs_builddir)\n",
     QuoteSpaces output ++ c!": POSTBUILDS := " ++
       joinWith [' '] ((EncodePOSIXShellList [c!"cd", path] :: texts).map quotePostbuild) ++ ['\n']]

/-- generator/make.py:531-545 `do_postbuilds`, as the shell carries it out: `run` is `eval $p`, with the
state of the machine and the exit code.  The code is that of the last command run. -/
def postbuildLoop {σ : Type} (run : σ → Str → σ × Nat) : σ → Nat → List Str → σ × Nat
  | st, e, [] => (st, e)
  | st, _, p :: rest =>
    match run st p with
    | (st', 0) => postbuildLoop run st' 0 rest
    | (st', e' + 1) => (st', e' + 1)

/-- generator/make.py:531-545 the whole of `do_postbuilds`; `remove` is `rm -rf "$@"`. -/
def doPostbuilds {σ : Type} (run : σ → Str → σ × Nat) (remove : σ → σ) (st : σ) (words : List Str) : σ × Nat :=
  match postbuildLoop run st 0 words with
  | (st', 0) => (st', 0)
  | (st', e + 1) => (remove st', e + 1)

/-! ### Ninja -/

/-- `[ninja_syntax.escape(command) for command in postbuilds]`. -/
def ninjaEscapeAll : List Str → Option (List Str)
  | [] => some []
  | s :: rest =>
    match ninjaEscape s, ninjaEscapeAll rest with
    | some x, some xs => some (x :: xs)
    | _, _ => none

/-- generator/ninja.py:1735-1748 the commands.  `binary` is `none` when there is none; `implicitOutput`
and `implicitBinary` are the texts handed on for the two paths. -/
def ninjaPostbuildList (repr : List Str → Str) (t : PbTarget) (m : PbMachine) (s : XSettings)
    (binary : Bool) (implicitOutput implicitBinary : Str) : Option (List Str) :=
  if binary then
    addImplicitPostbuilds repr t m s implicitOutput implicitBinary (specPostbuildCommands t true) true
  else some (specPostbuildCommands t true)

/-- generator/ninja.py:1752-1770 the text for some commands; `env` is what exports the environment,
`output` the quoted name of the output. -/
def ninjaPostbuildText (commands : List Str) (env output toBase : Str) (start : Bool) : Option Str :=
  if commands = [] then some []
  else
    match ninjaEscapeAll (EncodePOSIXShellList [c!"cd", toBase] :: commands) with
    | none => none
    | some escaped =>
      let text := env ++ c!" (" ++ joinWith c!" && " escaped ++ c!"); G=$$?; ((exit $$G) || rm -rf " ++ output ++
        c!") && exit $$G)"
      some (if start then c!"(" ++ text ++ c!" && " else c!"$ && (" ++ text)

end Gyp
