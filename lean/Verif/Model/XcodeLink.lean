import Verif.Model.XcodeFlags
import Verif.Model.Splitext
/-
`gyp/pylib/gyp/xcode_emulation.py`: the flags for linkers and the libraries that follow from
`xcode_settings`, as used for makefiles on macOS.  As in `Model/XcodeFlags.lean`, bundles, tests and
extensions are not modelled.
-/
namespace Gyp

/-- What counts of a target. -/
structure XTarget where
  type : Str
  targetName : Str
  productName : Option Str
  productPrefix : Option Str
  productExtension : Option Str
  configs : List (Str × XSettings)

/-- xcode_emulation.py:1042-1058 `GetPerTargetSetting` without the default: the outer `none` is the
failed assertion, the inner one `None`. -/
def perTargetSetting (t : XTarget) (key : Str) : Option (Option XVal) :=
  match (pySorted strLe (akeys t.configs)).map fun c => aget ((aget t.configs c).getD []) key with
  | [] => some none
  | v :: vs => if vs.all fun w => decide (w = v) then some v else none

/-- The types of targets with a file of their own. -/
def standaloneTypes : List (Str × Str × Str) :=
  [(c!"executable", [], []), (c!"static_library", c!"lib", c!".a"), (c!"shared_library", c!"lib", c!".dylib"),
   (c!"loadable_module", [], c!".so")]

/-- xcode_emulation.py:447-491 `_GetStandaloneBinaryPath`, with the prefix and the suffix; `none` is
a failed assertion. -/
def standaloneBinary (t : XTarget) : Option Str :=
  (standaloneTypes.find? fun x => x.1 = t.type).map fun x =>
    let target := if t.type ≠ c!"executable" ∧ t.targetName.take 3 = c!"lib" then t.targetName.drop 3 else t.targetName
    t.productPrefix.getD x.2.1 ++ t.productName.getD target ++
      (match t.productExtension with | some e => '.' :: e | none => x.2.2)

/-- xcode_emulation.py:805-815 `_StandardizePath`. -/
def standardizePath (p : Str) : Str :=
  if '/' ∈ p then
    let (pre, rest) := if startsWith p c!"@" then (split1 '/' p).getD (p, []) else ([], p)
    pathJoin pre (normpath rest)
  else p

/-- xcode_emulation.py:792-803 `GetInstallNameBase` for a target of the right type; `none` is an
exception (a value that is not a text, or not the same for all configurations). -/
def installNameBase (t : XTarget) : Option Str :=
  match perTargetSetting t c!"DYLIB_INSTALL_NAME_BASE" with
  | none => none
  | some none => some c!"/usr/local/lib"
  | some (some (.text b)) => some b
  | some (some (.list _)) => none

/-- xcode_emulation.py:825-827 -/
def defaultInstallName : Str := c!"$(DYLIB_INSTALL_NAME_BASE:standardizepath)" ++ c!"/$(EXECUTABLE_PATH)"

/-- xcode_emulation.py:817-864 `GetInstallName`; the outer `none` is an exception, the inner one
`None`. -/
def installName (t : XTarget) : Option (Option Str) :=
  if t.type ≠ c!"shared_library" ∧ t.type ≠ c!"loadable_module" then some none
  else
    match perTargetSetting t c!"LD_DYLIB_INSTALL_NAME" with
    | none => none
    | some (some (.list _)) => none
    | some v =>
      let name := match v with | some (.text n) => n | _ => defaultInstallName
      if '$' ∈ name then
        if name ≠ defaultInstallName then none
        else do
          let base ← installNameBase t
          let name := replaceStr c!"$(DYLIB_INSTALL_NAME_BASE:standardizepath)" (standardizePath base) name
          if hasSub c!"$(WRAPPER_NAME)" name ∨ hasSub c!"$(PRODUCT_NAME)" name then none
          else
            let exe ← standaloneBinary t
            some (some (replaceStr c!"$(EXECUTABLE_PATH)" exe name))
      else some (some name)

/-! ### Linker flags with names of files -/

/-- What is not `\S`.  Simplified: of Unicode's white space, only that of ASCII. -/
def linkBlank (c : Char) : Bool := c.isWhitespace || c = '\x0b' || c = '\x0c'

/-- The separators `[ ,]`. -/
def linkSep (c : Char) : Bool := c = ' ' || c = ','

/-- `\S+[ ,]` before what is left of a pattern, after some of its word (`started`) or none: the longest
word for which the rest matches; the result is the text before the rest, with its separator, and
what the rest gives. -/
def greedyFrom {α : Type} (rest : Str → Option α) : Bool → Str → Option (Str × α)
  | _, [] => none
  | started, c :: s =>
    match (if linkBlank c then none else greedyFrom rest true s) with
    | some (w, a) => some (c :: w, a)
    | none => if started && linkSep c then (rest s).map fun a => ([c], a) else none

/-- `\S+[ ,]` before what is left of a pattern. -/
def greedyWord {α : Type} (rest : Str → Option α) (s : Str) : Option (Str × α) := greedyFrom rest false s

/-- `(\S+)` at the end of a pattern: the file and what follows. -/
def fileWord (s : Str) : Option (Str × Str) :=
  let w := s.takeWhile fun c => !linkBlank c
  if w = [] then none else some (w, s.drop w.length)

/-- xcode_emulation.py:882-889: a pattern (its flag and how many words come before the file) after the
`-Wl,` it may begin with (`pre`); what comes before the file, the file, and what follows. -/
def linkBody (pre flag : Str) (words : Nat) (body : Str) : Option (Str × Str × Str) :=
  if startsWith body flag then
    match body.drop flag.length with
    | c :: r =>
      if linkSep c then
        let front := pre ++ flag ++ [c]
        if words = 0 then (fileWord r).map fun x => (front, x.1, x.2)
        else (greedyWord (greedyWord fileWord) r).map fun x => (front ++ x.1 ++ x.2.1, x.2.2.1, x.2.2.2)
      else none
    | [] => none
  else none

/-- xcode_emulation.py:882-889: a pattern at the beginning of a flag. -/
def linkMatch (flag : Str) (words : Nat) (ldflag : Str) : Option (Str × Str × Str) :=
  if startsWith ldflag c!"-Wl," then linkBody c!"-Wl," flag words (ldflag.drop 4)
  else linkBody [] flag words ldflag

/-- xcode_emulation.py:876-881 the flags with the name of a file, and the words before it (none or
two). -/
def linkerFlags : List (Str × Nat) :=
  [(c!"-exported_symbols_list", 0), (c!"-unexported_symbols_list", 0), (c!"-reexported_symbols_list", 0),
   (c!"-sectcreate", 2)]

/-- xcode_emulation.py:889-892: a pattern and what is made of a flag it matches. -/
def flagStep (toBuild : Str → Str) (ldflag : Str) (p : Str × Nat) : Str :=
  match linkMatch p.1 p.2 ldflag with
  | some (a, file, b) => a ++ toBuild file ++ b
  | none => ldflag

/-- xcode_emulation.py:866-895 `_MapLinkerFlagFilename`. -/
def mapLinkerFlag (toBuild : Str → Str) (ldflag : Str) : Str :=
  let ldflag := linkerFlags.foldl (flagStep toBuild) ldflag
  if startsWith ldflag c!"-L" then c!"-L" ++ toBuild (ldflag.drop 2) else ldflag

/-! ### Flags -/

/-- xcode_emulation.py:935-937: the file with the order of functions; `none` when it is not a text. -/
def orderFlags (toBuild : Str → Str) (s : XSettings) : Option (List Str) :=
  match aget s c!"ORDER_FILE" with
  | none => some []
  | some (.text t) => some [c!"-Wl,-order_file", c!"-Wl," ++ toBuild t]
  | some (.list _) => none

/-- xcode_emulation.py:957-960: the flags for the name under which a library is installed. -/
def installFlags (t : XTarget) : Option (List Str) :=
  (installName t).map fun name =>
    match name with
    | some n =>
      if n ≠ [] ∧ t.type ≠ c!"loadable_module" then [c!"-install_name", replaceStr c!" " c!"\\ " n] else []
    | none => []

/-- xcode_emulation.py:897-1001 `GetLdflags`; `none` is an exception. -/
def xcodeLdflags (repr : List Str → Str) (m : XMachine) (t : XTarget) (s : XSettings) (productDir : Str)
    (toBuild : Str → Str) (frameworkDirs : List Str) (platform : Option Str) : Option (List Str) := do
  let root ← sdkRoot s
  let sdk := (sdkPathOf m root).getD []
  let min ← platformMin repr m s root
  let order ← orderFlags toBuild s
  let install ← installFlags t
  some
    ((xItems (aget s c!"OTHER_LDFLAGS")).map (mapLinkerFlag toBuild) ++
    (flagIf (xTest s c!"DEAD_CODE_STRIPPING" c!"YES" c!"NO") c!"-Wl,-dead_strip" ++
    flagIf (xTest s c!"PREBINDING" c!"YES" c!"NO") c!"-Wl,-prebind" ++
    xAppendf repr s c!"DYLIB_COMPATIBILITY_VERSION" c!"-compatibility_version " [] ++
    xAppendf repr s c!"DYLIB_CURRENT_VERSION" c!"-current_version " [] ++
    min ++
    (if c!"SDKROOT" ∈ akeys s ∧ sdk ≠ [] then [c!"-isysroot", sdk] else []) ++
    ((xItems (aget s c!"LIBRARY_SEARCH_PATHS")).map fun p => c!"-L" ++ toBuild p) ++
    order ++
    (if m.crossCompile then [] else [c!"-arch", archOf m s root platform]) ++
    [c!"-L" ++ if productDir ≠ c!"." then productDir else c!"./"] ++
    install ++
    ((xItems (aget s c!"LD_RUNPATH_SEARCH_PATHS")).map fun p => c!"-Wl,-rpath," ++ p) ++
    (frameworkDirs.map fun d => c!"-F" ++ replaceStr c!"$(SDKROOT)" sdk d) ++
    xAppendf repr s c!"CLANG_CXX_LIBRARY" c!"-stdlib=" []))

/-! ### Libraries -/

/-- xcode_emulation.py:188 `library_re`: the name of a library, from the name of its file. -/
def libraryName (s : Str) : Option Str :=
  let s := if endsWith s c!"\n" then s.dropLast else s
  if startsWith s c!"lib" then
    let body := s.drop 3
    let name :=
      if endsWith body c!".a" then body.take (body.length - 2)
      else if endsWith body c!".dylib" then body.take (body.length - 6)
      else []
    if name ≠ [] ∧ '/' ∉ name then some name else none
  else none

/-- xcode_emulation.py:1251-1277 `_AdjustLibrary`; `sdk` is the path of the SDK, empty when there is
none. -/
def adjustLibrary (fileExists : Str → Bool) (sdk : Str) (library : Str) : Str :=
  let flag :=
    if endsWith library c!".framework" then c!"-framework " ++ (splitext (basename library)).1
    else match libraryName library with
      | some n => c!"-l" ++ n
      | none => library
  let out := replaceStr c!"$(SDKROOT)" sdk flag
  if startsWith flag c!"$(SDKROOT)" then
    let (base, ext) := splitext out
    if ext = c!".dylib" ∧ fileExists out = false ∧ fileExists (base ++ c!".tbd") = true then base ++ c!".tbd" else out
  else out

/-- xcode_emulation.py:1279-1284 `AdjustLibraries` for all configurations (`config_name` is `None`):
the SDK must be the same in all of them; `none` is an exception. -/
def adjustLibraries (m : XMachine) (fileExists : Str → Bool) (t : XTarget) (libraries : List Str) :
    Option (List Str) :=
  if libraries = [] then some []
  else
    match perTargetSetting t c!"SDKROOT" with
    | none => none
    | some (some (.list _)) => none
    | some v =>
      let root := match v with | some (.text r) => r | _ => []
      some (libraries.map (adjustLibrary fileExists ((sdkPathOf m root).getD [])))

end Gyp
