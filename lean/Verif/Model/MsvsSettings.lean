import Verif.Model.MsvsEscape
import Verif.Model.Options
/-
Conversion and validation of the settings of the Microsoft build tools:
gyp/MSVSSettings.py:19-545.  The declarations of the settings are in
`Verif.Model.MsvsTable`.
-/
namespace Gyp

/-- A value of a setting: after loading, a string or a list of strings.
(Dictionaries and `None` are not modelled.) -/
inductive MsVal where
  | str (s : Str)
  | list (l : List Str)
deriving DecidableEq

/-- MSVSSettings.py:35-46 `_Tool`. -/
structure MsTool where
  msvs : Str
  msbuild : Str
deriving DecidableEq

/-- MSVSSettings.py:68-212 the subclasses of `_Type`; `hex` is `msbuild_base=16`. -/
inductive MsType where
  | string
  | stringList
  | boolean
  | integer (hex : Bool)
  | enumeration (labels : List (Option Str)) (new : List Str)
deriving DecidableEq

/-- What can go wrong: a `ValueError`, which becomes a warning, or another exception
(`TypeError`, `AttributeError`), which ends the run. -/
inductive MsErr where
  | value
  | crash
deriving DecidableEq

/-- A digit of a number in base 16. -/
def isHexDigit (c : Char) : Bool :=
  asciiDigit c || ('a' ≤ c && c ≤ 'f') || ('A' ≤ c && c ≤ 'F')

/-- Whether `int(s, 16)` succeeds: blanks around, a sign, `0x`, and groups of digits
separated by underscores.  (Digits outside of ASCII are not modelled.) -/
def pyHexOk (s : Str) : Bool :=
  let t := pyStrip s
  let d := if t.head? = some '-' ∨ t.head? = some '+' then t.tail else t
  let d := if startsWith d c!"0x_" ∨ startsWith d c!"0X_" then d.drop 3
    else if startsWith d c!"0x" ∨ startsWith d c!"0X" then d.drop 2 else d
  (splitOn '_' d).all fun g => g ≠ [] && g.all isHexDigit

/-- `"%04x" % n` of a natural number: digits, with zeros in front up to `w`
characters. -/
def hexPadded (w n : Nat) : Str :=
  List.replicate (w - (Nat.toDigits 16 n).length) '0' ++ Nat.toDigits 16 n

/-- MSVSSettings.py:177 `"0x%04x" % i`: a minus sign counts for the width. -/
def hexText (i : Int) : Str :=
  match i with
  | .ofNat n => c!"0x" ++ hexPadded 4 n
  | .negSucc n => c!"0x-" ++ hexPadded 3 (n + 1)

/-- MSVSSettings.py:81-212 `ConvertToMSBuild` of the types. -/
def MsType.convert : MsType → MsVal → Except MsErr MsVal
  | .string, .str s => .ok (.str (ConvertVCMacrosToMSBuild s))
  | .string, .list l => if c!"$" ∈ l then .error .crash else .ok (.list l)  -- `"$" in s`
  | .stringList, .str s => .ok (.str (ConvertVCMacrosToMSBuild s))
  | .stringList, .list l => .ok (.list (l.map ConvertVCMacrosToMSBuild))
  | .boolean, .str s => if s = c!"true" ∨ s = c!"false" then .ok (.str s) else .error .value
  | .boolean, .list _ => .error .crash                                      -- unhashable
  | .integer hex, .str s =>
    match pyIntText s with
    | some i => .ok (.str (if hex then hexText i else intStr i))
    | none => .error .value
  | .integer _, .list _ => .error .crash
  | .enumeration labels _, .str s =>
    match pyIntText s with
    | some i =>
      if i < 0 ∨ labels.length ≤ i then .error .value
      else
        match labels[i.toNat]? with
        | some (some label) => .ok (.str label)
        | _ => .error .value
    | none => .error .value
  | .enumeration _ _, .list _ => .error .crash

/-- MSVSSettings.py:68-195 `ValidateMSBuild` of the types. -/
def MsType.validateMSBuild : MsType → MsVal → Except MsErr Unit
  | .string, .str _ => .ok ()
  | .string, .list _ => .error .value
  | .stringList, _ => .ok ()
  | .boolean, .str s => if s = c!"true" ∨ s = c!"false" then .ok () else .error .value
  | .boolean, .list _ => .error .crash
  | .integer hex, .str s =>
    if hex then (if pyHexOk s then .ok () else .error .value)
    else if (pyIntText s).isSome then .ok () else .error .value
  | .integer _, .list _ => .error .crash
  | .enumeration labels new, .str s =>
    if some s ∈ labels ∨ s ∈ new then .ok () else .error .value
  | .enumeration _ _, .list _ => .error .crash

/-- MSVSSettings.py:234-365 the ways to declare a setting. -/
inductive MsDecl where
  | same (tool : MsTool) (name : Str) (ty : MsType)
  | renamed (tool : MsTool) (name new : Str) (ty : MsType)
  | moved (tool : MsTool) (name newTool : Str) (ty : MsType)
  | movedAndRenamed (tool : MsTool) (name newTool new : Str) (ty : MsType)
  | msvsOnly (tool : MsTool) (name : Str) (ty : MsType)
  | msbuildOnly (tool : MsTool) (name : Str) (ty : MsType)
  | toOption (tool : MsTool) (name flag : Str)
  | preprocessed (tool : MsTool) (name : Str)
deriving DecidableEq

/-- The tool and the name under which `_msvs_to_msbuild_converters` has the
declaration. -/
def MsDecl.key : MsDecl → Str × Str
  | .same t n _ => (t.msvs, n)
  | .renamed t n _ _ => (t.msvs, n)
  | .moved t n _ _ => (t.msvs, n)
  | .movedAndRenamed t n _ _ _ => (t.msvs, n)
  | .msvsOnly t n _ => (t.msvs, n)
  | .msbuildOnly t n _ => (t.msvs, n)
  | .toOption t n _ => (t.msvs, n)
  | .preprocessed t n => (t.msvs, n)

/-- The entries of `_msbuild_validators` a declaration makes. -/
def MsDecl.validators : MsDecl → List ((Str × Str) × MsType)
  | .same t n ty => [((t.msbuild, n), ty)]
  | .renamed t _ new ty => [((t.msbuild, new), ty)]
  | .moved _ n newTool ty => [((newTool, n), ty)]
  | .movedAndRenamed _ _ newTool new ty => [((newTool, new), ty)]
  | .msvsOnly _ _ _ => []
  | .msbuildOnly t n ty => [((t.msbuild, n), ty)]
  | .toOption _ _ _ => []
  | .preprocessed t _ =>
    [((t.msbuild, c!"PreprocessToFile"), .boolean),
     ((t.msbuild, c!"PreprocessSuppressLineNumbers"), .boolean)]

/-- Settings by tool and name, in insertion order. -/
abbrev MsSettings := List (Str × List (Str × MsVal))

/-- `settings.setdefault(tool, {})`. -/
def msTouch (s : MsSettings) (tool : Str) : MsSettings :=
  match aget s tool with
  | some _ => s
  | none => aset s tool []

/-- `settings[tool][name] = value` after `setdefault`. -/
def msPut (s : MsSettings) (tool name : Str) (v : MsVal) : MsSettings :=
  aset (msTouch s tool) tool (aset ((aget (msTouch s tool) tool).getD []) name v)

/-- `settings[tool][name]`, if any. -/
def msGet (s : MsSettings) (tool name : Str) : Option MsVal :=
  (aget s tool).bind fun t => aget t name

/-- `"{}".format(value)`; `repr` is Python's text of a list of strings. -/
def MsVal.text (repr : List Str → Str) : MsVal → Str
  | .str s => s
  | .list l => repr l

/-- MSVSSettings.py:254-256,287-289 the `_Translate` of a setting with a type: the tool
is made first. -/
def translateTyped (tool name : Str) (ty : MsType) (v : MsVal) (s : MsSettings) :
    MsSettings × Option MsErr :=
  match ty.convert v with
  | .ok w => (msPut s tool name w, none)
  | .error e => (msTouch s tool, some e)

/-- MSVSSettings.py:234-365 the functions `_Translate`: the settings afterwards, and
what was raised. -/
def MsDecl.translate (repr : List Str → Str) (d : MsDecl) (v : MsVal) (s : MsSettings) :
    MsSettings × Option MsErr :=
  match d with
  | .same t n ty => translateTyped t.msbuild n ty v s
  | .renamed t _ new ty => translateTyped t.msbuild new ty v s
  | .moved _ n newTool ty => translateTyped newTool n ty v s
  | .movedAndRenamed _ _ newTool new ty => translateTyped newTool new ty v s
  | .msvsOnly _ _ _ => (s, none)
  | .msbuildOnly t n _ => (msPut s t.msbuild n v, none)
  | .toOption t _ flag =>
    if v = .str c!"true" then
      let s := msTouch s t.msbuild
      match msGet s t.msbuild c!"AdditionalOptions" with
      | some old =>
        (msPut s t.msbuild c!"AdditionalOptions" (.str (old.text repr ++ c!" " ++ flag)), none)
      | none => (msPut s t.msbuild c!"AdditionalOptions" (.str flag), none)
    else (s, none)
  | .preprocessed t _ =>
    let set2 := fun (a b : Str) =>
      msPut (msPut s t.msbuild c!"PreprocessToFile" (.str a))
        t.msbuild c!"PreprocessSuppressLineNumbers" (.str b)
    if v = .str c!"0" then (set2 c!"false" c!"false", none)
    else if v = .str c!"1" then (set2 c!"true" c!"false", none)
    else if v = .str c!"2" then (set2 c!"true" c!"true", none)
    else (msTouch s t.msbuild, some .value)

/-- The warnings. -/
inductive MsWarn where
  | failed (tool setting : Str)
  | setting (tool setting : Str)
  | tool (tool : Str)
deriving DecidableEq

/-- MSVSSettings.py:372-400 `_ValidateExclusionSetting`: `known` are the names of the
settings; whether a warning is given.  (The pattern `^(.*)_excluded$` on names without
line breaks.) -/
def exclusionWarns (known : Str → Bool) (setting : Str) : Bool :=
  if endsWith setting c!"_excluded" then !known (setting.take (setting.length - 9)) else true

/-- The last entry of a dictionary that is filled in order. -/
def lastWith {α β : Type} [DecidableEq α] (l : List (α × β)) (k : α) : Option β :=
  (l.reverse.find? fun e => decide (e.1 = k)).map Prod.snd

/-- MSVSSettings.py:441-484 `ConvertToMSBuildSettings`, one setting. -/
def convertSetting (repr : List Str → Str) (decls : List MsDecl) (tool : Str)
    (st : MsSettings × List MsWarn) (e : Str × MsVal) : Except Unit (MsSettings × List MsWarn) :=
  let find := fun n => lastWith (decls.map fun d => (d.key, d)) (tool, n)
  match find e.1 with
  | some d =>
    match d.translate repr e.2 st.1 with
    | (s, none) => .ok (s, st.2)
    | (s, some .value) => .ok (s, st.2 ++ [.failed tool e.1])
    | (_, some .crash) => .error ()
  | none =>
    .ok (st.1, st.2 ++
      if exclusionWarns (fun n => (find n).isSome) e.1 then [.setting tool e.1] else [])

/-- MSVSSettings.py:441-484 `ConvertToMSBuildSettings`; `.error` is an exception that
is not caught. -/
def ConvertToMSBuildSettings (repr : List Str → Str) (tools : List MsTool) (decls : List MsDecl)
    (settings : MsSettings) : Except Unit (MsSettings × List MsWarn) :=
  settings.foldlM (fun st te =>
    if te.1 ∈ tools.map MsTool.msvs then
      te.2.foldlM (convertSetting repr decls te.1) st
    else .ok (st.1, st.2 ++ [.tool te.1])) ([], [])

/-- MSVSSettings.py:511-545 `_ValidateSettings` with `_msbuild_validators`, one
setting. -/
def validateSetting (decls : List MsDecl) (tool : Str) (warns : List MsWarn) (e : Str × MsVal) :
    Except Unit (List MsWarn) :=
  let find := fun n => lastWith (decls.flatMap MsDecl.validators) (tool, n)
  match find e.1 with
  | some ty =>
    match ty.validateMSBuild e.2 with
    | .ok _ => .ok warns
    | .error .value => .ok (warns ++ [.failed tool e.1])
    | .error .crash => .error ()
  | none =>
    .ok (warns ++
      if exclusionWarns (fun n => (find n).isSome) e.1 then [.setting tool e.1] else [])

/-- MSVSSettings.py:498-545 `ValidateMSBuildSettings`; lines 569-571 add sections of
MSBuild. -/
def ValidateMSBuildSettings (tools : List MsTool) (decls : List MsDecl)
    (settings : MsSettings) : Except Unit (List MsWarn) :=
  settings.foldlM (fun warns te =>
    if te.1 ∈ tools.map MsTool.msbuild ++ [c!"", c!"ProjectReference", c!"ManifestResourceCompile"]
    then te.2.foldlM (validateSetting decls te.1) warns
    else .ok (warns ++ [.tool te.1])) []

end Gyp
