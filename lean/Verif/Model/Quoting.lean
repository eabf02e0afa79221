import Verif.Basic
/-
Other quoting functions: C strings (`gyp/__init__.py`), Windows response files and
environment blocks (`msvs_emulation.py`, `win_tool.py`).
-/
namespace Gyp

/-- `'\\%03o' % b`. -/
def octalEscape (b : UInt8) : Str :=
  ['\\', Char.ofNat (48 + b.toNat / 64), Char.ofNat (48 + b.toNat / 8 % 8),
   Char.ofNat (48 + b.toNat % 8)]

/-- gyp/__init__.py:27-38 `EscapeForCString`, on the bytes (a `str` argument is
first encoded as UTF-8). -/
def EscapeForCString (bs : List UInt8) : Str :=
  bs.flatMap fun b =>
    if b = 92 ∨ b = 34 ∨ ¬ (32 ≤ b.toNat ∧ b.toNat < 127) then octalEscape b
    else [Char.ofNat b.toNat]

/-- msvs_emulation.py:20,44-45 `windows_quoter_regex.sub(...)`: every maximal run
of backslashes in front of a quote is doubled and the quote gets one more.  `n`
counts the backslashes just read. -/
def winQuote : Nat → Str → Str
  | n, [] => List.replicate n '\\'
  | n, c :: cs =>
    if c = '\\' then winQuote (n + 1) cs
    else if c = '"' then List.replicate (2 * n) '\\' ++ c!"\\\"" ++ winQuote 0 cs
    else List.replicate n '\\' ++ c :: winQuote 0 cs

/-- msvs_emulation.py:36-37 the path heuristic: `arg.find("/") > 0 or
arg.count("/") > 1`, then `os.path.normpath` (Windows flavour, a parameter). -/
def rspNormalise (normpath : Str → Str) (arg : Str) : Str :=
  if (arg.findIdx? (· = '/')).any (0 < ·) ∨ arg.count '/' > 1 then normpath arg else arg

/-- msvs_emulation.py:23-61 `QuoteForRspFile`. -/
def QuoteForRspFile (normpath : Str → Str) (arg : Str) (quote_cmd : Bool) : Str :=
  let arg := rspNormalise normpath arg
  let arg := if quote_cmd then winQuote 0 arg else arg
  let arg := replaceChar '%' c!"%%" arg
  if quote_cmd then ['"'] ++ arg ++ ['"'] else arg

/-- msvs_emulation.py:63-79 `EncodeRspFileList`. -/
def EncodeRspFileList (normpath : Str → Str) (args : List Str) (quote_cmd : Bool) : Str :=
  match args with
  | [] => []
  | a :: rest =>
    let program :=
      if startsWith a c!"call " then
        match split1 ' ' a with
        | some (call, program) => call ++ c!" " ++ normpath program
        | none => normpath a                -- not reachable: `a` has a blank
      else normpath a
    program ++ c!" " ++ joinWith [' '] (rest.map fun x => QuoteForRspFile normpath x quote_cmd)

/-- msvs_emulation.py:1144-1153 `_FormatAsEnvironmentBlock`; the dictionary as its
list of items. -/
def FormatAsEnvironmentBlock (env : List (Str × Str)) : Str :=
  env.foldl (fun block kv => block ++ (kv.1 ++ c!"=" ++ kv.2 ++ c!"\x00")) [] ++ c!"\x00"

/-- win_tool.py:79-86 `_GetEnv` on the contents of the saved file; `none` is the
exception `dict()` raises on an item without `=`.  The dictionary is returned as
the list of pairs it is built from. -/
def GetEnv (contents : Str) : Option (List (Str × Str)) :=
  (splitOn '\x00' (contents.take (contents.length - 2))).mapM fun item => split1 '=' item

end Gyp
