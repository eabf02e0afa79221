import Verif.Basic
/-
Shell quoting: `gyp/pylib/gyp/common.py`, `generator/make.py`,
`generator/ninja.py`.
-/
namespace Gyp

/-- common.py:235 the character class of `_quote`. -/
def quoteClass : List Char := c!"\t\n #$%&'()*;<=>?[{|}~"

/-- common.py:235 `_quote.search(argument)`: a class character anywhere, or the
empty string. -/
def needsQuote (arg : Str) : Bool := arg.any (· ∈ quoteClass) || arg.isEmpty

/-- common.py:261,279 `re.sub(_escape, r"\\\1", argument)`. -/
def backslashEscape (arg : Str) : Str :=
  arg.flatMap fun c => if c = '"' ∨ c = '\\' ∨ c = '`' then ['\\', c] else [c]

/-- common.py:264-281 `EncodePOSIXShellArgument` (for a `str` argument). -/
def EncodePOSIXShellArgument (arg : Str) : Str :=
  let quote := if needsQuote arg then ['"'] else []
  quote ++ backslashEscape arg ++ quote

/-- common.py:284-294 `EncodePOSIXShellList`. -/
def EncodePOSIXShellList (args : List Str) : Str :=
  joinWith [' '] (args.map EncodePOSIXShellArgument)

/-- generator/make.py:706-711 `EscapeShellArgument`. -/
def makeEscapeShellArgument (s : Str) : Str :=
  ['\''] ++ replaceChar '\'' c!"'\\''" s ++ ['\'']

/-- generator/make.py:714-717 `EscapeMakeVariableExpansion`. -/
def EscapeMakeVariableExpansion (s : Str) : Str := replaceChar '$' c!"$$" s

/-- generator/make.py:720-726 `EscapeCppDefine`. -/
def EscapeCppDefine (s : Str) : Str :=
  replaceChar '#' c!"\\#" (EscapeMakeVariableExpansion (makeEscapeShellArgument s))

/-- generator/make.py:729-734 `QuoteIfNecessary`. -/
def QuoteIfNecessary (s : Str) : Str :=
  if '"' ∈ s then ['"'] ++ replaceChar '"' c!"\\\"" s ++ ['"'] else s

/-- generator/make.py:741-743 `StringToMakefileVariable`:
`re.sub("[^a-zA-Z0-9_]", "_", string)`. -/
def makeVarChar (c : Char) : Bool :=
  ('a' ≤ c && c ≤ 'z') || ('A' ≤ c && c ≤ 'Z') || ('0' ≤ c && c ≤ '9') || c = '_'

def StringToMakefileVariable (s : Str) : Str :=
  s.map fun c => if makeVarChar c then c else '_'

/-- generator/make.py:758-759 `QuoteSpaces(s, quote)`. -/
def QuoteSpaces (s : Str) (quote : Str := c!"\\ ") : Str := replaceChar ' ' quote s

/-- generator/make.py:2071-2082 `WriteList(value_list, variable, prefix,
quoter)`; `replace_sep` is the identity outside Windows. -/
def WriteList (values : List Str) (var pre : Str) (quoter : Str → Str) : Str :=
  let vs := if values = [] then []
    else c!" \\\n\t" ++ joinWith c!" \\\n\t" (values.map fun v => quoter (pre ++ v))
  var ++ c!" :=" ++ vs ++ c!"\n\n"

/-- generator/ninja.py:79 the character class of the pattern: letters, digits and
`_`, `=`, `.`, backslash, slash, minus. -/
def ninjaSafeChar (c : Char) : Bool :=
  ('a' ≤ c && c ≤ 'z') || ('A' ≤ c && c ≤ 'Z') || ('0' ≤ c && c ≤ '9') ||
    c ∈ c!"_=.\\/-"

/-- generator/ninja.py:79 `re.match` of one or more class characters between `^`
and `$`.  Python's `$` also matches before a final newline. -/
def ninjaNoQuoting (arg : Str) : Bool :=
  let body := if endsWith arg ['\n'] then arg.dropLast else arg
  !body.isEmpty && body.all ninjaSafeChar

/-- generator/ninja.py:74-83 `QuoteShellArgument`, non-Windows branch. -/
def ninjaQuoteShellArgument (arg : Str) : Str :=
  if ninjaNoQuoting arg then arg
  else ['\''] ++ replaceChar '\'' c!"'\"'\"'" arg ++ ['\'']

end Gyp
