import Verif.Model.Assoc
import Verif.Model.OrderedSet
import Verif.Model.Toposort
/-
The environment variables of Xcode: `gyp/pylib/gyp/xcode_emulation.py`.
-/
namespace Gyp

/-- `[a-zA-Z]` -/
def envLetter (c : Char) : Bool := ('a' ≤ c && c ≤ 'z') || ('A' ≤ c && c ≤ 'Z')

/-- `[0-9]` -/
def envDigit (c : Char) : Bool := '0' ≤ c && c ≤ '9'

/-- `[a-zA-Z_]` -/
def identStart (c : Char) : Bool := envLetter c || c = '_'

/-- `[a-zA-Z0-9_]` -/
def identChar (c : Char) : Bool := envLetter c || envDigit c || c = '_'

/-- `[a-zA-Z0-9\-_]` -/
def envNameChar (c : Char) : Bool := envLetter c || envDigit c || c = '-' || c = '_'

/-- Whether an identifier starts here. -/
def atIdent : Str → Bool
  | [] => false
  | c :: _ => identStart c

/-- xcode_emulation.py:1827 `re.sub(r"\$([a-zA-Z_][a-zA-Z0-9_]*)", r"${\1}", str)`.  The first
argument bounds the scan; the length of the text suffices. -/
def normBare : Nat → Str → Str
  | 0, s => s
  | _ + 1, [] => []
  | fuel + 1, c :: s =>
    if c = '$' ∧ atIdent s = true then
      c!"${" ++ s.takeWhile identChar ++ c!"}" ++ normBare fuel (s.dropWhile identChar)
    else c :: normBare fuel s

/-- `re.findall(r"\$<open>([a-zA-Z0-9\-_]+)<close>", s)`: the names of the references in
brackets, from left to right. -/
def bracketRefs (opn cls : Char) : Nat → Str → List Str
  | 0, _ => []
  | _ + 1, [] => []
  | fuel + 1, c :: s =>
    if c = '$' ∧ s.head? = some opn ∧ s.tail.takeWhile envNameChar ≠ [] ∧
        (s.tail.dropWhile envNameChar).head? = some cls then
      s.tail.takeWhile envNameChar ::
        bracketRefs opn cls fuel (s.tail.dropWhile envNameChar).tail
    else bracketRefs opn cls fuel s

/-- xcode_emulation.py:1822-1836 `_NormalizeEnvVarReferences`.  (The assertion in the loop
compares a text with the elements of a pair and never fails.) -/
def normalizeRefs (s : Str) : Str :=
  let s := normBare s.length s
  (bracketRefs '(' ')' s.length s).foldl
    (fun s v => replaceStr (c!"$(" ++ v ++ c!")") (c!"${" ++ v ++ c!"}") s) s

/-- xcode_emulation.py:1839-1848 `ExpandEnvVars`. -/
def expandEnvVars (s : Str) (expansions : List (Str × Str)) : Str :=
  expansions.reverse.foldl (fun s p =>
    replaceStr (c!"$" ++ p.1) p.2
      (replaceStr (c!"$(" ++ p.1 ++ c!")") p.2
        (replaceStr (c!"${" ++ p.1 ++ c!"}") p.2 s))) s

/-- xcode_emulation.py:1864-1873 `GetEdges`: a set, enumerated in the order given by `ord`. The
name of a reference has no `$`, so the assertion never fails. -/
def envEdges (ord : List Str → List Str) (env : List (Str × Str)) (node : Str) : List Str :=
  match aget env node with
  | none => []
  | some v =>
    ord (((bracketRefs '{' '}' v.length v).filter fun x => decide (x ∈ akeys env)).foldl listAdd [])

/-- xcode_emulation.py:1851-1884 `_TopologicallySortedEnvVarKeys`; `.cycle` is the error
"Xcode environment variables are cyclically dependent". -/
def sortedEnvKeys (ord : List Str → List Str) (depth : Nat) (env : List (Str × Str)) :
    Except (TopoErr Str) (List Str) :=
  match TopologicallySorted depth (akeys env) (envEdges ord env) with
  | .error e => .error e
  | .ok order => .ok order.reverse

/-- xcode_emulation.py:1804-1819: the additional settings (lists already joined to texts) are
updated with the computed ones and all references are normalised.  What the computed
settings are (1722-1803) is a parameter. -/
def xcodeEnv (computed additional : List (Str × Str)) : List (Str × Str) :=
  (computed.foldl (fun d p => aset d p.1 p.2) additional).map fun p => (p.1, normalizeRefs p.2)

/-- xcode_emulation.py:1887-1893 `GetSortedXcodeEnv`. -/
def sortedXcodeEnv (ord : List Str → List Str) (depth : Nat) (computed additional : List (Str × Str)) :
    Except (TopoErr Str) (List (Str × Str)) :=
  let env := xcodeEnv computed additional
  match sortedEnvKeys ord depth env with
  | .error e => .error e
  | .ok keys => .ok (keys.filterMap fun k => (aget env k).map fun v => (k, v))

end Gyp
