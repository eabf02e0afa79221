import Verif.Model.Version
/-
Canonical names and versions: /repo/gyp/pylib/packaging/utils.py.
-/
namespace Gyp

/-- utils.py:36, 47 `re.sub("[-_.]+", "-", name)`; the flag says that the run of separators before
is already written. -/
def collapseSeps : Bool → Str → Str
  | _, [] => []
  | inRun, c :: r =>
    if isSep c then (if inRun then collapseSeps true r else '-' :: collapseSeps true r)
    else c :: collapseSeps false r

/-- utils.py:43-48 `canonicalize_name` without validation. -/
def canonicalizeName (name : Str) : Str := lowerStr (collapseSeps false name)

/-- `[A-Z0-9]` with `IGNORECASE`.  Simplified: ASCII only (Python also takes the Kelvin sign, the long
s and the two letters i of Turkish). -/
def nameAlnum (c : Char) : Bool :=
  ('a' ≤ c && c ≤ 'z') || ('A' ≤ c && c ≤ 'Z') || ('0' ≤ c && c ≤ '9')

/-- utils.py:33-35 `_validate_regex` up to `$`: after the first character. -/
def validTail : Str → Bool
  | [] => false
  | [c] => nameAlnum c
  | c :: r => (nameAlnum c || isSep c) && validTail r

/-- utils.py:33-35 `_validate_regex` up to `$`. -/
def validCore : Str → Bool
  | [] => false
  | [c] => nameAlnum c
  | c :: r => nameAlnum c && validTail r

/-- `^…$`: Python's `$` is also before a newline at the end. -/
def matchLine (core : Str → Bool) (s : Str) : Bool :=
  core s || (s.getLast? = some '\n' && core s.dropLast)

/-- utils.py:43-48 `canonicalize_name(name, validate=True)`; `none` is `InvalidName`. -/
def canonicalizeValid (name : Str) : Option Str :=
  if matchLine validCore name then some (canonicalizeName name) else none

/-- `[a-z0-9]` -/
def smallAlnum (c : Char) : Bool := ('a' ≤ c && c ≤ 'z') || ('0' ≤ c && c ≤ '9')

/-- utils.py:37 `([a-z0-9-](?!--))*[a-z0-9]` up to the end. -/
def normalizedTail : Str → Bool
  | [] => false
  | [c] => smallAlnum c
  | c :: r => (smallAlnum c || c = '-') && !startsWith r c!"--" && normalizedTail r

/-- utils.py:37 `_normalized_regex` up to `$`. -/
def normalizedCore : Str → Bool
  | [] => false
  | [c] => smallAlnum c
  | c :: r => smallAlnum c && normalizedTail r

/-- utils.py:51-52 `is_normalized_name`. -/
def isNormalizedName (name : Str) : Bool := matchLine normalizedCore name

/-- utils.py:80 `re.sub(r"(\.0)+$", "", s)`, on the reversed text. -/
def dropZeroDots : Str → Str
  | '0' :: '.' :: r => dropZeroDots r
  | s => s

/-- utils.py:70-99 the text for a version. -/
def canonicalVer (v : Ver) : Str :=
  showEpoch v ++ (dropZeroDots (showRelease v).reverse).reverse ++ showPre v ++ showPost v ++ showDev v ++ showLocal v

/-- utils.py:55-99 `canonicalize_version` of a text. -/
def canonicalizeVersion (s : Str) : Str :=
  match Ver.parse s with
  | none => s
  | some v => canonicalVer v

end Gyp
