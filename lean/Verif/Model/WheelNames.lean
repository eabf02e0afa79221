import Verif.Model.Canonical
/-
Names of files of packages: `parse_wheel_filename` and `parse_sdist_filename` of
/repo/gyp/pylib/packaging/utils.py and `parse_tag` of /repo/gyp/pylib/packaging/tags.py.
-/
namespace Gyp

/-- tags.py:44-58 `Tag`. -/
structure WTag where
  interpreter : Str
  abi : Str
  platform : Str
deriving DecidableEq

/-- tags.py:98-112 `parse_tag`; the set is a list in the order of adding, `none` is a `ValueError`. -/
def parseTag (tag : Str) : Option (List WTag) :=
  match splitOn '-' tag with
  | [interpreters, abis, platforms] =>
    some ((splitOn '.' interpreters).flatMap fun i => (splitOn '.' abis).flatMap fun a =>
      (splitOn '.' platforms).map fun p => ⟨lowerStr i, lowerStr a, lowerStr p⟩)
  | _ => none

/-- `s.split(c, n)`. -/
def splitMax (c : Char) : Nat → Str → List Str
  | 0, s => [s]
  | n + 1, s =>
    match split1 c s with
    | none => [s]
    | some (a, b) => a :: splitMax c n b

/-- `"__" in s`. -/
def hasDoubleUnderscore : Str → Bool
  | [] => false
  | c :: r => (c = '_' && r.head? = some '_') || hasDoubleUnderscore r

/-- utils.py:118 `^[\w\d._]*$`.  Simplified: ASCII only. -/
def wheelNameChars (s : Str) : Bool := matchLine (fun t => t.all fun c => nameAlnum c || c = '.' || c = '_') s

/-- utils.py:39, 131-136 the build tag, `(\d+)(.*)`.  Simplified: ASCII digits only. -/
def parseBuildTag (s : Str) : Option (Nat × Str) :=
  if s.takeWhile asciiDigit = [] then none
  else some (digitsVal (s.takeWhile asciiDigit), (s.dropWhile asciiDigit).takeWhile (· ≠ '\n'))

/-- What is read from the name of a wheel. -/
structure Wheel where
  name : Str
  version : Ver
  build : Option (Nat × Str)
  tags : List WTag

/-- utils.py:102-141 `parse_wheel_filename`; `none` is an exception. -/
def parseWheel (filename : Str) : Option Wheel :=
  if !endsWith filename c!".whl" then none
  else
    let stem := filename.take (filename.length - 4)
    let dashes := stem.count '-'
    if dashes ≠ 4 ∧ dashes ≠ 5 then none
    else
      let parts := splitMax '-' (dashes - 2) stem
      let name := parts.getD 0 []
      if hasDoubleUnderscore name || !wheelNameChars name then none
      else
        match Ver.parse (parts.getD 1 []) with
        | none => none
        | some v =>
          if dashes = 5 then
            match parseBuildTag (parts.getD 2 []) with
            | none => none
            | some b => (parseTag (parts.getLastD [])).map fun ts => ⟨canonicalizeName name, v, some b, ts⟩
          else (parseTag (parts.getLastD [])).map fun ts => ⟨canonicalizeName name, v, none, ts⟩

/-- utils.py:144-172 `parse_sdist_filename`; `none` is an exception. -/
def parseSdist (filename : Str) : Option (Str × Ver) :=
  let stem :=
    if endsWith filename c!".tar.gz" then some (filename.take (filename.length - 7))
    else if endsWith filename c!".zip" then some (filename.take (filename.length - 4))
    else none
  match stem with
  | none => none
  | some stem =>
    match rsplit1 '-' stem with
    | none => none
    | some (name, version) => (Ver.parse version).map fun v => (canonicalizeName name, v)

end Gyp
