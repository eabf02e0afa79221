import Verif.Model.Assoc
/-
The list of checksums: `lib/install.js`.
-/
namespace Gyp

/-- `\s` of JavaScript, which is also what `trim` removes. -/
def jsSpace (c : Char) : Bool :=
  (0x9 ≤ c.toNat && c.toNat ≤ 0xd) || c.toNat = 0x20 || c.toNat = 0xa0 || c.toNat = 0x1680 ||
    (0x2000 ≤ c.toNat && c.toNat ≤ 0x200a) || c.toNat = 0x2028 || c.toNat = 0x2029 ||
    c.toNat = 0x202f || c.toNat = 0x205f || c.toNat = 0x3000 || c.toNat = 0xfeff

/-- `s.trim()` -/
def jsTrim (s : Str) : Str := ((s.dropWhile jsSpace).reverse.dropWhile jsSpace).reverse

/-- `s.split(/\s+/)`; the first argument bounds the number of pieces. -/
def splitSpaces : Nat → Str → List Str
  | 0, s => [s]
  | fuel + 1, s =>
    match s.dropWhile (fun c => !jsSpace c) with
    | [] => [s]
    | _ :: rest => s.takeWhile (fun c => !jsSpace c) :: splitSpaces fuel (rest.dropWhile jsSpace)

/-- lib/install.js:310 `items[1].replace(/^\.\//, '')` -/
def stripDotSlash (s : Str) : Str := if startsWith s c!"./" = true then s.drop 2 else s

/-- lib/install.js:303-312: the loop over the lines.  It returns at the first line that does not
have two words.  (A name `__proto__` sets nothing in JavaScript; not modelled.) -/
def sumsLoop : List Str → List (Str × Str) → List (Str × Str)
  | [], table => table
  | line :: lines, table =>
    match splitSpaces line.length (jsTrim line) with
    | [d, n] => sumsLoop lines (aset table (stripDotSlash n) d)
    | _ => table

/-- lib/install.js:303-312: the table `expectShasums` made from the text. -/
def parseShasums (text : Str) : List (Str × Str) := sumsLoop (splitOn '\n' (jsTrim text)) []

end Gyp
