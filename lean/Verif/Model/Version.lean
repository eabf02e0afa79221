import Verif.Basic
import Verif.Model.Scan
/-
Versions: `gyp/pylib/packaging/version.py` and `gyp/pylib/packaging/_structures.py`.

Not modelled: Python's limit on the number of digits of an `int`.
-/
namespace Gyp

/-! ### Comparison -/

/-- The Python values that occur in comparison keys. -/
inductive VKey where
  | int (n : Nat)
  | str (s : Str)
  /-- _structures.py:6-29 `Infinity` -/
  | inf
  /-- _structures.py:35-58 `NegativeInfinity` -/
  | neg
  | tup (l : List VKey)

mutual
/-- `a == b`: _structures.py:19-20 and 48-49 say that the infinities are equal to themselves only. -/
def VKey.eq : VKey → VKey → Bool
  | .int a, .int b => a == b
  | .str a, .str b => a == b
  | .inf, .inf => true
  | .neg, .neg => true
  | .tup a, .tup b => VKey.eqList a b
  | _, _ => false
/-- Tuples are equal if they have the same length and equal items. -/
def VKey.eqList : List VKey → List VKey → Bool
  | [], [] => true
  | a :: l, b :: m => VKey.eq a b && VKey.eqList l m
  | _, _ => false
end

/-- The ordering operators of Python. -/
inductive CmpOp where
  | lt | le | gt | ge
deriving DecidableEq

/-- The operator on the numbers. -/
def CmpOp.nat : CmpOp → Nat → Nat → Bool
  | .lt, a, b => a < b
  | .le, a, b => a ≤ b
  | .gt, a, b => b < a
  | .ge, a, b => b ≤ a

/-- `a < b` for strings: by code points, a proper prefix first. -/
def strLt : Str → Str → Bool
  | [], [] => false
  | [], _ :: _ => true
  | _ :: _, [] => false
  | a :: s, b :: t => if a = b then strLt s t else a.toNat < b.toNat

/-- The operator on strings. -/
def CmpOp.str : CmpOp → Str → Str → Bool
  | .lt, a, b => strLt a b
  | .le, a, b => !strLt b a
  | .gt, a, b => strLt b a
  | .ge, a, b => !strLt a b

/-- _structures.py:13-26 the operators of `Infinity`: it is the left operand. -/
def CmpOp.ofInf : CmpOp → Bool
  | .lt => false
  | .le => false
  | .gt => true
  | .ge => true

/-- _structures.py:42-55 the operators of `NegativeInfinity`. -/
def CmpOp.ofNeg : CmpOp → Bool
  | .lt => true
  | .le => true
  | .gt => false
  | .ge => false

/-- The operator Python tries on the right operand when the left one has none. -/
def CmpOp.swap : CmpOp → CmpOp
  | .lt => .gt
  | .le => .ge
  | .gt => .lt
  | .ge => .le

mutual
/-- `a op b` in Python; `none` is a `TypeError`. -/
def VKey.cmp (op : CmpOp) : VKey → VKey → Option Bool
  | .inf, _ => some op.ofInf
  | .neg, _ => some op.ofNeg
  | _, .inf => some op.swap.ofInf
  | _, .neg => some op.swap.ofNeg
  | .int a, .int b => some (op.nat a b)
  | .str a, .str b => some (op.str a b)
  | .tup a, .tup b => VKey.cmpList op a b
  | _, _ => none
/-- Tuples are compared at the first place where they differ, or else by length. -/
def VKey.cmpList (op : CmpOp) : List VKey → List VKey → Option Bool
  | [], m => some (op.nat 0 m.length)
  | a :: l, [] => some (op.nat (a :: l).length 0)
  | a :: l, b :: m => if VKey.eq a b then VKey.cmpList op l m else VKey.cmp op a b
end

/-- A segment of a local version: `int` or `str`. -/
inductive LocalPart where
  | num (n : Nat)
  | text (s : Str)
deriving DecidableEq

/-- version.py:36-42 `_Version`. -/
structure Ver where
  epoch : Nat
  release : List Nat
  dev : Option (Str × Nat)
  pre : Option (Str × Nat)
  post : Option (Str × Nat)
  loc : Option (List LocalPart)
deriving DecidableEq

/-- A pair of a word and a number as a tuple. -/
def pairKey (p : Str × Nat) : VKey := .tup [.str p.1, .int p.2]

/-- version.py:517-519 release without trailing zeros. -/
def releaseKey (r : List Nat) : VKey :=
  .tup (((r.reverse.dropWhile (· = 0)).reverse).map VKey.int)

/-- version.py:525-532 -/
def preKey (v : Ver) : VKey :=
  match v.pre with
  | none => if v.post = none ∧ v.dev ≠ none then .neg else .inf
  | some p => pairKey p

/-- version.py:535-539 -/
def postKey (v : Ver) : VKey :=
  match v.post with
  | none => .neg
  | some p => pairKey p

/-- version.py:542-546 -/
def devKey (v : Ver) : VKey :=
  match v.dev with
  | none => .inf
  | some p => pairKey p

/-- version.py:560 -/
def localPartKey : LocalPart → VKey
  | .num n => .tup [.int n, .str []]
  | .text s => .tup [.neg, .str s]

/-- version.py:548-561 -/
def localKey (v : Ver) : VKey :=
  match v.loc with
  | none => .neg
  | some l => .tup (l.map localPartKey)

/-- version.py:503-563 `_cmpkey`. -/
def Ver.key (v : Ver) : VKey :=
  .tup [.int v.epoch, releaseKey v.release, preKey v, postKey v, devKey v, localKey v]

/-- version.py:76-80 -/
def Ver.lt (v w : Ver) : Option Bool := VKey.cmp .lt v.key w.key
/-- version.py:82-86 -/
def Ver.le (v w : Ver) : Option Bool := VKey.cmp .le v.key w.key
/-- version.py:88-92 -/
def Ver.eq (v w : Ver) : Bool := VKey.eq v.key w.key
/-- version.py:94-98 -/
def Ver.ge (v w : Ver) : Option Bool := VKey.cmp .ge v.key w.key
/-- version.py:100-104 -/
def Ver.gt (v w : Ver) : Option Bool := VKey.cmp .gt v.key w.key
/-- version.py:106-110 -/
def Ver.ne (v w : Ver) : Bool := !VKey.eq v.key w.key

/-! ### Text -/

/-- `str.isspace` on one character, the `\s` of patterns. -/
def pySpace (c : Char) : Bool :=
  let n := c.toNat
  (9 ≤ n && n ≤ 13) || (28 ≤ n && n ≤ 32) || n = 0x85 || n = 0xa0 || n = 0x1680 ||
    (0x2000 ≤ n && n ≤ 0x200a) || n = 0x2028 || n = 0x2029 || n = 0x202f || n = 0x205f ||
    n = 0x3000

/-- The class `[-_\.]`. -/
def isSep (c : Char) : Bool := c = '-' || c = '_' || c = '.'

/-- `[-_\.]?` -/
def eatSep : Str → Str
  | [] => []
  | c :: r => if isSep c then r else c :: r

/-- Does `c` match the small letter `p` with `IGNORECASE`?  Besides the two ASCII letters
these are dotted and dotless i, the Kelvin sign and the long s. -/
def letterMatch (p c : Char) : Bool :=
  c = p || c = p.toUpper || (p = 's' && c.toNat = 0x17f) || (p = 'k' && c.toNat = 0x212a) ||
    (p = 'i' && (c.toNat = 0x130 || c.toNat = 0x131))

/-- A word of the pattern: the matched text and the rest. -/
def eatWord : Str → Str → Option (Str × Str)
  | [], s => some ([], s)
  | _ :: _, [] => none
  | p :: w, c :: s =>
    if letterMatch p c then (eatWord w s).map fun r => (c :: r.1, r.2) else none

/-- The first alternative that matches.  Where one alternative is a prefix of an earlier one
(`a`, `b`, `pre`, `r`) what is left of the earlier one can not begin the rest of the pattern, so
a later alternative never matches when the first one is a dead end. -/
def eatFirst (words : List Str) (s : Str) : Option (Str × Str) := words.findSome? fun w => eatWord w s

/-- `[0-9]+` or nothing, and the rest. -/
def eatDigits (s : Str) : Str × Str := (s.takeWhile asciiDigit, s.dropWhile asciiDigit)

/-- `(?P<n>[0-9]+)?`: `None` if there is no digit. -/
def numGroup (d : Str) : Option Str := if d = [] then none else some d

/-- version.py:121-124, 130-133, 137-140: `[-_\.]?(word)[-_\.]?([0-9]+)?`, the whole of it optional. -/
def eatTag (words : List Str) (s : Str) : Option (Str × Option Str) × Str :=
  match eatFirst words (eatSep s) with
  | none => (none, s)
  | some (l, r) => (some (l, numGroup (eatDigits (eatSep r)).1), (eatDigits (eatSep r)).2)

/-- version.py:122 -/
def preWords : List Str :=
  [c!"alpha", c!"a", c!"beta", c!"b", c!"preview", c!"pre", c!"c", c!"rc"]
/-- version.py:131 -/
def postWords : List Str := [c!"post", c!"rev", c!"r"]
/-- version.py:138 -/
def devWords : List Str := [c!"dev"]

/-- `c.lower()`: the text it becomes, for the characters a version can have. -/
def lowerChar (c : Char) : Str :=
  if c.toNat = 0x130 then ['i', Char.ofNat 0x307]
  else if c.toNat = 0x212a then ['k']
  else [c.toLower]

/-- `s.lower()` -/
def lowerStr (s : Str) : Str := (s.map lowerChar).flatten

/-- version.py:468-475 alternative spellings. -/
def normLetter (l : Str) : Str :=
  if l = c!"alpha" then c!"a"
  else if l = c!"beta" then c!"b"
  else if l = c!"c" ∨ l = c!"pre" ∨ l = c!"preview" then c!"rc"
  else if l = c!"rev" ∨ l = c!"r" then c!"post"
  else l

/-- version.py:452-485 `_parse_letter_version(letter, number)`; both are `None` or not
empty. -/
def parseLetterVersion (letter number : Option Str) : Option (Str × Nat) :=
  match letter, number with
  | some l, none => some (normLetter (lowerStr l), 0)
  | some l, some n => some (normLetter (lowerStr l), digitsVal n)
  | none, some n => some (c!"post", digitsVal n)
  | none, none => none

/-- `(\.[0-9]+)*`; `fuel` is at least the length of the text. -/
def eatRelease : Nat → Str → List Str × Str
  | 0, s => ([], s)
  | fuel + 1, s =>
    match s with
    | [] => ([], s)
    | c :: r =>
      if c = '.' ∧ (eatDigits r).1 ≠ [] then
        let (ds, r') := eatRelease fuel (eatDigits r).2
        ((eatDigits r).1 :: ds, r')
      else ([], s)

/-- The class `[a-z0-9]` with `IGNORECASE`. -/
def localChar (c : Char) : Bool :=
  asciiDigit c || ('a' ≤ c && c ≤ 'z') || ('A' ≤ c && c ≤ 'Z') || c.toNat = 0x130 ||
    c.toNat = 0x131 || c.toNat = 0x17f || c.toNat = 0x212a

/-- `([-_\.][a-z0-9]+)*`: the parts between the separators. -/
def eatLocal : Nat → Str → List Str × Str
  | 0, s => ([], s)
  | fuel + 1, s =>
    match s with
    | [] => ([], s)
    | c :: r =>
      if isSep c ∧ r.takeWhile localChar ≠ [] then
        let (ds, r') := eatLocal fuel (r.dropWhile localChar)
        (r.takeWhile localChar :: ds, r')
      else ([], s)

/-- version.py:497 one part of a local version. -/
def localPart (s : Str) : LocalPart :=
  if s.all asciiDigit then .num (digitsVal s) else .text (lowerStr s)

/-- version.py:126-135 and 207-209 the post release. -/
def eatPost (s : Str) : Option (Str × Nat) × Str :=
  match s with
  | [] => (none, [])
  | c :: r =>
    if c = '-' ∧ (eatDigits r).1 ≠ [] then
      (parseLetterVersion none (some (eatDigits r).1), (eatDigits r).2)
    else
      match eatTag postWords s with
      | (none, r) => (none, r)
      | (some (l, n), r) => (parseLetterVersion (some l) n, r)

/-- version.py:120-125, 136-141 and 206, 210 the pre or dev release. -/
def eatPreDev (words : List Str) (s : Str) : Option (Str × Nat) × Str :=
  match eatTag words s with
  | (none, r) => (none, r)
  | (some (l, n), r) => (parseLetterVersion (some l) n, r)

/-- version.py:143 the local version. -/
def eatLocalVersion (s : Str) : Option (List LocalPart) × Str :=
  match s with
  | [] => (none, [])
  | c :: r =>
    if c = '+' ∧ r.takeWhile localChar ≠ [] then
      let (ps, r') := eatLocal r.length (r.dropWhile localChar)
      (some (localPart (r.takeWhile localChar) :: ps.map localPart), r')
    else (none, s)

/-- `v?` -/
def eatV : Str → Str
  | [] => []
  | c :: r => if c = 'v' ∨ c = 'V' then r else c :: r

/-- `c?` for one character: was it there, and the rest. -/
def eatBang : Str → Bool × Str
  | [] => (false, [])
  | c :: r => if c = '!' then (true, r) else (false, c :: r)

/-- version.py:118-119 and 204 the epoch and the first number of the release. -/
def eatEpoch (s : Str) : Nat × Str × Str :=
  let d := eatDigits s
  let b := eatBang d.2
  if d.1 ≠ [] ∧ b.1 then (digitsVal d.1, eatDigits b.2) else (0, d)

/-- version.py:183-212 `Version(version)`: the fields, or `none` for `InvalidVersion`. -/
def Ver.parse (s : Str) : Option Ver :=
  let (epoch, d, s) := eatEpoch (eatV (s.dropWhile pySpace))
  if d = [] then none
  else
    let (ds, s) := eatRelease s.length s
    let (pre, s) := eatPreDev preWords s
    let (post, s) := eatPost s
    let (dev, s) := eatPreDev devWords s
    let (loc, s) := eatLocalVersion s
    if s.dropWhile pySpace ≠ [] then none
    else some ⟨epoch, digitsVal d :: ds.map digitsVal, dev, pre, post, loc⟩

/-- `str(n)` -/
def natStr (n : Nat) : Str := intStr (n : Int)

/-- `str(x)` of a part of a local version. -/
def LocalPart.show : LocalPart → Str
  | .num n => natStr n
  | .text s => s

/-- version.py:241-242 -/
def showEpoch (v : Ver) : Str := if v.epoch ≠ 0 then natStr v.epoch ++ ['!'] else []
/-- version.py:245 -/
def showRelease (v : Ver) : Str := joinWith c!"." (v.release.map natStr)
/-- version.py:248-249 -/
def showPre (v : Ver) : Str := match v.pre with | none => [] | some (l, n) => l ++ natStr n
/-- version.py:252-253 -/
def showPost (v : Ver) : Str := match v.post with | none => [] | some (_, n) => c!".post" ++ natStr n
/-- version.py:256-257 -/
def showDev (v : Ver) : Str := match v.dev with | none => [] | some (_, n) => c!".dev" ++ natStr n
/-- version.py:260-261 and 338-341 -/
def showLocal (v : Ver) : Str :=
  match v.loc with
  | none => []
  | some [] => []
  | some l => '+' :: joinWith c!"." (l.map LocalPart.show)

/-- version.py:232-263 `str(version)`. -/
def Ver.show (v : Ver) : Str :=
  showEpoch v ++ showRelease v ++ showPre v ++ showPost v ++ showDev v ++ showLocal v

/-- version.py:357-379 `base_version`. -/
def Ver.base (v : Ver) : Str := showEpoch v ++ showRelease v

/-- version.py:354 `public`: `str(self).split("+", 1)[0]`. -/
def Ver.public (v : Ver) : Str := v.show.takeWhile (· ≠ '+')

/-- version.py:396 `is_prerelease`. -/
def Ver.isPrerelease (v : Ver) : Bool := v.dev.isSome || v.pre.isSome

end Gyp
