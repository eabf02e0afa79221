import Verif.Model.Version
/-
Version specifiers: /repo/gyp/pylib/packaging/specifiers.py.  A specifier is given by its operator
and its version text, as `Specifier.__init__` (lines 230-252) takes them out of its pattern; the
pattern itself is not modelled.  `none` stands for `InvalidVersion`.
-/
namespace Gyp

/-- specifiers.py:219-228 the operators. -/
inductive SpecOp
  | compatible | equal | notEqual | lessEqual | greaterEqual | less | greater | arbitrary
deriving DecidableEq

/-- specifiers.py:245-252 `_spec` and `_prereleases`. -/
structure Specifier where
  op : SpecOp
  version : Str
  forced : Option Bool

/-- utils.py:56-96 `canonicalize_version(version, strip_trailing_zero=False)` of a text; the
fields are put together in the same way as by `str` of a version (version.py:232-263). -/
def canonicalText (s : Str) : Str :=
  match Ver.parse s with
  | none => s
  | some v => v.show

/-- `version.rpartition("!")`: what is before the last mark (nothing if there is none), and what
is after it. -/
def bangParts (s : Str) : Str × Str :=
  if '!' ∈ s then
    (((s.reverse.dropWhile (· ≠ '!')).drop 1).reverse, (s.reverse.takeWhile (· ≠ '!')).reverse)
  else ([], s)

/-- specifiers.py:643 `((?:a|b|c|rc)[0-9]+)$` on what follows the digits; the `$` before a
newline at the end is left out, a version text has none after stripping. -/
def prefixTail (s : Str) : Bool :=
  [c!"a", c!"b", c!"c", c!"rc"].any fun l =>
    l.isPrefixOf s && !(s.drop l.length).isEmpty && (s.drop l.length).all asciiDigit

/-- specifiers.py:659-664 one item between dots. -/
def splitItem (item : Str) : List Str :=
  if (eatDigits item).1 ≠ [] ∧ prefixTail (eatDigits item).2 = true then
    [(eatDigits item).1, (eatDigits item).2]
  else [item]

/-- specifiers.py:646-665 `_version_split`. -/
def versionSplit (s : Str) : List Str :=
  (if (bangParts s).1 = [] then c!"0" else (bangParts s).1) ::
    ((splitOn '.' (bangParts s).2).map splitItem).flatten

/-- specifiers.py:668-676 `_version_join`; of nothing it raises, which does not happen as there
are at least two components. -/
def versionJoin : List Str → Str
  | [] => []
  | e :: rest => e ++ c!"!" ++ joinWith c!"." rest

/-- specifiers.py:679-682 `_is_not_suffix`. -/
def isNotSuffix (s : Str) : Bool :=
  !([c!"dev", c!"a", c!"b", c!"rc", c!"post"].any fun p => p.isPrefixOf s)

/-- `x.isdigit()`; digits outside ASCII do not get here. -/
def allDigits (s : Str) : Bool := !s.isEmpty && s.all asciiDigit

/-- specifiers.py:685-700 `_pad_version`, the first of the two results. -/
def padVersion (left right : List Str) : List Str :=
  left.takeWhile allDigits ++
    List.replicate ((right.takeWhile allDigits).length - (left.takeWhile allDigits).length) c!"0" ++
    left.drop (left.takeWhile allDigits).length

/-- `spec.endswith(".*")` -/
def endsStar (s : Str) : Bool := (c!".*").isSuffixOf s

/-- specifiers.py:397-436 `_compare_equal`. -/
def compareEqual (v : Ver) (spec : Str) : Option Bool :=
  if endsStar spec then
    let splitSpec := versionSplit (canonicalText (spec.take (spec.length - 2)))
    let splitV := versionSplit (canonicalText v.public)
    some ((padVersion splitV splitSpec).take splitSpec.length == splitSpec)
  else do
    let w ← Ver.parse spec
    let v ← if showLocal w = [] then Ver.parse v.public else some v
    some (v.eq w)

/-- specifiers.py:438-439 `_compare_not_equal`. -/
def compareNotEqual (v : Ver) (spec : Str) : Option Bool := (compareEqual v spec).map (! ·)

/-- specifiers.py:441-446 `_compare_less_than_equal`. -/
def compareLessEqual (v : Ver) (spec : Str) : Option Bool := do
  let a ← Ver.parse v.public
  let b ← Ver.parse spec
  a.le b

/-- specifiers.py:448-453 `_compare_greater_than_equal`. -/
def compareGreaterEqual (v : Ver) (spec : Str) : Option Bool := do
  let a ← Ver.parse v.public
  let b ← Ver.parse spec
  a.ge b

/-- `Version(prospective.base_version) == Version(spec.base_version)` -/
def sameBase (v w : Ver) : Option Bool := do
  let a ← Ver.parse v.base
  let b ← Ver.parse w.base
  some (a.eq b)

/-- specifiers.py:455-478 `_compare_less_than`. -/
def compareLess (v : Ver) (spec : Str) : Option Bool := do
  let w ← Ver.parse spec
  let lt ← v.lt w
  if !lt then return false
  if !w.isPrerelease && v.isPrerelease then
    if ← sameBase v w then return false
  return true

/-- specifiers.py:480-509 `_compare_greater_than`. -/
def compareGreater (v : Ver) (spec : Str) : Option Bool := do
  let w ← Ver.parse spec
  let gt ← v.gt w
  if !gt then return false
  if !w.post.isSome && v.post.isSome then
    if ← sameBase v w then return false
  if v.loc.isSome then
    if ← sameBase v w then return false
  return true

/-- specifiers.py:511-512 `_compare_arbitrary`. -/
def compareArbitrary (v : Ver) (spec : Str) : Bool := lowerStr v.show == lowerStr spec

/-- specifiers.py:384-389: the prefix that a compatible release has to match. -/
def compatiblePrefix (spec : Str) : Str :=
  versionJoin (((versionSplit spec).takeWhile isNotSuffix).dropLast) ++ c!".*"

/-- specifiers.py:376-395 `_compare_compatible`. -/
def compareCompatible (v : Ver) (spec : Str) : Option Bool := do
  if ← compareGreaterEqual v spec then compareEqual v (compatiblePrefix spec) else return false

/-- specifiers.py:370-374 `_get_operator`, applied. -/
def Specifier.holds (s : Specifier) (v : Ver) : Option Bool :=
  match s.op with
  | .compatible => compareCompatible v s.version
  | .equal => compareEqual v s.version
  | .notEqual => compareNotEqual v s.version
  | .lessEqual => compareLessEqual v s.version
  | .greaterEqual => compareGreaterEqual v s.version
  | .less => compareLess v s.version
  | .greater => compareGreater v s.version
  | .arbitrary => some (compareArbitrary v s.version)

/-- specifiers.py:257-278 `prereleases`. -/
def Specifier.prereleases (s : Specifier) : Option Bool :=
  match s.forced with
  | some b => some b
  | none =>
    if s.op = .equal ∨ s.op = .greaterEqual ∨ s.op = .lessEqual ∨ s.op = .compatible ∨
        s.op = .arbitrary then
      (Ver.parse (if s.op = .equal ∧ endsStar s.version then
        s.version.take (s.version.length - 2) else s.version)).map Ver.isPrerelease
    else some false

/-- specifiers.py:535-579 `contains` of a version. -/
def Specifier.contains (s : Specifier) (v : Ver) (pre : Option Bool) : Option Bool := do
  let pre ← match pre with
    | none => s.prereleases
    | some b => some b
  if v.isPrerelease && !pre then return false
  s.holds v

/-- specifiers.py:616-632 the loop of `filter`: what is yielded and what is stored for later. -/
def Specifier.filterLoop (s : Specifier) (pre : Option Bool) : List Ver → Option (List Ver × List Ver)
  | [] => some ([], [])
  | v :: vs => do
    if ← s.contains v (some (pre.getD true)) then
      let later ← if v.isPrerelease then
          (if pre = some true then some false else s.prereleases.map (! ·))
        else some false
      let (ys, ls) ← s.filterLoop pre vs
      return if later then (ys, v :: ls) else (v :: ys, ls)
    else s.filterLoop pre vs

/-- specifiers.py:581-640 `filter`. -/
def Specifier.filter (s : Specifier) (vs : List Ver) (pre : Option Bool) : Option (List Ver) := do
  let (ys, ls) ← s.filterLoop pre vs
  return if ys.isEmpty then ls else ys

/-- specifiers.py:736-743 `_specs` and `_prereleases`; the order of the set is any. -/
structure SpecSet where
  specs : List Specifier
  forced : Option Bool

/-- `any(s.prereleases for s in specs)` -/
def anyPre : List Specifier → Option Bool
  | [] => some false
  | s :: ss => do if ← s.prereleases then return true else anyPre ss

/-- specifiers.py:746-760 `prereleases`: the outer `none` is an exception, the inner one the
answer `None`. -/
def SpecSet.prereleases (t : SpecSet) : Option (Option Bool) :=
  match t.forced with
  | some b => some (some b)
  | none => if t.specs.isEmpty then some none else (anyPre t.specs).map some

/-- `all(s.contains(item, prereleases=prereleases) for s in self._specs)` -/
def allContain (v : Ver) (pre : Option Bool) : List Specifier → Option Bool
  | [] => some true
  | s :: ss => do if ← s.contains v pre then allContain v pre ss else return false

/-- specifiers.py:896-951 `contains` of a version. -/
def SpecSet.contains (t : SpecSet) (v : Ver) (pre : Option Bool) (installed : Bool) : Option Bool := do
  let pre ← match pre with
    | none => t.prereleases
    | some b => some (some b)
  if !(pre.getD false) && v.isPrerelease then return false
  let v ← if installed && v.isPrerelease then Ver.parse v.base else some v
  allContain v pre t.specs

/-- specifiers.py:1004-1005 -/
def filterAll (pre : Bool) : List Specifier → List Ver → Option (List Ver)
  | [], vs => some vs
  | s :: ss, vs => do filterAll pre ss (← s.filter vs (some pre))

/-- specifiers.py:1013-1022 the loop for no specifiers; the stored ones are added only as long as
nothing was kept. -/
def roughLoop (pre : Option Bool) : List Ver → List Ver × List Ver → List Ver × List Ver
  | [], st => st
  | v :: vs, (kept, found) =>
    roughLoop pre vs
      (if v.isPrerelease && !(pre.getD false) then (kept, if kept.isEmpty then found ++ [v] else found)
       else (kept ++ [v], found))

/-- specifiers.py:953-1030 `filter`. -/
def SpecSet.filter (t : SpecSet) (vs : List Ver) (pre : Option Bool) : Option (List Ver) := do
  let pre ← match pre with
    | none => t.prereleases
    | some b => some (some b)
  if t.specs.isEmpty then
    let (kept, found) := roughLoop pre vs ([], [])
    return if kept.isEmpty && !found.isEmpty && pre.isNone then found else kept
  else filterAll (pre.getD false) t.specs vs

end Gyp
