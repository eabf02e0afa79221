import Verif.Model.Value
import Verif.Model.Path
/-
Merging of settings: `gyp/pylib/gyp/input.py` `IsPathSection`, `MakePathRelative`,
`MergeLists`, `MergeDicts`.

Simplifications: values are immutable trees, so the in-place update of `to` is a new
value; when an exception is raised the partially updated `to` is not kept (gyp stops).
Aliasing between `to` and `fro` is the subject of `simple_copy` (C59).
-/
namespace Gyp

/-- input.py:60 the suffix characters dropped by `IsPathSection`. -/
def isSectionSuffix (c : Char) : Bool := c = '=' ∨ c = '+' ∨ c = '?' ∨ c = '!'

/-- `s[-n:]`. -/
def lastN (n : Nat) (s : Str) : Str := s.drop (s.length - n)

/-- input.py:56-78 `IsPathSection(section)`; `pathSections` is the global
`path_sections` (`base_path_sections` and the generator's additions). -/
def IsPathSection (pathSections : List Str) (section_ : Str) : Bool :=
  let section_ := (section_.reverse.dropWhile isSectionSuffix).reverse
  if section_ ∈ pathSections then true
  else if '_' ∈ section_ then
    let tail := lastN 6 section_
    let tail := if tail.getLast? = some 's' then tail.dropLast else tail
    if lastN 5 tail = c!"_file" ∨ lastN 5 tail = c!"_path" then true
    else lastN 4 tail = c!"_dir"
  else false

/-- input.py:39-47 `base_path_sections`. -/
def basePathSections : List Str :=
  [c!"destination", c!"files", c!"include_dirs", c!"inputs", c!"libraries", c!"outputs",
   c!"sources"]

/-- input.py:2173 the characters of the class in `exception_re`. -/
def isExceptionChar (c : Char) : Bool :=
  c = '-' ∨ c = '/' ∨ c = '$' ∨ c = '<' ∨ c = '>' ∨ c = '^'

/-- input.py:2173 `exception_re.match(item)`: an optional quote, then one of the
characters. -/
def exceptionMatch : Str → Bool
  | [] => false
  | c :: rest =>
    if c = '"' ∨ c = '\'' then
      match rest with
      | d :: _ => isExceptionChar d
      | [] => false
    else isExceptionChar c

/-- Where a merge takes place: the current directory, the sections that hold paths and
the two build files. -/
structure MergeCtx where
  cwd : List Str
  pathSections : List Str
  toFile : Str
  froFile : Str
deriving DecidableEq

/-- input.py:2176-2210 `MakePathRelative(to_file, fro_file, item)` for a string `item`. -/
def MakePathRelative (c : MergeCtx) (item : Str) : Str :=
  if c.toFile = c.froFile ∨ exceptionMatch item then item
  else
    let ret := replaceChar '\\' ['/'] (normpath
      (pathJoin (RelativePath c.cwd (dirname c.froFile) (dirname c.toFile)) item))
    if endsWith item ['/'] then ret ++ ['/'] else ret

/-- What a merge can fail with. -/
inductive MergeErr where
  /-- input.py:2255, 2389 a value that is no `str`, `int`, `list` or `dict` -/
  | unsupported
  /-- input.py:2301, 2368 values of different kinds under one key -/
  | typeClash (key : Str)
  /-- input.py:2356 contradictory list policies -/
  | incompatible (key other : Str)
  /-- input.py:2194 the regular expression applied to an `int` raises `TypeError` -/
  | intPath
  /-- input.py:2334 `k[-1]` of an empty key raises `IndexError` -/
  | emptyKey
deriving DecidableEq

/-- State of the loop of `MergeLists`: the list, the set of hashable items put in so far
and the next prepend position. -/
structure MLState where
  tgt : List Val
  seen : List Val
  index : Nat

/-- input.py:2261-2281 put one converted item into the list. -/
def addItem (append singleton : Bool) (toItem : Val) (st : MLState) : MLState :=
  if append then
    if !singleton || !toItem.inList st.seen then
      { st with
        tgt := st.tgt ++ [toItem]
        seen := if toItem.isScalar then toItem :: st.seen else st.seen }
    else st
  else
    let tgt := if singleton then st.tgt.filter (fun x => !toItem.scalarEq x) else st.tgt
    { tgt := tgt.take st.index ++ toItem :: tgt.drop st.index
      seen := if toItem.isScalar then toItem :: st.seen else st.seen
      index := st.index + 1 }

/-- input.py:2225-2229 the initial loop state. -/
def MLState.start (tgt : List Val) : MLState := ⟨tgt, tgt.filter Val.isScalar, 0⟩

/-- input.py:2334-2349 how the last character of a list key selects a policy:
base key, keys that must not be present, `append`. -/
inductive Policy where
  | replace | prepend | setDefault | append
deriving DecidableEq

/-- input.py:2334-2348 -/
def policyOf (k : Str) : Policy × Str :=
  match k.getLast? with
  | some '=' => (.replace, k.dropLast)
  | some '+' => (.prepend, k.dropLast)
  | some '?' => (.setDefault, k.dropLast)
  | _ => (.append, k)

/-- input.py:2338, 2342, 2346, 2349 `lists_incompatible`. -/
def incompatibleKeys : Policy → Str → List Str
  | .replace, b => [b, b ++ ['?']]
  | .prepend, b => [b ++ ['='], b ++ ['?']]
  | .setDefault, b => [b, b ++ ['='], b ++ ['+']]
  | .append, b => [b ++ ['='], b ++ ['?']]

/-- input.py:2293-2298 `bad_merge` for an existing value `old` under the key. -/
def badMerge (v old : Val) : Bool :=
  match v, old with
  | .str _, .str _ => false
  | .str _, .int _ => false
  | .int _, .str _ => false
  | .int _, .int _ => false
  | .list _, .list _ => false
  | .dict _, .dict _ => false
  | .other, .other => false
  | _, _ => true

mutual

/-- input.py:2231-2259 one item of `fro`: the item to put in and whether it may appear
only once. -/
def mergeItem (c : MergeCtx) (isPaths : Bool) : Val → Except MergeErr (Val × Bool)
  | .str s => .ok (.str (if isPaths then MakePathRelative c s else s), !startsWith s ['-'])
  | .int i => if isPaths ∧ c.toFile ≠ c.froFile then .error .intPath else .ok (.int i, true)
  | .dict d =>
    match mergeDictLoop c (d.map Prod.fst) d [] with
    | .ok d' => .ok (.dict d', false)
    | .error e => .error e
  | .list l =>
    match mergeListLoop c false true l (MLState.start []) with
    | .ok st => .ok (.list st.tgt, false)
    | .error e => .error e
  | .other => .error .unsupported

/-- input.py:2230-2281 the loop of `MergeLists`. -/
def mergeListLoop (c : MergeCtx) (isPaths append : Bool) :
    List Val → MLState → Except MergeErr MLState
  | [], st => .ok st
  | item :: rest, st =>
    match mergeItem c isPaths item with
    | .error e => .error e
    | .ok (toItem, singleton) =>
      mergeListLoop c isPaths append rest (addItem append singleton toItem st)

/-- input.py:2292-2395 one entry of `fro`; `froKeys` are all keys of `fro`. -/
def mergeEntry (c : MergeCtx) (froKeys : List Str) (k : Str) (tgt : Dict) :
    Val → Except MergeErr Dict
  | .str s =>
    if ((Dict.get? tgt k).map (badMerge (.str s))).getD false then .error (.typeClash k)
    else if IsPathSection c.pathSections k then .ok (tgt.set k (.str (MakePathRelative c s)))
    else .ok (tgt.set k (.str s))
  | .int i =>
    if ((Dict.get? tgt k).map (badMerge (.int i))).getD false then .error (.typeClash k)
    else if IsPathSection c.pathSections k ∧ c.toFile ≠ c.froFile then .error .intPath
    else .ok (tgt.set k (.int i))
  | .dict d =>
    if ((Dict.get? tgt k).map (badMerge (.dict d))).getD false then .error (.typeClash k)
    else
      let old := match Dict.get? tgt k with
        | some (.dict o) => o
        | _ => []
      match mergeDictLoop c (d.map Prod.fst) d old with
      | .ok d' => .ok (tgt.set k (.dict d'))
      | .error e => .error e
  | .list l =>
    if ((Dict.get? tgt k).map (badMerge (.list l))).getD false then .error (.typeClash k)
    else if k = [] then .error .emptyKey
    else
      let (policy, base) := policyOf k
      match (incompatibleKeys policy base).find? (· ∈ froKeys) with
      | some bad => .error (.incompatible k bad)
      | none =>
        let old : Except MergeErr (Option (List Val)) :=
          match policy, Dict.get? tgt base with
          | .replace, _ => .ok (some [])
          | _, none => .ok (some [])
          | .setDefault, some _ => .ok none
          | _, some (.list o) => .ok (some o)
          | _, some _ => .error (.typeClash base)
        match old with
        | .error e => .error e
        | .ok none => .ok tgt
        | .ok (some o) =>
          match mergeListLoop c (IsPathSection c.pathSections base) (policy ≠ .prepend) l
              (MLState.start o) with
          | .ok st => .ok (tgt.set base (.list st.tgt))
          | .error e => .error e
  | .other =>
    if ((Dict.get? tgt k).map (badMerge .other)).getD false then .error (.typeClash k)
    else .error .unsupported

/-- input.py:2286-2395 the loop of `MergeDicts`. -/
def mergeDictLoop (c : MergeCtx) (froKeys : List Str) : Dict → Dict → Except MergeErr Dict
  | [], tgt => .ok tgt
  | (k, v) :: rest, tgt =>
    match mergeEntry c froKeys k tgt v with
    | .error e => .error e
    | .ok tgt' => mergeDictLoop c froKeys rest tgt'

end

/-- input.py:2213-2281 `MergeLists(to, fro, to_file, fro_file, is_paths, append)`: the
value of `to` afterwards. -/
def MergeLists (c : MergeCtx) (tgt fro : List Val) (isPaths append : Bool) :
    Except MergeErr (List Val) :=
  (mergeListLoop c isPaths append fro (MLState.start tgt)).map MLState.tgt

/-- input.py:2284-2395 `MergeDicts(to, fro, to_file, fro_file)`: the value of `to`
afterwards. -/
def MergeDicts (c : MergeCtx) (tgt fro : Dict) : Except MergeErr Dict :=
  mergeDictLoop c fro.keys fro tgt

end Gyp
