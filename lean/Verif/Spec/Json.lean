import Verif.Model.ConfigGypi
import Verif.Spec.Digits
/-
How JSON (ECMA-404, RFC 8259) and Python read a text made of brackets, strings and
integers.  Fractions, exponents and surrogates are left out: this reader refuses them.
-/
namespace Gyp.Spec

/-- Who reads: `JSON.parse`, or Python (`eval`). -/
inductive Dialect where
  | json
  | python
  deriving DecidableEq

/-- Skip white space, and for Python comments. -/
def skipBlank (d : Dialect) : Str → Str
  | [] => []
  | c :: s =>
    if c = ' ' ∨ c = '\t' ∨ c = '\n' ∨ c = '\r' then skipBlank d s
    else if d = .python ∧ c = '#' then skipLine d s
    else c :: s
where
  skipLine (d : Dialect) : Str → Str
    | [] => []
    | c :: s => if c = '\n' then skipBlank d s else skipLine d s

/-- The value of a hexadecimal digit. -/
def jsonHex (c : Char) : Option Nat :=
  if '0' ≤ c ∧ c ≤ '9' then some (c.toNat - 48)
  else if 'a' ≤ c ∧ c ≤ 'f' then some (c.toNat - 87)
  else if 'A' ≤ c ∧ c ≤ 'F' then some (c.toNat - 55)
  else none

/-- The rest of a string in double quotes, after the opening one. -/
def readString : Str → Option (Str × Str)
  | [] => none
  | '"' :: r => some ([], r)
  | '\\' :: 'u' :: a :: b :: c :: e :: r =>
    match jsonHex a, jsonHex b, jsonHex c, jsonHex e with
    | some x, some y, some z, some w =>
      let n := ((x * 16 + y) * 16 + z) * 16 + w
      if n < 0xD800 ∨ 0xE000 ≤ n then (readString r).map fun p => (Char.ofNat n :: p.1, p.2) else none
    | _, _, _, _ => none
  | '\\' :: e :: r =>
    if e = '"' ∨ e = '\\' then (readString r).map fun p => (e :: p.1, p.2)
    else if e = 'b' then (readString r).map fun p => ('\x08' :: p.1, p.2)
    else if e = 'f' then (readString r).map fun p => ('\x0c' :: p.1, p.2)
    else if e = 'n' then (readString r).map fun p => ('\n' :: p.1, p.2)
    else if e = 'r' then (readString r).map fun p => ('\r' :: p.1, p.2)
    else if e = 't' then (readString r).map fun p => ('\t' :: p.1, p.2)
    else none
  | c :: r => if c.toNat < 32 then none else (readString r).map fun p => (c :: p.1, p.2)

def decChar (c : Char) : Bool := '0' ≤ c ∧ c ≤ '9'

/-- An integer without superfluous zeros, not followed by a fraction or exponent. -/
def readInt (s : Str) : Option (Int × Str) :=
  let neg := s.head? = some '-'
  let t := if s.head? = some '-' then s.tail else s
  let d := t.takeWhile decChar
  let r := t.dropWhile decChar
  if d = [] ∨ (d.head? = some '0' ∧ d.length ≠ 1) then none
  else if r.head? = some '.' ∨ r.head? = some 'e' ∨ r.head? = some 'E' then none
  else some (if neg then -(decValue d : Int) else decValue d, r)

/-- The text without the given beginning. -/
def after (s p : Str) : Option Str := if s.take p.length = p then some (s.drop p.length) else none

mutual
/-- One value; the number bounds the steps. -/
def readValue (d : Dialect) : Nat → Str → Option (JVal × Str)
  | 0, _ => none
  | n + 1, s =>
    match skipBlank d s with
    | '"' :: r => (readString r).map fun p => (.str p.1, p.2)
    | '[' :: r =>
      match skipBlank d r with
      | ']' :: r => some (.arr [], r)
      | _ => (readItems d n r).map fun p => (.arr p.1, p.2)
    | '{' :: r =>
      match skipBlank d r with
      | '}' :: r => some (.obj [], r)
      | _ => (readMembers d n r).map fun p => (.obj p.1, p.2)
    | r =>
      if d = .json ∧ (after r c!"true").isSome then (after r c!"true").map fun r => (.bool true, r)
      else if d = .json ∧ (after r c!"false").isSome then (after r c!"false").map fun r => (.bool false, r)
      else if d = .json ∧ (after r c!"null").isSome then (after r c!"null").map fun r => (.null, r)
      else (readInt r).map fun p => (.num p.1, p.2)
/-- The items of an array or list, up to the closing bracket. -/
def readItems (d : Dialect) : Nat → Str → Option (List JVal × Str)
  | 0, _ => none
  | n + 1, s =>
    match readValue d n s with
    | none => none
    | some (v, r) =>
      match skipBlank d r with
      | ',' :: r => (readItems d n r).map fun p => (v :: p.1, p.2)
      | ']' :: r => some ([v], r)
      | _ => none
/-- The members of an object or dictionary, up to the closing bracket. -/
def readMembers (d : Dialect) : Nat → Str → Option (List (Str × JVal) × Str)
  | 0, _ => none
  | n + 1, s =>
    match skipBlank d s with
    | '"' :: r =>
      match readString r with
      | none => none
      | some (k, r) =>
        match skipBlank d r with
        | ':' :: r =>
          match readValue d n r with
          | none => none
          | some (v, r) =>
            match skipBlank d r with
            | ',' :: r => (readMembers d n r).map fun p => ((k, v) :: p.1, p.2)
            | '}' :: r => some ([(k, v)], r)
            | _ => none
        | _ => none
    | _ => none
end

/-- The whole text is one value. -/
def readText (d : Dialect) (s : Str) : Option JVal :=
  match readValue d (s.length + 1) s with
  | some (v, r) => if skipBlank d r = [] then some v else none
  | none => none

mutual
/-- Truth values are written as texts. -/
def boolsAsText : JVal → JVal
  | .bool true => .str c!"true"
  | .bool false => .str c!"false"
  | .arr l => .arr (boolsAsTextL l)
  | .obj l => .obj (boolsAsTextM l)
  | .null => .null
  | .num i => .num i
  | .str s => .str s
def boolsAsTextL : List JVal → List JVal
  | [] => []
  | x :: xs => boolsAsText x :: boolsAsTextL xs
def boolsAsTextM : List (Str × JVal) → List (Str × JVal)
  | [] => []
  | (k, x) :: xs => (k, boolsAsText x) :: boolsAsTextM xs
end

mutual
/-- `null` does not occur. -/
def noNull : JVal → Prop
  | .null => False
  | .arr l => noNullL l
  | .obj l => noNullM l
  | _ => True
def noNullL : List JVal → Prop
  | [] => True
  | x :: xs => noNull x ∧ noNullL xs
def noNullM : List (Str × JVal) → Prop
  | [] => True
  | (_, x) :: xs => noNull x ∧ noNullM xs
end

/-- The value at a place inside objects. -/
def at_ : JVal → List Str → Option JVal
  | v, [] => some v
  | .obj l, k :: ks => (aget l k).bind fun v => at_ v ks
  | _, _ :: _ => none

/-- An option that is not one of node-gyp's own. -/
def Foreign (E : CfgEnv) (o : Str) : Prop := o ≠ c!"argv" ∧ E.known o = false

/-- The option `o` sets the variable `k`: dashes become underscores. -/
def SetsVariable (E : CfgEnv) (o k : Str) : Prop :=
  Foreign E o ∧ k.length = o.length ∧
    ∀ (i : Nat) (c : Char), o[i]? = some c → k[i]? = some (if c = '-' then '_' else c)

/-- `v` is the value of the last option that sets the variable `k`. -/
def LastSets (E : CfgEnv) (k : Str) (v : JVal) : Prop :=
  ∃ before o later, E.opts = before ++ (o, v) :: later ∧ SetsVariable E o k ∧
    ∀ p ∈ later, ¬ SetsVariable E p.1 k

end Gyp.Spec
