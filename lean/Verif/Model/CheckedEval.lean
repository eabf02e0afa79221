import Verif.Model.Value
/-
Strict reading of a build file: `gyp/pylib/gyp/input.py` `CheckedEval`, `CheckNode`.
The syntax tree comes from Python's `ast.parse`, which is not modelled.
-/
namespace Gyp

/-- An expression of Python's syntax tree, as far as `CheckNode` tells them apart.  A
dictionary key is `some` text if it is an `ast.Str` and `none` otherwise. -/
inductive PyAst where
  | dict (entries : List (Option Str × PyAst))
  | list (elts : List PyAst)
  | str (s : Str)
  | other

inductive CheckErr where
  /-- a failed `assert` -/
  | assertion
  /-- input.py:195 `GypError`: the key, the level and the key path -/
  | repeated (key : Str) (level : Nat) (keypath : List Str)
  /-- input.py:218 `TypeError` with the key path -/
  | unknown (keypath : List Str)
deriving DecidableEq

mutual
/-- input.py:188-220 `CheckNode(node, keypath)`.  `idx` renders a list index (`repr`). -/
def CheckNode (idx : Nat → Str) : PyAst → List Str → Except CheckErr Val
  | .dict entries, kp =>
    match checkEntries idx entries kp [] with
    | .error e => .error e
    | .ok d => .ok (.dict d)
  | .list elts, kp =>
    match checkElts idx elts kp 0 with
    | .error e => .error e
    | .ok l => .ok (.list l)
  | .str s, _ => .ok (.str s)
  | .other, kp => .error (.unknown kp)
/-- input.py:190-207 the loop over the entries of a dictionary; `d` is the dictionary
built so far. -/
def checkEntries (idx : Nat → Str) :
    List (Option Str × PyAst) → List Str → Dict → Except CheckErr Dict
  | [], _, d => .ok d
  | (none, _) :: _, _, _ => .error .assertion
  | (some key, value) :: rest, kp, d =>
    if (Dict.get? d key).isSome then .error (.repeated key (kp.length + 1) kp)
    else
      match CheckNode idx value (kp ++ [key]) with
      | .error e => .error e
      | .ok v => checkEntries idx rest kp (d.set key v)
/-- input.py:209-214 the loop over the elements of a list. -/
def checkElts (idx : Nat → Str) : List PyAst → List Str → Nat → Except CheckErr (List Val)
  | [], _, _ => .ok []
  | child :: rest, kp, index =>
    match CheckNode idx child (kp ++ [idx index]) with
    | .error e => .error e
    | .ok v =>
      match checkElts idx rest kp (index + 1) with
      | .error e => .error e
      | .ok vs => .ok (v :: vs)
end

/-- input.py:172-185 `CheckedEval` on the statements of the parsed file: `some` is an
expression statement. -/
def CheckedEval (idx : Nat → Str) (body : List (Option PyAst)) : Except CheckErr Val :=
  match body with
  | [some e] => CheckNode idx e []
  | _ => .error .assertion

end Gyp
