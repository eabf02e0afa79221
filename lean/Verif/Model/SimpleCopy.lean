import Verif.Basic
/-
`gyp/pylib/gyp/simple_copy.py`: the copy of settings, on a heap of lists and
dictionaries.

Simplifications.
* Only the objects that can be changed in place, lists and dictionaries, live in the
  heap; the other values are atoms (`float` and `type` values are given by a number).
* Keys of dictionaries are compared as values.  (For Python `1`, `1.0` and `True` are
  the same key; a dictionary never has two of them, so the copy does not either.)
* A list or dictionary of the copy is allocated after its contents; Python allocates
  it before.  Nothing else has a reference to it until it is filled.
* The number of nested calls is bounded as in Python (`RecursionError`); the bound is
  a parameter.
-/
namespace Gyp

/-- `simple_copy.py:39` values of the types that are not copied. -/
inductive Atom where
  | bool (b : Bool)
  | float (bits : Nat)
  | int (i : Int)
  | str (s : Str)
  | type_ (id : Nat)
  | none_
  deriving DecidableEq, Repr

/-- A value: an atom, a reference to a list or dictionary, or a value of another
type (a tuple, a set, an instance). -/
inductive HVal where
  | atom (a : Atom)
  | ref (addr : Nat)
  | other (id : Nat)
  deriving DecidableEq, Repr

/-- A list or dictionary. -/
inductive HObj where
  | list (items : List HVal)
  | dict (items : List (HVal × HVal))
  deriving DecidableEq, Repr

abbrev Heap := List HObj

/-- `simple_copy.py:26-29`: the dispatch fails.  (The message itself cannot be built,
`%` binds stronger than `+`, so that the exception is a `TypeError`.) -/
inductive CopyErr where
  | unsupported
  | recursion
  deriving DecidableEq, Repr

/-- `y[key] = value` -/
def hset : List (HVal × HVal) → HVal → HVal → List (HVal × HVal)
  | [], k, v => [(k, v)]
  | (k', v') :: d, k, v => if k' = k then (k', v) :: d else (k', v') :: hset d k v

/-- `simple_copy.py:46` the items of a list, from left to right. -/
def copyItems (copy : HVal → Heap → Except CopyErr (HVal × Heap)) :
    List HVal → Heap → Except CopyErr (List HVal × Heap)
  | [], h => .ok ([], h)
  | x :: xs, h =>
    match copy x h with
    | .error e => .error e
    | .ok (y, h) =>
      match copyItems copy xs h with
      | .error e => .error e
      | .ok (ys, h) => .ok (y :: ys, h)

/-- `simple_copy.py:54-55` the items of a dictionary.  (The right-hand side of an
assignment is evaluated first.) -/
def copyEntries (copy : HVal → Heap → Except CopyErr (HVal × Heap)) :
    List (HVal × HVal) → List (HVal × HVal) → Heap → Except CopyErr (List (HVal × HVal) × Heap)
  | [], y, h => .ok (y, h)
  | (k, v) :: xs, y, h =>
    match copy v h with
    | .error e => .error e
    | .ok (v', h) =>
      match copy k h with
      | .error e => .error e
      | .ok (k', h) => copyEntries copy xs (hset y k' v') h

/-- `simple_copy.py:18-59` `deepcopy` -/
def deepcopy : Nat → HVal → Heap → Except CopyErr (HVal × Heap)
  | 0, _, _ => .error .recursion
  | n + 1, x, h =>
    match x with
    | .atom a => .ok (.atom a, h)
    | .other _ => .error .unsupported
    | .ref a =>
      match h[a]? with
      | none => .error .unsupported
      | some (.list items) =>
        match copyItems (deepcopy n) items h with
        | .error e => .error e
        | .ok (ys, h) => .ok (.ref h.length, h ++ [.list ys])
      | some (.dict items) =>
        match copyEntries (deepcopy n) items [] h with
        | .error e => .error e
        | .ok (ys, h) => .ok (.ref h.length, h ++ [.dict ys])

end Gyp
