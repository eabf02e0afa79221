import Verif.Basic
/-
`OrderedSet` (gyp/pylib/gyp/common.py:570-633), modelled at the level of its linked
list cells.  Cells live in a heap and are named by natural numbers; cell 0 is the
sentinel `self.end`.
-/
namespace Gyp

/-- common.py:573-575 the object: a heap of cells `[key, prev, next]`, the dictionary
`map` from keys to cells (as an association list) and the next unused cell name. -/
structure OSet (α : Type) where
  key : Nat → Option α
  prev : Nat → Nat
  next : Nat → Nat
  map : List (α × Nat)
  fresh : Nat

/-- Assignment to one slot of a cell. -/
def slotSet {β : Type} (f : Nat → β) (i : Nat) (v : β) : Nat → β :=
  fun j => if j = i then v else f j

namespace OSet
variable {α : Type} [DecidableEq α]

/-- common.py:572-575 `__init__()` without argument: `end += [None, end, end]`. -/
def empty : OSet α := ⟨fun _ => none, fun _ => 0, fun _ => 0, [], 1⟩

/-- common.py:579-580 `__len__`. -/
def len (s : OSet α) : Nat := s.map.length

/-- Dictionary look-up `self.map[key]`. -/
def find (s : OSet α) (k : α) : Option Nat :=
  (s.map.find? fun e => e.1 = k).map Prod.snd

/-- common.py:582-583 `__contains__`. -/
def contains (s : OSet α) (k : α) : Bool := (s.find k).isSome

/-- common.py:585-589 `add`.  The chained assignment stores the new cell in
`curr[2]`, then `end[1]`, then `self.map[key]`. -/
def add (s : OSet α) (k : α) : OSet α :=
  if s.contains k then s
  else
    let curr := s.prev 0
    let cell := s.fresh
    { key := slotSet s.key cell (some k)
      prev := slotSet (slotSet s.prev cell curr) 0 cell
      next := slotSet (slotSet s.next cell 0) curr cell
      map := s.map ++ [(k, cell)]
      fresh := s.fresh + 1 }

/-- common.py:591-595 `discard`. -/
def discard (s : OSet α) (k : α) : OSet α :=
  match s.find k with
  | none => s
  | some cell =>
    let prev_item := s.prev cell
    let next_item := s.next cell
    { s with
      map := s.map.filter fun e => e.1 ≠ k
      next := slotSet s.next prev_item next_item
      prev := slotSet s.prev next_item prev_item }

/-- common.py:597-602 `__iter__`: `Iter s curr l` says that the `while` loop entered
at cell `curr` terminates and yields the keys `l`. -/
inductive Iter (s : OSet α) : Nat → List α → Prop
  | done : Iter s 0 []
  | yield {i k l} : i ≠ 0 → s.key i = some k → Iter s (s.next i) l → Iter s i (k :: l)

/-- common.py:604-609 `__reversed__`. -/
inductive RevIter (s : OSet α) : Nat → List α → Prop
  | done : RevIter s 0 []
  | yield {i k l} : i ≠ 0 → s.key i = some k → RevIter s (s.prev i) l → RevIter s i (k :: l)

/-- `list(s)` terminates with `l`: the loop starts at `end[2]`. -/
def Enumerates (s : OSet α) (l : List α) : Prop := Iter s (s.next 0) l

/-- `list(reversed(s))` terminates with `l`: the loop starts at `end[1]`. -/
def RevEnumerates (s : OSet α) (l : List α) : Prop := RevIter s (s.prev 0) l

/-- common.py:612-617 `pop(last)`; `none` is the `KeyError`.  The inner `none` would
be the sentinel's `None` key, popped by a corrupted list. -/
def pop (s : OSet α) (last : Bool) : Option (Option α × OSet α) :=
  if s.len = 0 then none
  else
    let key := if last then s.key (s.prev 0) else s.key (s.next 0)
    match key with
    | none => some (none, s)
    | some k => some (some k, s.discard k)

/-- common.py:630-633 `update`. -/
def update (s : OSet α) (items : List α) : OSet α :=
  items.foldl (fun s i => if s.contains i then s else s.add i) s

/-- common.py:572-577 `__init__(iterable)`: `self |= iterable`, which is the mix-in
method of `MutableSet` adding every element. -/
def ofList (items : List α) : OSet α := items.foldl add empty

end OSet

/-- common.py:585-589 `add` on the list view of the container: the elements in
insertion order.  `C06_enumerates` justifies this view; code that uses an `OrderedSet`
is modelled with it. -/
def listAdd {α : Type} [DecidableEq α] (l : List α) (k : α) : List α :=
  if k ∈ l then l else l ++ [k]

end Gyp
