import Verif.Model.SimpleCopy
/-
What a value on the heap is, and what programs that hold references can do.
-/
namespace Gyp.Spec

/-- A nested value, as it is printed. -/
inductive Tree where
  | atom (a : Atom)
  | list (items : List Tree)
  | dict (items : List (Atom × Tree))

mutual
/-- How deeply the value is nested. -/
def Tree.depth : Tree → Nat
  | .atom _ => 1
  | .list items => 1 + depthItems items
  | .dict items => 1 + depthEntries items
def depthItems : List Tree → Nat
  | [] => 1
  | t :: ts => max t.depth (depthItems ts)
def depthEntries : List (Atom × Tree) → Nat
  | [] => 1
  | (_, t) :: ts => max t.depth (depthEntries ts)
end

mutual
/-- In the heap, the value is the nested value: equal atoms, equal items in the same
order, equal keys with equal values in the same order. -/
inductive HDenotes (h : Heap) : HVal → Tree → Prop where
  | atom (a : Atom) : HDenotes h (.atom a) (.atom a)
  | list {addr : Nat} {items : List HVal} {ts : List Tree} (ho : h[addr]? = some (.list items))
      (hi : DenoteItems h items ts) : HDenotes h (.ref addr) (.list ts)
  | dict {addr : Nat} {items : List (HVal × HVal)} {ts : List (Atom × Tree)}
      (ho : h[addr]? = some (.dict items)) (hi : DenoteEntries h items ts) :
      HDenotes h (.ref addr) (.dict ts)
inductive DenoteItems (h : Heap) : List HVal → List Tree → Prop where
  | nil : DenoteItems h [] []
  | cons {v : HVal} {t : Tree} {vs : List HVal} {ts : List Tree} (hd : HDenotes h v t)
      (hs : DenoteItems h vs ts) : DenoteItems h (v :: vs) (t :: ts)
inductive DenoteEntries (h : Heap) : List (HVal × HVal) → List (Atom × Tree) → Prop where
  | nil : DenoteEntries h [] []
  | cons {k : Atom} {v : HVal} {t : Tree} {vs : List (HVal × HVal)} {ts : List (Atom × Tree)}
      (hd : HDenotes h v t) (hs : DenoteEntries h vs ts) :
      DenoteEntries h ((.atom k, v) :: vs) ((k, t) :: ts)
end

/-- The values an object contains. -/
def contents : HObj → List HVal
  | .list items => items
  | .dict items => items.map Prod.fst ++ items.map Prod.snd

/-- A heap of a running program: references lead to objects, and the keys of a
dictionary are different and are not lists or dictionaries. -/
structure GoodHeap (h : Heap) : Prop where
  refs : ∀ o ∈ h, ∀ a, .ref a ∈ contents o → a < h.length
  keys : ∀ items, .dict items ∈ h → (items.map Prod.fst).Nodup
  hashable : ∀ items, .dict items ∈ h → ∀ p ∈ items, ∀ a, p.1 ≠ .ref a

/-- The object at the address can be reached from the value. -/
inductive HReach (h : Heap) (v : HVal) : Nat → Prop where
  | here {a : Nat} (hv : v = .ref a) : HReach h v a
  | step {a b : Nat} {o : HObj} (hr : HReach h v a) (ho : h[a]? = some o)
      (hb : .ref b ∈ contents o) : HReach h v b

/-- Two parts of a program. -/
inductive Holder where
  | ofCopy
  | ofRest
  deriving DecidableEq

/-- The heap and the values that each part holds. -/
structure Two where
  heap : Heap
  holds : Holder → HVal → Prop

/-- One step of a part of the program: it makes an atom, looks into an object it
holds, makes a new object of values it holds, or changes an object it holds in place, putting in
values it holds and keeping, reordering or dropping any of those that were there. -/
inductive Step (who : Holder) : Two → Two → Prop where
  | atom (s : Two) (a : Atom) :
      Step who s ⟨s.heap, fun w v => s.holds w v ∨ (w = who ∧ v = .atom a)⟩
  | load (s : Two) {a : Nat} {o : HObj} {v : HVal} (hh : s.holds who (.ref a))
      (ho : s.heap[a]? = some o) (hv : v ∈ contents o) :
      Step who s ⟨s.heap, fun w u => s.holds w u ∨ (w = who ∧ u = v)⟩
  | make (s : Two) (o : HObj) (hc : ∀ v ∈ contents o, s.holds who v) :
      Step who s ⟨s.heap ++ [o], fun w u => s.holds w u ∨ (w = who ∧ u = .ref s.heap.length)⟩
  | change (s : Two) {a : Nat} {o : HObj} (new : HObj) (hh : s.holds who (.ref a))
      (ho : s.heap[a]? = some o) (hc : ∀ v ∈ contents new, s.holds who v ∨ v ∈ contents o) :
      Step who s ⟨s.heap.set a new, s.holds⟩

/-- Any number of steps of any of the given parts. -/
inductive Run (who : Holder → Prop) : Two → Two → Prop where
  | refl (s : Two) : Run who s s
  | tail {s t u : Two} {w : Holder} (hr : Run who s t) (hw : who w) (hs : Step w t u) : Run who s u

/-- The program right after the copy: one part holds the copy, the other one holds
everything that existed before. -/
def afterCopy (h h' : Heap) (y : HVal) : Two :=
  ⟨h', fun w v => match w with
    | .ofCopy => v = y
    | .ofRest => ∀ a, v = .ref a → a < h.length⟩

/-- Everything that can be reached from the value is as it was. -/
def Unchanged (h h' : Heap) (v : HVal) : Prop := ∀ a, HReach h v a → h'[a]? = h[a]?

end Gyp.Spec
