import Verif.Basic
import Verif.Model.Sort
/-
`uniquer` and `TopologicallySorted` (gyp/pylib/gyp/common.py).
-/
namespace Gyp

/-- common.py:558-567 `uniquer(seq, idfun)`: `seen` is the dictionary of markers, used
as a set. -/
def uniquerLoop {α β : Type} [DecidableEq β] (idfun : α → β) :
    List α → List β → List α → List α
  | [], _, result => result
  | item :: rest, seen, result =>
    let marker := idfun item
    if marker ∈ seen then uniquerLoop idfun rest seen result
    else uniquerLoop idfun rest (marker :: seen) (result ++ [item])

/-- common.py:558-567 `uniquer`. -/
def uniquer {α β : Type} [DecidableEq β] (idfun : α → β) (seq : List α) : List α :=
  uniquerLoop idfun seq [] []

/-- input.py:1597-1600 `Unify(l)`: `[seen.setdefault(e, e) for e in l if e not in seen]`.
The condition is evaluated before `setdefault` stores the element. -/
def Unify {α : Type} [DecidableEq α] (l : List α) : List α :=
  (l.foldl (fun (st : List α × List α) e =>
    if e ∈ st.1 then st else (e :: st.1, st.2 ++ [e])) ([], [])).2

/-- Failures of the depth-first search: the `CycleError` with the node set it carries,
or running out of the stack depth given to the model. -/
inductive TopoErr (α : Type) where
  | cycle (nodes : List α)
  | depth
deriving DecidableEq

/-- common.py:668-670 the shared state of `Visit`. -/
structure TopoSt (α : Type) where
  visited : List α
  visiting : List α
  ordered : List α

/-- common.py:672-682 `Visit(node)`.  Python recursion is bounded by the stack; the
model takes the admissible depth as its first argument, and the theorems hold for
every sufficiently large depth.  `memoize` (common.py:19-30) only caches `get_edges`,
which is a function here. -/
def topoVisit {α : Type} [DecidableEq α] (get_edges : α → List α) :
    Nat → TopoSt α → α → Except (TopoErr α) (TopoSt α)
  | 0, _, _ => .error .depth
  | depth + 1, s, node =>
    if node ∈ s.visiting then .error (.cycle s.visiting)
    else if node ∈ s.visited then .ok s
    else do
      let s1 : TopoSt α := ⟨node :: s.visited, node :: s.visiting, s.ordered⟩
      let s2 ← (get_edges node).foldlM (topoVisit get_edges depth) s1
      .ok ⟨s2.visited, s2.visiting.erase node, node :: s2.ordered⟩

/-- common.py:646-686 `TopologicallySorted(graph, get_edges)`. -/
def TopologicallySorted (depth : Nat) (graph : List Str) (get_edges : Str → List Str) :
    Except (TopoErr Str) (List Str) := do
  let s ← (pySorted strLe graph).foldlM (topoVisit get_edges depth) ⟨[], [], []⟩
  .ok s.ordered

end Gyp
