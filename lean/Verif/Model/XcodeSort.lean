import Verif.Model.XcodeGroups
import Verif.Model.XcodeIds
import Verif.Model.Sort
/-
The order of files and groups in Xcode projects: `Compare`, `CompareRootGroup`, `SortGroup` and
`SortGroups` of /repo/gyp/pylib/gyp/xcodeproj_file.py.  Simplified: everything that is compared has
a name or a path (only the main group has none, and it is not compared).
-/
namespace Gyp

/-- xcodeproj_file.py:1067-1073 is this of the rank `group`?  Variant groups are as files. -/
def isPlainGroup : XNode → Bool
  | .group false .. => true
  | _ => false

/-- xcodeproj_file.py:1000-1007 `Name()`. -/
def sortName (n : XNode) : Str := (XNode.nameOf n).getD []

/-- xcodeproj_file.py:150-151 `cmp` of two texts. -/
def cmpStr (a b : Str) : Int :=
  (if strLe a b then 0 else 1) - (if strLe b a then 0 else 1)

/-- xcodeproj_file.py:1064-1082 `Compare`. -/
def xcCompare (a b : XNode) : Int :=
  if isPlainGroup a = isPlainGroup b then cmpStr (sortName a) (sortName b)
  else if isPlainGroup a then -1
  else 1

/-- xcodeproj_file.py:1091-1098 -/
def rootOrder : List Str :=
  [c!"Source", c!"Intermediates", c!"Projects", c!"Frameworks", c!"Products", c!"Build"]

/-- `isinstance(x, PBXGroup)`: variant groups are groups too. -/
def isAnyGroup : XNode → Bool
  | .group .. => true
  | _ => false

/-- xcodeproj_file.py:1084-1121 `CompareRootGroup`.  Both questions are about the class of the
first object. -/
def xcCompareRoot (a b : XNode) : Int :=
  if ¬ (isAnyGroup a = true ∧ sortName a ∈ rootOrder) ∧ ¬ (isAnyGroup a = true ∧ sortName b ∈ rootOrder) then
    xcCompare a b
  else if sortName a ∈ rootOrder ∧ sortName b ∉ rootOrder then -1
  else if sortName b ∈ rootOrder ∧ sortName a ∉ rootOrder then 1
  else if rootOrder.idxOf (sortName a) < rootOrder.idxOf (sortName b) then -1
  else if rootOrder.idxOf (sortName a) > rootOrder.idxOf (sortName b) then 1
  else 0

/-- `cmp_to_key`: not after. -/
def notAfter (cmp : XNode → XNode → Int) (a b : XNode) : Bool := decide (cmp a b ≤ 0)

mutual
/-- xcodeproj_file.py:1488-1496 `SortGroup`.  The code sorts the list and then the children; the
order only looks at class and name, which stay as they are. -/
def sortNode : XNode → XNode
  | .file n t p => .file n t p
  | .group v n t p cs => .group v n t p (pySorted (notAfter xcCompare) (sortNodes cs))

/-- xcodeproj_file.py:1494-1496 the children; files have none. -/
def sortNodes : List XNode → List XNode
  | [] => []
  | c :: cs => sortNode c :: sortNodes cs
end

/-- xcodeproj_file.py:2909-2926 the new list of products: `targets` has for each native target the
place of its product in the group, `none` for the other targets.  `none` is a failed assertion. -/
def sortProducts (targets : List (Option Nat)) (children : List XNode) : Option (List XNode) :=
  let products := (targets.filterMap id).mapM fun i => children[i]?
  match products with
  | none => none
  | some ps => if ps.length = children.length then some ps else none

/-- xcodeproj_file.py:2905-2928 one child of the main group. -/
def sortRootChild (targets : List (Option Nat)) (g : XNode) : Option XNode :=
  match g with
  | .file .. => some g
  | .group v n t p cs =>
    if sortName g = c!"Products" then (sortProducts targets cs).map (.group v n t p)
    else some (sortNode g)

/-- xcodeproj_file.py:2894-2928 `SortGroups`: the children of the main group. -/
def sortRoot (targets : List (Option Nat)) (children : List XNode) : Option (List XNode) :=
  (pySorted (notAfter xcCompareRoot) children).mapM (sortRootChild targets)

end Gyp
