import Verif.Model.XcodeGroups
import Verif.Spec.Version
/-
The order of files and groups in Xcode projects, for property C118.
-/
namespace Gyp.Spec

/-- A folder, and not a group of translations of one file. -/
def folder : XNode → Bool
  | .group false .. => true
  | _ => false

/-- What Xcode shows: the name, or else the path. -/
def shown : XNode → Str
  | .file (some n) _ _ => n
  | .file none _ (some p) => p
  | .group _ (some n) _ _ _ => n
  | .group _ none _ (some p) _ => p
  | _ => []

/-- Alphabetically, by code points. -/
def Alphabetically (a b : Str) : Prop := LexBefore (fun x y : Char => x.toNat < y.toNat) a b

/-- Folders before everything else, and then alphabetically. -/
def SortsBefore (a b : XNode) : Prop :=
  folder a = true ∧ folder b = false ∨ folder a = folder b ∧ Alphabetically (shown a) (shown b)

/-- The same kind and the same name. -/
def alike (a b : XNode) : Bool := folder a == folder b && shown a == shown b

/-- `y` is `x` with all that is in it put in order; entries of the same kind and name stay in the
order they were in. -/
inductive Arranged : XNode → XNode → Prop
  | file {n : Option Str} {t : Str} {p : Option Str} : Arranged (.file n t p) (.file n t p)
  | group {v : Bool} {n : Option Str} {t : Str} {p : Option Str} {cs ds es : List XNode} :
    List.Forall₂ Arranged cs ds → ds.Perm es → (es.Pairwise fun a b => ¬ SortsBefore b a) →
    (∀ x, es.filter (alike x) = ds.filter (alike x)) → Arranged (.group v n t p cs) (.group v n t p es)

/-- The same tree, but the children of any group may be in another order. -/
inductive Rearranged : XNode → XNode → Prop
  | file {n : Option Str} {t : Str} {p : Option Str} : Rearranged (.file n t p) (.file n t p)
  | group {v : Bool} {n : Option Str} {t : Str} {p : Option Str} {cs ds es : List XNode} :
    List.Forall₂ Rearranged cs ds → ds.Perm es → Rearranged (.group v n t p cs) (.group v n t p es)

/-- No group has two entries of the same kind and name. -/
inductive AllUnlike : XNode → Prop
  | file {n : Option Str} {t : Str} {p : Option Str} : AllUnlike (.file n t p)
  | group {v : Bool} {n : Option Str} {t : Str} {p : Option Str} {cs : List XNode} :
    (cs.Pairwise fun a b => alike a b = false) → (∀ c ∈ cs, AllUnlike c) → AllUnlike (.group v n t p cs)

/-- The groups of the main group that have their places. -/
def places : List Str :=
  [c!"Source", c!"Intermediates", c!"Projects", c!"Frameworks", c!"Products", c!"Build"]

/-- In the main group: those with places, in the order of the places, then the rest alphabetically. -/
def RootBefore (a b : XNode) : Prop :=
  (∃ i j : Nat, places[i]? = some (shown a) ∧ places[j]? = some (shown b) ∧ i < j) ∨
  shown a ∈ places ∧ shown b ∉ places ∨
  shown a ∉ places ∧ shown b ∉ places ∧ Alphabetically (shown a) (shown b)

/-- How a child of the main group comes out: the products in the order of the targets that make
them, the other groups in order. -/
inductive RootArranged (targets : List (Option Nat)) : XNode → XNode → Prop
  | products {v : Bool} {n : Option Str} {t : Str} {p : Option Str} {cs ps : List XNode} :
    shown (.group v n t p cs) = c!"Products" →
    ps.map some = (targets.filterMap id).map (fun i => cs[i]?) → ps.length = cs.length →
    RootArranged targets (.group v n t p cs) (.group v n t p ps)
  | other {a b : XNode} : shown a ≠ c!"Products" → Arranged a b → RootArranged targets a b

end Gyp.Spec
