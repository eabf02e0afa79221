import Verif.Model.XcodeGroups
import Verif.Spec.Path
/-
Where the objects of an Xcode project lead.  A source tree stands for a directory; one that is relative
to its group starts where the group leads.
-/
namespace Gyp.Spec

/-- Where an object leads, in a group that leads to `base`. -/
def leads (vars : Str → Loc) (base : Loc) (tree : Str) (path : Option Str) : Loc :=
  let start := if tree = c!"<group>" then base else vars tree
  match path with
  | some p => walk start p
  | none => start

/-- The object that is at a place, and where it leads. -/
def objectAt (vars : Str → Loc) : Loc → List XNode → List Nat → Option (XNode × Loc)
  | _, _, [] => none
  | base, nodes, i :: rest =>
    match nodes[i]? with
    | none => none
    | some (.file n t p) => if rest = [] then some (.file n t p, leads vars base t p) else none
    | some (.group v n t p cs) =>
      if rest = [] then some (.group v n t p cs, leads vars base t p)
      else objectAt vars (leads vars base t p) cs rest

mutual
/-- Where the files in an object lead. -/
def nodeLeads (vars : Str → Loc) : Loc → XNode → List Loc
  | base, .file _ t p => [leads vars base t p]
  | base, .group _ _ t p cs => filesLead vars (leads vars base t p) cs

/-- Where the files in some objects lead, from first to last. -/
def filesLead (vars : Str → Loc) : Loc → List XNode → List Loc
  | _, [] => []
  | base, n :: rest => nodeLeads vars base n ++ filesLead vars base rest
end

/-- Where a reference leads: it is a file that leads there, or a group of variants (localizations) with
a file that does. -/
def ReferenceTo (vars : Str → Loc) (base : Loc) (nodes : List XNode) (place : List Nat) (loc : Loc) : Prop :=
  (∃ n t p, objectAt vars base nodes place = some (.file n t p, loc)) ∨
  ∃ n t p cs at_ i n' t' p', objectAt vars base nodes place = some (.group true n t p cs, at_) ∧
    objectAt vars base nodes (place ++ [i]) = some (.file n' t' p', loc)

/-- The same object, but for what is in it. -/
def SameObject : XNode → XNode → Prop
  | .file n t p, .file n' t' p' => n = n' ∧ t = t' ∧ p = p'
  | .group v n t p _, .group v' n' t' p' _ => v = v' ∧ n = n' ∧ t = t' ∧ p = p'
  | _, _ => False

end Gyp.Spec
