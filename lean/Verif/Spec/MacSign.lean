import Verif.Model.MacSign
/-
What merged property lists, expanded entitlements and chosen profiles are.
-/
namespace Gyp.Spec

/-- Not a dictionary. -/
def simple : Plist → Bool
  | .dict _ => false
  | _ => true

/-- The value, if not a dictionary, at the end of a path of keys. -/
def settingAt : PDict → List Str → Option Plist
  | _, [] => none
  | d, k :: path =>
    match d.get k with
    | none => none
    | some (.dict c) => settingAt c path
    | some v => if path = [] then some v else none

/-- Does a property list say something about a path of keys?  Going along the path, one comes to a
value that is no dictionary or to the end of the path. -/
def saysSomething : PDict → List Str → Bool
  | _, [] => true
  | d, k :: path =>
    match d.get k with
    | none => false
    | some (.dict c) => saysSomething c path
    | some _ => true

mutual
/-- No dictionary in the value has a key twice. -/
def WellFormed : Plist → Prop
  | .dict d => DictWellFormed d
  | _ => True

/-- No dictionary has a key twice, here or below. -/
def DictWellFormed : PDict → Prop
  | .nil => True
  | .cons k v d => d.get k = none ∧ WellFormed v ∧ DictWellFormed d
end

/-- The items of a list. -/
def listedValues : PItems → List Plist
  | .nil => []
  | .cons x xs => x :: listedValues xs

/-- A part of a text in entitlements. -/
inductive SignPiece
  | text (s : Str)
  | var (name : Str)

/-- As written: `$(NAME)`. -/
def SignPiece.written : SignPiece → Str
  | .text s => s
  | .var n => c!"$(" ++ n ++ c!")"

/-- As meant: variables that are known stand for their values, others for themselves. -/
def SignPiece.meant (values : List (Str × Str)) : SignPiece → Str
  | .text s => s
  | .var n => ((values.find? fun kv => kv.1 == n).map (·.2)).getD (c!"$(" ++ n ++ c!")")

/-- No dollar in plain text, and none nor a bracket in names. -/
def SignPiece.Plain : SignPiece → Prop
  | .text s => '$' ∉ s
  | .var n => '$' ∉ n ∧ ')' ∉ n

/-- A profile of the list with one of its teams fits the bundle. -/
def ProfileFits (fnmatch : Str → Str → Bool) (bundle : Str) (p : ProvProfile) (team : Str) : Prop :=
  team ∈ p.teams ∧ fnmatch (team ++ c!"." ++ bundle) p.pattern = true

/-- The profiles with each of their teams, in their order. -/
def profileTeams (ps : List ProvProfile) : List (ProvProfile × Str) :=
  ps.flatMap fun p => p.teams.map fun t => (p, t)

end Gyp.Spec
