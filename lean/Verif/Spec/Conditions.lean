import Verif.Model.Value
/-
What a condition means, and which value a variable has.
-/
namespace Gyp.Spec

/-- The list `l` is a condition entry: expressions, each followed by settings, and
possibly one more dictionary, the default.  (After the first pair a dictionary in the
place of an expression is the default.) -/
def CondEntry (l : List Val) (branches : List (Val × Dict)) (dflt : Option Dict) : Prop :=
  branches ≠ [] ∧
  l = branches.flatMap (fun b => [b.1, .dict b.2]) ++ (dflt.map Val.dict).toList ∧
  ∀ b ∈ branches.tail, ∀ d, b.1 ≠ .dict d

/-- What a condition entry selects, when `isTrue e b` says that the expression `e`
evaluates to `b`: the settings of the first branch that is true, all earlier ones being
false; the default if all are false. -/
def Selects (isTrue : Val → Bool → Prop) (branches : List (Val × Dict)) (dflt : Option Dict)
    (r : Option Dict) : Prop :=
  (∃ pre e t post, branches = pre ++ (e, t) :: post ∧ (∀ b ∈ pre, isTrue b.1 false) ∧
    isTrue e true ∧ r = some t) ∨
  ((∀ b ∈ branches, isTrue b.1 false) ∧ r = dflt)

/-- Apply selected settings one after the other. -/
inductive ApplyAll (apply : Dict → Dict → Dict → Prop) : Dict → List (Option Dict) → Dict → Prop
  | nil (d : Dict) : ApplyAll apply d [] d
  | skip {d d' : Dict} {rs} : ApplyAll apply d rs d' → ApplyAll apply d (none :: rs) d'
  | use {d m d1 d' : Dict} {rs} : apply d m d1 → ApplyAll apply d1 rs d' →
      ApplyAll apply d (some m :: rs) d'

/-- Values that can be variables: strings, numbers and lists. -/
def VariableValue : Val → Prop
  | .str _ => True
  | .int _ => True
  | .list _ => True
  | _ => False

/-- The section gives `name` a value. -/
def Gives (sec : Dict) (name : Str) (v : Val) : Prop :=
  Dict.get? sec name = some v ∧ VariableValue v

end Gyp.Spec
