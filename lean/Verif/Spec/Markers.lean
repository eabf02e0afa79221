import Verif.Model.Markers
/-
Markers by their grammar: `or` of `and` of comparisons and bracketed markers.
-/
namespace Gyp.Spec

mutual
/-- A comparison or a marker in brackets. -/
inductive MAtom (α : Type) where
  | item (a : α)
  | paren (e : MOr α)

/-- One or more of these with `and` between them. -/
inductive MAnd (α : Type) where
  | one (t : MAtom α)
  | more (t : MAtom α) (rest : MAnd α)

/-- One or more of these with `or` between them. -/
inductive MOr (α : Type) where
  | one (a : MAnd α)
  | more (a : MAnd α) (rest : MOr α)
end

variable {α : Type}

mutual
/-- How it is written. -/
def MAtom.tokens : MAtom α → List (MTok α)
  | .item a => [.item a]
  | .paren e => .lpar :: (e.tokens ++ [.rpar])

/-- How it is written. -/
def MAnd.tokens : MAnd α → List (MTok α)
  | .one t => t.tokens
  | .more t rest => t.tokens ++ .word false :: rest.tokens

/-- How it is written. -/
def MOr.tokens : MOr α → List (MTok α)
  | .one a => a.tokens
  | .more a rest => a.tokens ++ .word true :: rest.tokens
end

mutual
/-- What it means; every comparison must have a value. -/
def MAtom.value (ev : α → Option Bool) : MAtom α → Option Bool
  | .item a => ev a
  | .paren e => e.value ev

/-- All hold. -/
def MAnd.value (ev : α → Option Bool) : MAnd α → Option Bool
  | .one t => t.value ev
  | .more t rest => (t.value ev).bind fun x => (rest.value ev).map fun y => x && y

/-- One holds. -/
def MOr.value (ev : α → Option Bool) : MOr α → Option Bool
  | .one a => a.value ev
  | .more a rest => (a.value ev).bind fun x => (rest.value ev).map fun y => x || y
end

mutual
/-- No brackets right inside brackets, as in `((x))`. -/
def MAtom.NoDouble : MAtom α → Prop
  | .item _ => True
  | .paren (.one (.one (.paren _))) => False
  | .paren e => e.NoDouble

/-- No brackets right inside brackets. -/
def MAnd.NoDouble : MAnd α → Prop
  | .one t => t.NoDouble
  | .more t rest => t.NoDouble ∧ rest.NoDouble

/-- No brackets right inside brackets. -/
def MOr.NoDouble : MOr α → Prop
  | .one a => a.NoDouble
  | .more a rest => a.NoDouble ∧ rest.NoDouble
end

end Gyp.Spec
