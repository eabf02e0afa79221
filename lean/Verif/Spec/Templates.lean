import Verif.Model.Value
import Verif.Model.Scan
import Verif.Spec.Brackets
import Mathlib.Data.List.Forall2
/-
Texts with references to variables, and what they stand for.
-/
namespace Gyp.Spec

/-- A part of a text: literal, or a reference `<(name)`. -/
inductive TextPiece where
  | text (t : Str)
  | ref (name : Str)

/-- An item of a list: a text, or `<@(name)`, which stands for all items of a list. -/
inductive Item where
  | str (ps : List TextPiece)
  | splice (name : Str)

/-- The definition of a variable. -/
inductive Template where
  | scalar (ps : List TextPiece)
  | list (items : List Item)

/-- How a part is written; `sym` is `<`, `>` or `^`. -/
def TextPiece.render (sym : Char) : TextPiece → Str
  | .text t => t
  | .ref n => sym :: '(' :: (n ++ [')'])

/-- How a text is written. -/
def render (sym : Char) (ps : List TextPiece) : Str := (ps.map (TextPiece.render sym)).flatten

/-- How `<@(name)` is written. -/
def renderSplice (sym : Char) (name : Str) : Str := sym :: '@' :: '(' :: (name ++ [')'])

/-- The value of a variable after substitution. -/
inductive Meaning where
  | scalar (s : Str)
  | list (l : List Str)

/-- What a part stands for: the text of the variable, or the items of the list joined by
`enc`. -/
def TextPiece.meaning (enc : List Str → Str) (val : Str → Option Meaning) : TextPiece → Option Str
  | .text t => some t
  | .ref n =>
    match val n with
    | some (.scalar s) => some s
    | some (.list l) => some (enc l)
    | none => none

/-- What a text stands for. -/
def textMeaning (enc : List Str → Str) (val : Str → Option Meaning) (ps : List TextPiece) :
    Option Str := (ps.mapM (TextPiece.meaning enc val)).map List.flatten

/-- What an item stands for. -/
def Item.meaning (enc : List Str → Str) (val : Str → Option Meaning) : Item → Option (List Str)
  | .str ps => (textMeaning enc val ps).map fun s => [s]
  | .splice n =>
    match val n with
    | some (.list l) => some l
    | _ => none

/-- What the items of a list stand for. -/
def itemsMeaning (enc : List Str → Str) (val : Str → Option Meaning) (items : List Item) :
    Option (List Str) := (items.mapM (Item.meaning enc val)).map List.flatten

/-- What a variable stands for, following references at most `depth` deep. -/
def varMeaning (enc : List Str → Str) (tbl : Str → Option Template) : Nat → Str → Option Meaning
  | 0, _ => none
  | depth + 1, n =>
    match tbl n with
    | none => none
    | some (.scalar ps) => (textMeaning enc (varMeaning enc tbl depth) ps).map .scalar
    | some (.list items) => (itemsMeaning enc (varMeaning enc tbl depth) items).map .list

/-- A Python value that is written as the text `ps`, or the number with that text. -/
def WritesText (sym : Char) (v : Val) (ps : List TextPiece) : Prop :=
  v = .str (render sym ps) ∨ ∃ i : Int, v = .int i ∧ ps = [.text (intStr i)]

/-- A Python value that is written as the item. -/
def WritesItem (sym : Char) (v : Val) : Item → Prop
  | .str ps => WritesText sym v ps
  | .splice n => v = .str (renderSplice sym n)

/-- A Python value that is written as the template. -/
def WritesTemplate (sym : Char) (v : Val) : Template → Prop
  | .scalar ps => WritesText sym v ps
  | .list items => ∃ vs, v = .list vs ∧ List.Forall₂ (WritesItem sym) vs items

/-- The table of variables is written as the given templates. -/
def WritesTable (sym : Char) (vars : Dict) (tbl : Str → Option Template) : Prop :=
  ∀ n t, tbl n = some t → ∃ v, Dict.get? vars n = some v ∧ WritesTemplate sym v t

/-- A name that can be referred to: not empty, no number, no brackets, white space, line
ends or `sym`. -/
def GoodName (space : Char → Bool) (sym : Char) (n : Str) : Prop :=
  n ≠ [] ∧ (¬ ∃ i : Int, n = intStr i) ∧
    ∀ c ∈ n, PlainChar c ∧ c ≠ '\n' ∧ c ≠ sym ∧ space c = false

/-- References have good names and the text between them does not contain `sym`. -/
def GoodPiece (space : Char → Bool) (sym : Char) : TextPiece → Prop
  | .text t => sym ∉ t
  | .ref n => GoodName space sym n

def GoodItem (space : Char → Bool) (sym : Char) : Item → Prop
  | .str ps => ∀ p ∈ ps, GoodPiece space sym p
  | .splice n => GoodName space sym n

def GoodTemplate (space : Char → Bool) (sym : Char) : Template → Prop
  | .scalar ps => ∀ p ∈ ps, GoodPiece space sym p
  | .list items => ∀ i ∈ items, GoodItem space sym i

/-- How a text is read: as a number if it is the text of a number. -/
def ReadsAs (w : Str) (v : Val) : Prop :=
  (∃ i : Int, w = intStr i ∧ v = .int i) ∨ ((¬ ∃ i : Int, w = intStr i) ∧ v = .str w)

/-- A place where `s` has a reference of the phase: the symbol; `!`, `@`, `!@`, `|` or
nothing; a word; an opening parenthesis; white space and possibly a bracket; and a closing
parenthesis on the same line. -/
def HasReference (space : Char → Bool) (sym : Char) (s : Str) : Prop :=
  ∃ before kind word white body after : Str,
    s = before ++ sym :: (kind ++ word ++ '(' :: (white ++ body ++ ')' :: after)) ∧
    kind ∈ [[], ['!'], ['@'], ['!', '@'], ['|']] ∧
    (∀ c ∈ word, ('a' ≤ c ∧ c ≤ 'z') ∨ ('A' ≤ c ∧ c ≤ 'Z') ∨ ('0' ≤ c ∧ c ≤ '9') ∨
      c = '-' ∨ c = '_' ∨ c = '.') ∧
    (∀ c ∈ white, space c = true) ∧ (∀ c ∈ body, c ≠ '\n')

end Gyp.Spec
