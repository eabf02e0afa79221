import Verif.Basic
/-
What a path string means to the operating system (no symbolic links): start at
the root if it begins with a slash, else in the current directory; an empty
component or `.` stays, `..` goes to the parent (the root is its own parent),
any other name descends.

A location is the list of directory names from the innermost outwards.
-/
namespace Gyp.Spec

/-- A location in the tree: names from the innermost outwards. -/
abbrev Loc := List Str

def walkStep (at_ : Loc) (comp : Str) : Loc :=
  if comp = [] then at_
  else if comp = ['.'] then at_
  else if comp = ['.', '.'] then at_.tail
  else comp :: at_

/-- The location a path string denotes when used in directory `at_`. -/
def walk (at_ : Loc) (p : Str) : Loc :=
  let start := if p.head? = some '/' then [] else at_
  (splitOn '/' p).foldl walkStep start

/-- A name that can be a directory entry. -/
def validName (c : Str) : Prop := c ≠ [] ∧ '/' ∉ c ∧ c ≠ ['.'] ∧ c ≠ ['.', '.']

instance (c : Str) : Decidable (validName c) := by unfold validName; infer_instance

end Gyp.Spec
