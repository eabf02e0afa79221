import Verif.Basic
/-
How GNU make reads the rules of a makefile (GNU make manual, "Rule Syntax", "Types of
Prerequisites", "Target-specific Variable Values"; not part of /repo), for lines without
continuations, conditionals and directives.  Names are read before variable references and
wildcards in them are expanded.

* A line that begins with a tab belongs to the recipe of the rule before it.
* A line that begins with `#` is a comment.
* Otherwise the names up to the first `:` are the targets.  If what follows has a `:=` it
  sets a variable for the targets.  If not, the names up to a `|` are prerequisites and
  those after it are order-only prerequisites.
* Names are separated by blanks; a backslash before a blank makes it part of the name.
-/
namespace Gyp.Spec

/-- The names in a text; `cur` is the name being read, if any. -/
def namesFrom : Option Str → Str → List Str
  | cur, [] => cur.toList
  | cur, '\\' :: ' ' :: t => namesFrom (some (cur.getD [] ++ [' '])) t
  | cur, c :: t =>
    if c = ' ' then cur.toList ++ namesFrom none t
    else namesFrom (some (cur.getD [] ++ [c])) t

def names (s : Str) : List Str := namesFrom none s

inductive MakeItem where
  | rule (targets normal orderOnly : List Str) (recipe : List Str)
  | setVar (targets : List Str) (assignment : Str)
deriving DecidableEq

/-- A line that is neither empty nor a comment nor in a recipe, given the recipe after
it.  `none`: not a rule. -/
def ruleLine (line : Str) (recipe : List Str) : Option MakeItem :=
  match split1 ':' line with
  | none => none
  | some (targets, rest) =>
    if ':' ∈ rest then some (.setVar (names targets) rest)
    else
      match split1 '|' rest with
      | none => some (.rule (names targets) (names rest) [] recipe)
      | some (normal, order) => some (.rule (names targets) (names normal) (names order) recipe)

/-- The recipe lines at the beginning and what comes after them. -/
def readRules : List Str → Option (List Str × List MakeItem)
  | [] => some ([], [])
  | line :: rest =>
    match readRules rest with
    | none => none
    | some (recipe, items) =>
      match line with
      | [] => some (recipe, items)
      | c :: cs =>
        if c = '\t' then some (cs :: recipe, items)
        else if c = '#' then some (recipe, items)
        else
          match ruleLine (c :: cs) recipe with
          | none => none
          | some item => some ([], item :: items)

/-- The rules of a makefile; `none` if it has a line that is none of the above, a recipe
before the first rule or a line that ends in a backslash. -/
def readMakefile (text : Str) : Option (List MakeItem) :=
  if ∃ line ∈ splitOn '\n' text, endsWith line ['\\'] then none
  else
    match readRules (splitOn '\n' text) with
    | some ([], items) => some items
    | _ => none

end Gyp.Spec
