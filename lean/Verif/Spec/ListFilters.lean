import Verif.Model.Value
/-
What the list filters of a build file mean.
-/
namespace Gyp.Spec

/-- A rule about list items: those it matches are excluded (or included). -/
structure FilterRule where
  exclude : Bool
  isMatch : Val → Bool

/-- An item is excluded if some rule excludes it and no later rule matches it. -/
def ExcludedBy (rules : List FilterRule) (x : Val) : Prop :=
  ∃ pre r post, rules = pre ++ r :: post ∧ r.exclude = true ∧ r.isMatch x = true ∧
    ∀ q ∈ post, q.isMatch x = false

/-- The rules of an exclusion list `list!`: each entry excludes the items equal to it. -/
def exclusionRules (eq : Val → Val → Bool) (l : List Val) : List FilterRule :=
  l.map fun x => ⟨true, eq x⟩

/-- Patterns are only searched for in strings. -/
def searchVal (f : Str → Bool) : Val → Bool
  | .str s => f s
  | _ => false

/-- A rule of a pattern list `list/`, an entry `[action, pattern]` (a two-key dictionary
also unpacks into two strings). -/
def patternRule (compile : Str → Option (Str → Bool)) : Val → Option FilterRule
  | .list [.str action, .str p] => (compile p).map fun f => ⟨action = c!"exclude", searchVal f⟩
  | .dict [(action, _), (p, _)] => (compile p).map fun f => ⟨action = c!"exclude", searchVal f⟩
  | _ => none

/-- The list stored under a key, empty if there is none. -/
def listAt (d : Dict) (key : Str) : List Val :=
  match d.get? key with
  | some (.list l) => l
  | _ => []

/-- The rules of a dictionary for the list named `key`, in the order they count:
exclusions, then patterns. -/
def filterRules (eq : Val → Val → Bool) (compile : Str → Option (Str → Bool)) (d : Dict)
    (key : Str) : List FilterRule :=
  exclusionRules eq (listAt d (key ++ c!"!")) ++
    (listAt d (key ++ c!"/")).filterMap (patternRule compile)

/-- A key that holds filters. -/
def IsFilterKey (k : Str) : Prop := ∃ base, k = base ++ ['!'] ∨ k = base ++ ['/']

/-- Some dictionary inside the value still has a filter key. -/
inductive HasFilterKey : Val → Prop
  | here {d : List (Str × Val)} {k : Str} {v : Val} : (k, v) ∈ d → IsFilterKey k →
    HasFilterKey (.dict d)
  | dict {d : List (Str × Val)} {k : Str} {v : Val} : (k, v) ∈ d → HasFilterKey v →
    HasFilterKey (.dict d)
  | list {l : List Val} {v : Val} : v ∈ l → HasFilterKey v → HasFilterKey (.list l)

end Gyp.Spec
