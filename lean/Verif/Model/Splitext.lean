import Verif.Basic
/-
`os.path.basename` and `os.path.splitext` (POSIX), as used for sources, objects and rules.
-/
namespace Gyp

/-- `os.path.basename(p)`: what follows the last slash. -/
def basename (p : Str) : Str :=
  match rsplit1 '/' p with
  | none => p
  | some (_, name) => name

/-- `os.path.splitext(p)` (`genericpath._splitext`): the last dot counts if it is in the last
component and not all characters before it in that component are dots. -/
def splitext (p : Str) : Str × Str :=
  match rsplit1 '.' p with
  | none => (p, [])
  | some (root, ext) =>
    if '/' ∈ ext then (p, [])
    else if (basename root).any (· ≠ '.') then (root, '.' :: ext)
    else (p, [])

end Gyp
