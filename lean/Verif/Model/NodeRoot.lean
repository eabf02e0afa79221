import Verif.Model.Remove
/-
Where the running Node.js lies: lib/find-node-directory.js.

Simplifications.  Paths are absolute and have slashes (on Windows the separators are backslashes,
and a drive comes first).  The two arguments and the platform are inputs, as they are for the
tests of the code.  Logging is dropped.
-/
namespace Gyp

/-- An absolute path in the form `path.join` gives, from its names (innermost first). -/
def placeText (l : List Str) : Str := '/' :: joinWith ['/'] l.reverse

/-- `path.join(p, rel)` for an absolute `p`. -/
def jsJoin (p rel : Str) : Str := placeText (resolveIn p rel)

/-- `path.basename(p)`: the last name, without regard to slashes at the end. -/
def jsBasename (p : Str) : Str := (((splitOn '/' p).filter (· ≠ [])).getLast?).getD []

/-- `path.dirname(p)` for an absolute path without a slash at its end. -/
def jsDirname (p : Str) : Str :=
  match rsplit1 '/' p with
  | some (a, _) => if a = [] then c!"/" else a
  | none => c!"."

/-- lib/find-node-directory.js:6-61 `findNodeDirectory`. -/
def findNodeDirectory (scriptLocation execPath : Str) (win : Bool) : Str :=
  let npmParent := jsJoin scriptLocation c!"../../../.."
  if jsBasename npmParent = c!"deps" then jsJoin npmParent c!".."
  else if jsBasename npmParent = c!"node_modules" then
    if win then jsJoin npmParent c!".." else jsJoin npmParent c!"../.."
  else
    let nodeDir := jsDirname execPath
    let directoryUp := jsBasename nodeDir
    if directoryUp = c!"bin" then jsJoin nodeDir c!".."
    else if directoryUp = c!"Release" ∨ directoryUp = c!"Debug" then
      if win then jsJoin nodeDir c!".." else jsJoin nodeDir c!"../.."
    else []

end Gyp
