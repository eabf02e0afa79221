import Verif.Basic
/-
POSIX `os.path` functions used by gyp, and the path functions of
`gyp/pylib/gyp/common.py`.

Simplifications: the platform is POSIX (`os.sep = "/"`); there are no symbolic
links, so `os.path.realpath` is `os.path.abspath`; the current directory is a
parameter.  The Windows drive-letter branch (common.py:151-157) is not modelled.
-/
namespace Gyp

def dot : Str := ['.']
def dotdot : Str := ['.', '.']

/-- `os.path.isabs` (POSIX). -/
def isAbs (p : Str) : Bool := startsWith p ['/']

/-- `os.path.join(a, b)` (POSIX). -/
def pathJoin (a b : Str) : Str :=
  if isAbs b then b
  else if a = [] ∨ endsWith a ['/'] then a ++ b
  else a ++ '/' :: b

/-- `os.path.join(c, *cs)`. -/
def pathJoinAll : List Str → Str
  | [] => []
  | c :: cs => cs.foldl pathJoin c

/-- One step of the loop of POSIX `os.path.normpath`; `acc` is `new_comps`
reversed. -/
def normStep (abs : Bool) (acc : List Str) (comp : Str) : List Str :=
  if comp = [] ∨ comp = dot then acc
  else if comp ≠ dotdot ∨ (abs = false ∧ acc = []) ∨ acc.head? = some dotdot then
    comp :: acc
  else acc.tail

/-- Number of leading slashes POSIX `normpath` keeps: two only when there are
exactly two. -/
def initialSlashes (p : Str) : Nat :=
  if startsWith p ['/', '/'] && !startsWith p ['/', '/', '/'] then 2
  else if isAbs p then 1 else 0

/-- `os.path.normpath` (POSIX). -/
def normpath (p : Str) : Str :=
  if p = [] then dot
  else
    let comps := ((splitOn '/' p).foldl (normStep (isAbs p)) []).reverse
    let q := List.replicate (initialSlashes p) '/' ++ joinWith ['/'] comps
    if q = [] then dot else q

/-- `os.path.dirname` (POSIX): everything up to the last slash, with trailing
slashes removed unless it is all slashes. -/
def dirname (p : Str) : Str :=
  match rsplit1 '/' p with
  | none => []
  | some (a, _) =>
    let head := a ++ ['/']
    if head.all (· = '/') then head
    else (head.reverse.dropWhile (· = '/')).reverse

/-- The current directory as an absolute path string, from its components. -/
def cwdStr (cwd : List Str) : Str := '/' :: joinWith ['/'] cwd

/-- `os.path.abspath` / `os.path.realpath` without symlinks. -/
def abspath (cwd : List Str) (p : Str) : Str := normpath (pathJoin (cwdStr cwd) p)

/-- `os.path.commonprefix` of two lists (component-wise). -/
def commonPrefix : List Str → List Str → List Str
  | a :: as, b :: bs => if a = b then a :: commonPrefix as bs else []
  | _, _ => []

/-- common.py:137-177 `RelativePath(path, relative_to)` (memoisation dropped:
the function is pure). -/
def RelativePath (cwd : List Str) (path relativeTo : Str) : Str :=
  let pathSplit := splitOn '/' (abspath cwd path)
  let relSplit := splitOn '/' (abspath cwd relativeTo)
  let prefixLen := (commonPrefix pathSplit relSplit).length
  let relativeSplit :=
    List.replicate (relSplit.length - prefixLen) dotdot ++ pathSplit.drop prefixLen
  if relativeSplit.length = 0 then [] else pathJoinAll relativeSplit

/-- common.py:180-191 `InvertRelativePath(path, toplevel_dir)`; `none` is
Python's `None`. -/
def InvertRelativePath (cwd : List Str) (path : Str) (toplevel : Option Str) : Str :=
  if path = [] then path
  else
    let top := match toplevel with
      | none => dot
      | some t => t
    RelativePath cwd top (pathJoin top path)

/-- common.py:194-198 `FixIfRelativePath`. -/
def FixIfRelativePath (cwd : List Str) (path relativeTo : Str) : Str :=
  if isAbs path then path else RelativePath cwd path relativeTo

/-- common.py:201-206 `UnrelativePath(path, relative_to)`. -/
def UnrelativePath (path relativeTo : Str) : Str :=
  normpath (pathJoin (dirname relativeTo) path)

end Gyp
