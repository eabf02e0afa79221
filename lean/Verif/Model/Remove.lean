import Verif.Model.Release
/-
The commands `list`, `remove` and `clean`: lib/list.js, lib/remove.js, lib/clean.js.

Simplifications.  The disk is the list of the files and directories on it, each as its names from
the innermost outwards; there are no symbolic links, and every operation on something that exists
succeeds.  `devDir` and the working directory are absolute.  `semver.parse` is a parameter, as in
`Verif.Model.Release`; an option or argument that is absent is the empty string (the code only
tests whether it is truthy).  Logging is dropped.
-/
namespace Gyp

/-- The files and directories on the disk. -/
abbrev DiskTree := List (List Str)

/-- `path.resolve(dir, p)` for an absolute `dir`: names from the innermost outwards. -/
def resolveIn (dir p : Str) : List Str := (splitOn '/' (pathJoin dir p)).foldl (normStep true) []

/-- Something is there: `fs.stat` does not fail with ENOENT. -/
def DiskTree.has (T : DiskTree) (p : List Str) : Bool := p = [] || p ∈ T

/-- `fs.rm(p, { recursive: true, force: true })`. -/
def DiskTree.rm (T : DiskTree) (p : List Str) : DiskTree := T.filter fun q => !p.isSuffixOf q

/-- `fs.readdir(p)`. -/
def DiskTree.readdir (T : DiskTree) (p : List Str) : List Str :=
  T.filterMap fun q => if q.tail = p then q.head? else none

/-- lib/list.js:6-24 `list`. -/
def listCmd (devDir : Str) (T : DiskTree) : List Str :=
  let dir := resolveIn devDir []
  if T.has dir then (T.readdir dir).filter (· ≠ c!"current") else []

/-- What `remove` does. -/
inductive RemoveOut where
  /-- lib/remove.js:16-18 -/
  | noVersion
  /-- lib/remove.js:34 the message with the version -/
  | already (version : Str)
  | removed (after : DiskTree)
  deriving DecidableEq

/-- lib/remove.js:8-41 `remove`. -/
def removeCmd (parse : Str → Option Semver) (devDir arg target : Str) (T : DiskTree) : RemoveOut :=
  let version := if arg ≠ [] then arg else target
  if version = [] then .noVersion
  else
    let version := match parse version with
      | some v => v.text
      | none => version
    let versionPath := resolveIn devDir version
    if T.has versionPath then .removed (T.rm versionPath) else .already version

/-- lib/clean.js:6-12 `clean`. -/
def cleanCmd (cwd : Str) (T : DiskTree) : DiskTree := T.rm (resolveIn cwd c!"build")

end Gyp
