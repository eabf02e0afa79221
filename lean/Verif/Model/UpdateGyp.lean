import Verif.Model.Path
/-
`update-gyp.py`: the guarded extraction of a downloaded archive.

Simplifications: members are plain files and directories (a symbolic link in the
archive, through which a later member could be written elsewhere, is not
modelled); `tarfile.extractall` writes every member to `os.path.join(path, name)`
and does not fail.
-/
namespace Gyp

/-- `os.path.commonprefix` of two strings: character by character. -/
def commonPrefixText : Str → Str → Str
  | a :: as, b :: bs => if a = b then a :: commonPrefixText as bs else []
  | _, _ => []

/-- update-gyp.py:40-47 `is_within_directory(directory, target)` -/
def isWithinDirectory (cwd : List Str) (directory target : Str) : Bool :=
  let absDirectory := abspath cwd directory
  let absTarget := abspath cwd target
  decide (commonPrefixText absDirectory absTarget = absDirectory)

/-- What an extraction did: the paths written, and whether it raised. -/
structure Extraction where
  written : List Str
  raised : Bool
  deriving DecidableEq, Repr

/-- update-gyp.py:49-57 `safe_extract(tar, path)`: all members are tested before
the first one is written. -/
def safeExtract (cwd : List Str) (path : Str) (members : List Str) : Extraction :=
  if members.all fun name => isWithinDirectory cwd path (pathJoin path name) then
    ⟨members.map (pathJoin path), false⟩
  else ⟨[], true⟩

end Gyp
