import Verif.Basic
import Mathlib.Logic.Relation
/-
`WriteOnDiff` (gyp/pylib/gyp/common.py:330-416) as a transition system over the two
directory entries it touches.  Every system call is one step, so every state of the
system is a possible crash point; every system call may also fail.  Simplifications:
no other process touches the two names, and data written to a file is visible to
later readers (no power failure).
-/
namespace Gyp

abbrev Bytes := List UInt8

/-- A file: its identity (inode) and its contents. -/
structure File where
  ino : Nat
  data : Bytes
deriving DecidableEq

/-- Where the program is. -/
inductive WPc where
  | start            -- before `tempfile.mkstemp`
  | opened           -- before `os.fdopen`
  | fdopenFailed     -- in the handler of lines 361-364
  | writing (rest : List Bytes)  -- the caller still has these chunks to write
  | comparing        -- temporary file closed, before `filecmp.cmp`
  | same             -- before `os.unlink(self.tmp_path)`, line 385
  | chmod            -- before `os.chmod`
  | replacing        -- before the `sys.platform == "win32"` test
  | renaming         -- before `os.rename`
  | cleanup          -- in the handler of lines 408-411
  | raised           -- an exception left the writer
  | returned         -- `close` returned
deriving DecidableEq

/-- The directory entries, the data still buffered by the file object, and the
program counter. -/
structure WState where
  target : Option File
  tmp : Option File
  buffer : Bytes
  pc : WPc

/-- One step.  `win` is `sys.platform == "win32"`, `ino` the identity of the temporary
file, `chunks` the encoded strings passed to `write`, in order. -/
inductive WStep (win : Bool) (ino : Nat) (chunks : List Bytes) : WState → WState → Prop
  /-- common.py:354-358 `mkstemp` creates an empty file under a new name -/
  | mkstemp {t b} : WStep win ino chunks ⟨t, none, b, .start⟩ ⟨t, some ⟨ino, []⟩, [], .opened⟩
  | mkstempFails {t b} : WStep win ino chunks ⟨t, none, b, .start⟩ ⟨t, none, b, .raised⟩
  /-- common.py:360 -/
  | fdopen {t m b} : WStep win ino chunks ⟨t, m, b, .opened⟩ ⟨t, m, b, .writing chunks⟩
  | fdopenFails {t m b} : WStep win ino chunks ⟨t, m, b, .opened⟩ ⟨t, m, b, .fdopenFailed⟩
  /-- common.py:363-364 -/
  | fdopenUnlink {t m b} :
      WStep win ino chunks ⟨t, m, b, .fdopenFailed⟩ ⟨t, none, b, .raised⟩
  | fdopenUnlinkFails {t m b} :
      WStep win ino chunks ⟨t, m, b, .fdopenFailed⟩ ⟨t, m, b, .raised⟩
  /-- common.py:413-414 `write` goes to the buffer of the file object -/
  | write {t m b c cs} : WStep win ino chunks
      ⟨t, m, b, .writing (c :: cs)⟩ ⟨t, m, b ++ c, .writing cs⟩
  | writeFails {t m b cs} : WStep win ino chunks
      ⟨t, m, b, .writing cs⟩ ⟨t, m, b, .raised⟩
  /-- the file object may write out any part of its buffer at any time -/
  | flush {t i d b1 b2 cs} : WStep win ino chunks
      ⟨t, some ⟨i, d⟩, b1 ++ b2, .writing cs⟩ ⟨t, some ⟨i, d ++ b1⟩, b2, .writing cs⟩
  /-- common.py:373 `self.tmp_file.close()` writes out the rest -/
  | close {t i d b} : WStep win ino chunks
      ⟨t, some ⟨i, d⟩, b, .writing []⟩ ⟨t, some ⟨i, d ++ b⟩, [], .comparing⟩
  | closeFails {t i d b b1 b2} (h : b = b1 ++ b2) : WStep win ino chunks
      ⟨t, some ⟨i, d⟩, b, .writing []⟩ ⟨t, some ⟨i, d ++ b1⟩, b2, .cleanup⟩
  /-- common.py:377 `filecmp.cmp(.., False)` compares contents -/
  | cmpSame {j i d b} : WStep win ino chunks
      ⟨some ⟨j, d⟩, some ⟨i, d⟩, b, .comparing⟩ ⟨some ⟨j, d⟩, some ⟨i, d⟩, b, .same⟩
  | cmpDifferent {j e i d b} (h : e ≠ d) : WStep win ino chunks
      ⟨some ⟨j, e⟩, some ⟨i, d⟩, b, .comparing⟩ ⟨some ⟨j, e⟩, some ⟨i, d⟩, b, .chmod⟩
  /-- common.py:378-380 `ENOENT` counts as different -/
  | cmpMissing {m b} : WStep win ino chunks
      ⟨none, m, b, .comparing⟩ ⟨none, m, b, .chmod⟩
  | cmpFails {t m b} : WStep win ino chunks
      ⟨t, m, b, .comparing⟩ ⟨t, m, b, .cleanup⟩
  /-- common.py:385 -/
  | unlink {t m b} : WStep win ino chunks ⟨t, m, b, .same⟩ ⟨t, none, b, .returned⟩
  | unlinkFails {t m b} : WStep win ino chunks ⟨t, m, b, .same⟩ ⟨t, m, b, .cleanup⟩
  /-- common.py:399-401 -/
  | chmod {t m b} : WStep win ino chunks ⟨t, m, b, .chmod⟩ ⟨t, m, b, .replacing⟩
  | chmodFails {t m b} : WStep win ino chunks ⟨t, m, b, .chmod⟩ ⟨t, m, b, .cleanup⟩
  /-- common.py:402-406 -/
  | noRemove {t m b} (h : win = false ∨ t = none) : WStep win ino chunks
      ⟨t, m, b, .replacing⟩ ⟨t, m, b, .renaming⟩
  | remove {f m b} (h : win = true) : WStep win ino chunks
      ⟨some f, m, b, .replacing⟩ ⟨none, m, b, .renaming⟩
  | removeFails {f m b} (h : win = true) : WStep win ino chunks
      ⟨some f, m, b, .replacing⟩ ⟨some f, m, b, .cleanup⟩
  /-- common.py:407 `os.rename` replaces the target atomically -/
  | rename {t m b} : WStep win ino chunks ⟨t, m, b, .renaming⟩ ⟨m, none, b, .returned⟩
  | renameFails {t m b} : WStep win ino chunks ⟨t, m, b, .renaming⟩ ⟨t, m, b, .cleanup⟩
  /-- common.py:410-411 -/
  | cleanup {t m b} : WStep win ino chunks ⟨t, m, b, .cleanup⟩ ⟨t, none, b, .raised⟩
  | cleanupFails {t m b} : WStep win ino chunks ⟨t, m, b, .cleanup⟩ ⟨t, m, b, .raised⟩

/-- The states that can be on disk when the process is killed. -/
def WReach (win : Bool) (ino : Nat) (chunks : List Bytes) (old : Option File) (s : WState) : Prop :=
  Relation.ReflTransGen (WStep win ino chunks) ⟨old, none, [], .start⟩ s

end Gyp
