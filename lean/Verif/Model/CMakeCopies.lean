import Verif.Model.CMake
import Verif.Model.Splitext
/-
The copies of a target in CMake files: `gyp/pylib/gyp/generator/cmake.py`, `WriteCopies`.
-/
namespace Gyp

/-- One entry of `copies`: generator/cmake.py:491-492. -/
structure CCopy where
  files : List Str
  destination : Str

/-- generator/cmake.py:494-496 the destination of one file. -/
def copyDst (destination src : Str) : Str := pathJoin destination (basename (normpath src))

/-- generator/cmake.py:490-503 `gyp_inputs` and `gyp_outputs` of the files (`dirs` false) or of the
directories (`dirs` true): a directory is what ends in a slash. -/
def cmCopyPairs (dirs : Bool) (copies : List CCopy) : List (Str × Str) :=
  copies.flatMap fun c =>
    (c.files.filter fun src => decide (basename src = []) == dirs).map fun src =>
      (src, copyDst c.destination src)

/-- generator/cmake.py:466 `copy_name`. -/
def copyName (target : Str) : Str := target ++ c!"__copies"

/-- generator/cmake.py:507, 487-488 `inputs_name`. -/
def copyInVar (target : Str) (dirs : Bool) : Str :=
  copyName target ++ c!"__input" ++ (if dirs then c!"_dirs" else [])

/-- generator/cmake.py:510, 487-488 `outputs_name`. -/
def copyOutVar (target : Str) (dirs : Bool) : Str :=
  copyName target ++ c!"__output" ++ (if dirs then c!"_dirs" else [])

/-- generator/cmake.py:505-511 the lists, if there is anything in them. -/
def copyLists (target path : Str) (dirs : Bool) (copies : List CCopy) : Str :=
  let ps := cmCopyPairs dirs copies
  if ps = [] then []
  else setVariableList (copyInVar target dirs) (ps.map fun p => normjoinSource path p.1) ++
    setVariableList (copyOutVar target dirs) (ps.map fun p => normjoinSource path p.2)

/-- generator/cmake.py:517-519, 531-533 references to those lists that were written. -/
def copyRefs (var : Bool → Str) (copies : List CCopy) : Str :=
  (if cmCopyPairs false copies = [] then [] else c!" " ++ writeVariable (var false)) ++
  (if cmCopyPairs true copies = [] then [] else c!" " ++ writeVariable (var true))

/-- generator/cmake.py:522-529 the commands. -/
def copyCommands (dirs : Bool) (copies : List CCopy) : Str :=
  (cmCopyPairs dirs copies).flatMap fun p =>
    c!"COMMAND ${CMAKE_" ++ c!"COMMAND} -E " ++ (if dirs then c!"copy_directory" else c!"copy") ++ c!" " ++
      p.1 ++ c!" " ++ p.2 ++ c!"\n"

/-- generator/cmake.py:513-545 the `add_custom_command`. -/
def copyCommand (target path : Str) (copies : List CCopy) : Str :=
  c!"add_custom_command(\n" ++
  c!"OUTPUT" ++ copyRefs (copyOutVar target) copies ++ c!"\n" ++
  copyCommands false copies ++ copyCommands true copies ++
  c!"DEPENDS" ++ copyRefs (copyInVar target) copies ++ c!"\n" ++
  c!"WORKING_DIRECTORY " ++ listDirVar ++ c!"/" ++ path ++ c!"\n" ++
  c!"COMMENT Copying for " ++ target ++ c!"\n" ++
  c!"VERBATIM\n" ++
  c!")\n"

/-- generator/cmake.py:547-557 the `add_custom_target`. -/
def copyTarget (target : Str) (copies : List CCopy) : Str :=
  c!"add_custom_target(" ++ copyName target ++
  c!"\n  DEPENDS" ++ copyRefs (copyOutVar target) copies ++
  c!"\n  SOURCES" ++
  (if cmCopyPairs false copies = [] then [] else c!" " ++ writeVariable (copyInVar target false)) ++
  c!"\n)\n"

/-- generator/cmake.py:456-559 `WriteCopies`. -/
def cmCopies (target path : Str) (copies : List CCopy) : Str :=
  if copies.any (fun c => c.files ≠ []) then
    copyLists target path false copies ++ copyLists target path true copies ++
    copyCommand target path copies ++ copyTarget target copies
  else c!"add_custom_target(" ++ copyName target ++ c!")\n"

end Gyp
