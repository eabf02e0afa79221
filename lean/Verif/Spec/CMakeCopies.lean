import Verif.Spec.CMake
/-
What CMake should be told of the copies of a target.
-/
namespace Gyp.Spec

/-- A copy, as CMake should see it: the words of the command for its source and its destination, and the
paths that are followed to see whether it is to be done. -/
structure CopyRead where
  src : Str
  dst : Str
  inp : Str
  out : Str

/-- CMake is told of the copies of files and of directories: one command that makes all the destinations
from all the sources, by `cmake` itself (`cm`), one after the other in the directory `wd`; and a target
`name` that needs the destinations. -/
def RecordsCopies (cm wd target name : Str) (files dirs : List CopyRead) (told : List Told) : Prop :=
  ∃ cc ct, told = [⟨c!"add_custom_command", cc⟩, ⟨c!"add_custom_target", ct⟩] ∧
    byOption cc = ([],
      [(c!"OUTPUT", (files ++ dirs).map (·.out))] ++
      files.map (fun r => (c!"COMMAND", [cm, c!"-E", c!"copy", r.src, r.dst])) ++
      dirs.map (fun r => (c!"COMMAND", [cm, c!"-E", c!"copy_directory", r.src, r.dst])) ++
      [(c!"DEPENDS", (files ++ dirs).map (·.inp)), (c!"WORKING_DIRECTORY", [wd]),
       (c!"COMMENT", [c!"Copying", c!"for", target]), (c!"VERBATIM", [])]) ∧
    byOption ct = ([name], [(c!"DEPENDS", (files ++ dirs).map (·.out)),
      (c!"SOURCES", files.map (·.inp))])

end Gyp.Spec
