import Verif.Spec.CMake
/-
What CMake makes of the commands it is told (`cmake-commands(7)`, `cmake-properties(7)`):
targets, their files and properties, the properties of files, what is linked and what is
made first.
-/
namespace Gyp.Spec

/-- The command that makes a target of a gyp type, and the keywords after its name. -/
def madeBy (type : Str) : Option (Str × List Str) :=
  if type = c!"executable" then some (c!"add_executable", [])
  else if type = c!"static_library" then some (c!"add_library", [c!"STATIC"])
  else if type = c!"shared_library" then some (c!"add_library", [c!"SHARED"])
  else if type = c!"loadable_module" then some (c!"add_library", [c!"MODULE"])
  else if type = c!"none" then some (c!"add_custom_target", [c!"SOURCES"])
  else none

/-- The commands that make targets. -/
def makers : List Str := [c!"add_executable", c!"add_library", c!"add_custom_target"]

def targetsMade (told : List Told) : List Told := told.filter fun c => c.command ∈ makers

/-- The value that a command gives a property of a target. -/
def targetSetting (target prop : Str) (c : Told) : Option Str :=
  if c.command = c!"set_target_" ++ c!"properties" then
    match c.args with
    | [t, w, n, v] => if t = target ∧ w = c!"PROPERTIES" ∧ n = prop then some v else none
    | _ => none
  else none

/-- A property of a target: the last value it is given. -/
def targetProp (told : List Told) (target prop : Str) : Option Str :=
  (told.filterMap (targetSetting target prop)).getLast?

/-- The value that a command gives a property of a file. -/
def fileSetting (file prop : Str) (c : Told) : Option Str :=
  if c.command = c!"set_source_" ++ c!"files_properties" then
    match c.args.dropWhile (· ≠ c!"PROPERTIES") with
    | [_, n, v] =>
      if file ∈ c.args.takeWhile (· ≠ c!"PROPERTIES") ∧ n = prop then some v else none
    | _ => none
  else none

/-- A property of a file: the last value it is given. -/
def fileProp (told : List Told) (file prop : Str) : Option Str :=
  (told.filterMap (fileSetting file prop)).getLast?

/-- The words of a text, between blanks. -/
def blankWords (s : Str) : List Str := (splitOn ' ' s).filter (· ≠ [])

/-- The flags a file of a target is compiled with: those of the target, then those of the
file. -/
def flagsFor (told : List Told) (target file : Str) : List Str :=
  blankWords ((targetProp told target c!"COMPILE_FLAGS").getD []) ++
    blankWords ((fileProp told file c!"COMPILE_FLAGS").getD [])

/-- The elements added to a property that is a list with
`set_property(TARGET t APPEND PROPERTY p ...)`. -/
def appended (told : List Told) (target prop : Str) : List Str :=
  told.flatMap fun c =>
    if c.command = c!"set_property" ∧
        c.args.take 5 = [c!"TARGET", target, c!"APPEND", c!"PROPERTY", prop]
    then c.args.drop 5 else []

/-- The target is made after another. -/
def MadeAfter (told : List Told) (target other : Str) : Prop :=
  ∃ args, ⟨c!"add_dependencies", target :: args⟩ ∈ told ∧ other ∈ args

/-- What the target is linked with, in order. -/
def linkedWith (told : List Told) (target : Str) : List Str :=
  told.flatMap fun c =>
    if c.command = c!"target_link_" ++ c!"libraries" ∧ c.args.head? = some target
    then c.args.tail else []

end Gyp.Spec
