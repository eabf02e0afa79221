import Verif.Model.Path
import Verif.Model.ShellQuote
/-
The CMake generator, `gyp/pylib/gyp/generator/cmake.py`: how values are written,
how paths are made, and the commands written for actions.

Text written with `output.write` is returned.  Simplification: the directories of
the outputs of an action are kept by the program in a Python set (cmake.py:279),
whose order is not fixed; here they are a parameter `dirs`, and
`IsOutputDirs` says which lists it may be.
-/
namespace Gyp

/-- generator/cmake.py:61 `FULL_PATH_VARS`. -/
def fullPathVars : List Str :=
  [c!"${CMAKE_CURRENT_" ++ c!"LIST_DIR}", c!"${builddir}", c!"${obj}"]

/-- generator/cmake.py:110 the text `"${CMAKE_CURRENT_LIST_DIR}"`. -/
def listDirVar : Str := c!"${CMAKE_CURRENT_" ++ c!"LIST_DIR}"

/-- generator/cmake.py:96-111 `NormjoinPathForceCMakeSource(base_path, rel_path)`. -/
def normjoinSource (base rel : Str) : Str :=
  if isAbs rel then rel
  else if fullPathVars.any (startsWith rel) then rel
  else pathJoin listDirVar (normpath (pathJoin base rel))

/-- generator/cmake.py:114-122 `NormjoinPath(base_path, rel_path)`. -/
def normjoinPath (base rel : Str) : Str :=
  if startsWith rel c!"$" && !startsWith rel c!"${configuration}" then rel
  else normpath (pathJoin base rel)

/-- generator/cmake.py:125-141 `CMakeStringEscape(a)`. -/
def cmakeEscape (a : Str) : Str :=
  replaceChar '"' ['\\', '"'] (replaceChar ';' ['\\', ';'] (replaceChar '\\' ['\\', '\\'] a))

/-- generator/cmake.py:151-154 the loop over the values of a property. -/
def propertyValues (values : List Str) (sep : Str) : Str :=
  values.flatMap fun v => cmakeEscape v ++ sep

/-- generator/cmake.py:144-154 `SetFileProperty`. -/
def setFileProperty (source prop : Str) (values : List Str) (sep : Str) : Str :=
  c!"set_source_files_properties(" ++ source ++ c!" PROPERTIES " ++ prop ++ c!" \"" ++
    propertyValues values sep ++ c!"\")\n"

/-- generator/cmake.py:212-217 `WriteVariable` (the text put before it is written
by the callers here). -/
def writeVariable (name : Str) : Str := c!"${" ++ name ++ c!"}"

/-- generator/cmake.py:157-167 `SetFilesProperty`. -/
def setFilesProperty (var prop : Str) (values : List Str) (sep : Str) : Str :=
  c!"set_source_files_properties(" ++ writeVariable var ++ c!" PROPERTIES " ++ prop ++ c!" \"" ++
    propertyValues values sep ++ c!"\")\n"

/-- generator/cmake.py:170-180 `SetTargetProperty`. -/
def setTargetProperty (target prop : Str) (values : List Str) (sep : Str) : Str :=
  c!"set_target_properties(" ++ target ++ c!" PROPERTIES " ++ prop ++ c!" \"" ++
    propertyValues values sep ++ c!"\")\n"

/-- generator/cmake.py:183-189 `SetVariable`. -/
def setVariable (name value : Str) : Str :=
  c!"set(" ++ name ++ c!" \"" ++ cmakeEscape value ++ c!"\")\n"

/-- generator/cmake.py:192-202 `SetVariableList`. -/
def setVariableList (name : Str) (values : List Str) : Str :=
  match values with
  | [] => setVariable name []
  | [v] => setVariable name v
  | _ => c!"list(APPEND " ++ name ++ c!"\n  \"" ++
      joinWith c!"\"\n  \"" (values.map cmakeEscape) ++ c!"\")\n"

/-- generator/cmake.py:205-209 `UnsetVariable`. -/
def unsetVariable (name : Str) : Str := c!"unset(" ++ name ++ c!")\n"

/-- generator/cmake.py:236-244 `StringToCMakeTargetName`. -/
def cmakeTargetName (a : Str) : Str :=
  a.map fun c => if c ∈ c!" /():.\"" then '_' else c

/-- One entry of `actions`: generator/cmake.py:258-313. -/
structure CAction where
  name : Str
  inputs : List Str
  outputs : List Str
  action : List Str
  message : Option Str := none
  asSources : Bool := false

/-- generator/cmake.py:260 `action_target_name`. -/
def actionTarget (target : Str) (a : CAction) : Str :=
  target ++ c!"__" ++ cmakeTargetName a.name

/-- generator/cmake.py:263 `inputs_name`. -/
def cmInputs (target : Str) (a : CAction) : Str := actionTarget target a ++ c!"__input"

/-- generator/cmake.py:274 `outputs_name`. -/
def cmOutputs (target : Str) (a : CAction) : Str := actionTarget target a ++ c!"__output"

/-- generator/cmake.py:279 `dirs`: a set of the directories of the outputs, without the
empty one, in any order. -/
def IsOutputDirs (outputs dirs : List Str) : Prop :=
  dirs.Nodup ∧ ∀ d, d ∈ dirs ↔ d ≠ [] ∧ ∃ o ∈ outputs, dirname o = d

/-- generator/cmake.py:289-293 the commands making the directories. -/
def makeDirs (dirs : List Str) : Str :=
  dirs.flatMap fun d => c!"  COMMAND ${CMAKE_" ++ c!"COMMAND} -E make_directory " ++ d ++ c!"\n"

/-- generator/cmake.py:307-311 the text after `COMMENT`. -/
def actionComment (target : Str) (a : CAction) : Str :=
  match a.message with
  | some m => m
  | none => actionTarget target a

/-- generator/cmake.py:284-315 the `add_custom_command` of one action. -/
def cmCommand (target path : Str) (dirs : List Str) (a : CAction) : Str :=
  c!"add_custom_command(OUTPUT " ++ writeVariable (cmOutputs target a) ++ c!"\n" ++
  makeDirs dirs ++
  c!"  COMMAND " ++ EncodePOSIXShellList a.action ++ c!"\n" ++
  c!"  DEPENDS " ++ writeVariable (cmInputs target a) ++ c!"\n" ++
  c!"  WORKING_DIRECTORY " ++ listDirVar ++ c!"/" ++ path ++ c!"\n" ++
  c!"  COMMENT " ++ actionComment target a ++ c!"\n" ++
  c!"  VERBATIM\n" ++
  c!")\n"

/-- generator/cmake.py:317-324 the `add_custom_target` of one action. -/
def actionCustomTarget (target : Str) (a : CAction) : Str :=
  c!"add_custom_target(" ++ actionTarget target a ++
  c!"\n  DEPENDS " ++ writeVariable (cmOutputs target a) ++
  c!"\n  SOURCES " ++ writeVariable (cmInputs target a) ++
  c!"\n)\n"

/-- generator/cmake.py:259-324 all that is written for one action. -/
def cmAction (target path : Str) (dirs : List Str) (a : CAction) : Str :=
  setVariableList (cmInputs target a) (a.inputs.map (normjoinSource path)) ++
  setVariableList (cmOutputs target a) (a.outputs.map (normjoinSource path)) ++
  cmCommand target path dirs a ++
  actionCustomTarget target a

/-- generator/cmake.py:247-326 `WriteActions`: the text; each action with the order its
set of directories came out in. -/
def cmActions (target path : Str) (actions : List (List Str × CAction)) : Str :=
  actions.flatMap fun p => cmAction target path p.1 p.2

/-- generator/cmake.py:281-282 what is appended to `extra_sources`. -/
def actionSources (path : Str) (actions : List CAction) : List (Str × Str) :=
  actions.flatMap fun a =>
    if a.asSources then (a.outputs.map (normjoinSource path)).zip a.outputs else []

/-- generator/cmake.py:326 what is appended to `extra_deps`. -/
def actionDeps (target : Str) (actions : List CAction) : List Str :=
  actions.map (actionTarget target)

end Gyp
