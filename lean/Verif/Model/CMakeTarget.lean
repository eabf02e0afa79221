import Verif.Model.CMake
import Verif.Model.Splitext
import Verif.Model.Toposort
import Verif.Model.Targets
/-
The CMake generator, `gyp/pylib/gyp/generator/cmake.py`: the names of targets
(562-621) and what is written for a target (`WriteTarget`, 624-1137) after its actions,
rules and copies.

Not modelled: the settings of Xcode (659-661, 994-999, 1039-1048), the comment and the
variables `TARGET` and `TOOLSET` at the start, a target of unknown type (which is
skipped, 668-673), and the directory and name of the product (872-948), which are written
in between and concern other properties.
-/
namespace Gyp

/-- generator/cmake.py:566-569 the name with its toolset. -/
def cmToolsetName (name : Str) (toolset : Option Str) : Str :=
  match toolset with
  | some ts => if ts ≠ [] ∧ ts ≠ c!"target" then name ++ c!"_" ++ ts else name
  | none => name

/-- generator/cmake.py:562-570 `CreateCMakeTargetBaseName`. -/
def cmBaseName (q : Str) : Str :=
  let (_, name, toolset) := ParseQualifiedTarget q
  cmakeTargetName (cmToolsetName name toolset)

/-- generator/cmake.py:573-581 `CreateCMakeTargetFullName` (a target with no file makes
the program fail; here the file is then empty). -/
def cmFullName (q : Str) : Str :=
  let (file, name, toolset) := ParseQualifiedTarget q
  cmakeTargetName (cmToolsetName (file.getD [] ++ c!":" ++ name) toolset)

/-- generator/cmake.py:605-615 the loop of `CMakeNamer.__init__`: the base names seen and
those seen twice. -/
def cmConflicts : List Str → List Str → List Str → List Str
  | [], _, conflicting => conflicting
  | q :: qs, seen, conflicting =>
    if cmBaseName q ∉ seen then cmConflicts qs (cmBaseName q :: seen) conflicting
    else cmConflicts qs seen (cmBaseName q :: conflicting)

/-- generator/cmake.py:617-621 `CreateCMakeTargetName` of the namer made for `targets`. -/
def cmName (targets : List Str) (q : Str) : Str :=
  if cmBaseName q ∈ cmConflicts targets [] [] then cmFullName q else cmBaseName q

/-- The groups the sources of a target are put in: generator/cmake.py:720-724. -/
inductive SrcKind
  | asm
  | c
  | cxx
  | linkable
  | other
  deriving DecidableEq

/-- generator/cmake.py:66-73, 91-93, 726-739 the group of a source, by its extension. -/
def srcKind (src : Str) : SrcKind :=
  let ext := (splitext src).2
  if ext = c!".s" ∨ ext = c!".S" then .asm
  else if ext = c!".c" then .c
  else if ext = c!".cc" ∨ ext = c!".cpp" ∨ ext = c!".cxx" then .cxx
  else if endsWith ext c!".o" then .linkable
  else .other

/-- A target, as far as it is written here.  `deps` are the dependencies in order, each
with its CMake name and its type. -/
structure CTarget where
  name : Str
  type : Str
  path : Str
  sources : List Str := []
  extraSources : List (Str × Str) := []
  extraDeps : List Str := []
  libraryDirs : Option (List Str) := none
  inAll : Bool := true
  includes : List Str := []
  defines : Option (List Str) := none
  cflags : List Str := []
  cflagsC : List Str := []
  cflagsCC : List Str := []
  ldflags : Option (List Str) := none
  deps : List (Str × Option Str) := []
  libraries : List Str := []
  circular : Bool := true
  mac : Bool := false

/-- generator/cmake.py:725-755 all sources with their groups: those of the gyp file, then
those made by actions and rules. -/
def CTarget.items (t : CTarget) : List (SrcKind × Str) :=
  t.sources.map (fun s => (srcKind s, normjoinPath t.path s)) ++
    t.extraSources.map (fun p => (srcKind p.2, p.1))

/-- generator/cmake.py:720-755 one of the five lists. -/
def CTarget.group (t : CTarget) (k : SrcKind) : List Str :=
  (t.items.filter fun i => i.1 = k).map (·.2)

/-- generator/cmake.py:757-780 the name of the variable of a group. -/
def CTarget.srcVar (t : CTarget) : SrcKind → Str
  | .asm => t.name ++ c!"__asm_srcs"
  | .c => t.name ++ c!"__c_srcs"
  | .cxx => t.name ++ c!"__cxx_srcs"
  | .linkable => t.name ++ c!"__linkable_srcs"
  | .other => t.name ++ c!"__other_srcs"

/-- generator/cmake.py:757-780 the order in which the groups are written. -/
def srcKinds : List SrcKind := [.asm, .c, .cxx, .linkable, .other]

/-- generator/cmake.py:757-780 the variables of the groups that are not empty. -/
def CTarget.sourceText (t : CTarget) : Str :=
  srcKinds.flatMap fun k => if t.group k = [] then [] else setVariableList (t.srcVar k) (t.group k)

/-- generator/cmake.py:784-792 whether a source has to be made up. -/
def CTarget.dummy (t : CTarget) : Bool := t.type = c!"executable" && t.items.isEmpty

/-- generator/cmake.py:793 -/
def CTarget.dummyVar (t : CTarget) : Str := t.name ++ c!"__dummy_srcs"

/-- generator/cmake.py:792-803 -/
def CTarget.dummyText (t : CTarget) : Str :=
  if t.dummy then
    setVariable t.dummyVar (c!"${obj}.${TOOLSET}" ++ c!"/${TARGET}/genc/dummy.c") ++
    c!"if(NOT EXISTS \"" ++ writeVariable t.dummyVar ++ c!"\")\n" ++
    c!"  file(WRITE \"" ++ writeVariable t.dummyVar ++ c!"\" \"\")\n" ++
    c!"endif()\n"
  else []

/-- generator/cmake.py:812-819 -/
def CTarget.libraryDirText (t : CTarget) : Str :=
  match t.libraryDirs with
  | none => []
  | some ds => c!"link_directories(" ++
      (ds.flatMap fun d => c!" " ++ normjoinPath t.path d ++ c!"\n") ++ c!")\n"

/-- generator/cmake.py:227-233 the command that makes a target of a type, its modifier. -/
def cmTypes : List (Str × Str × Option Str) :=
  [(c!"executable", c!"add_executable", none),
   (c!"static_library", c!"add_library", some c!"STATIC"),
   (c!"shared_library", c!"add_library", some c!"SHARED"),
   (c!"loadable_module", c!"add_library", some c!"MODULE"),
   (c!"none", c!"add_custom_target", some c!"SOURCES")]

/-- generator/cmake.py:825-827 the modifier, with a blank. -/
def modifierText (modifier : Option Str) : Str :=
  match modifier with
  | some m => c!" " ++ m
  | none => []

/-- generator/cmake.py:821-842 the target with its sources. -/
def CTarget.declareText (t : CTarget) (command : Str) (modifier : Option Str) : Str :=
  command ++ c!"(" ++ t.name ++ modifierText modifier ++
  (srcKinds.flatMap fun k =>
    if t.group k = [] then [] else c!" " ++ writeVariable (t.srcVar k)) ++
  (if t.dummy then c!" " ++ writeVariable t.dummyVar else []) ++
  c!")\n"

/-- `SetTargetProperty` with a text for the values, which is gone through by character:
generator/cmake.py:170-180, 848. -/
def setTargetText (target prop value : Str) : Str :=
  setTargetProperty target prop (value.map fun c => [c]) []

/-- generator/cmake.py:844-852 -/
def CTarget.excludeText (t : CTarget) : Str :=
  let value := if t.inAll then c!"FALSE" else c!"TRUE"
  setTargetText t.name c!"EXCLUDE_FROM_ALL" value ++
    t.extraDeps.flatMap fun d => setTargetText d c!"EXCLUDE_FROM_ALL" value

/-- generator/cmake.py:855-858 -/
def CTarget.languageText (t : CTarget) : Str :=
  if t.type ≠ c!"none" ∧ t.group .c = [] ∧ t.group .cxx = [] then
    setTargetProperty t.name c!"LINKER_LANGUAGE" [c!"C"] []
  else []

/-- generator/cmake.py:860-864 sources that are not compiled. -/
def CTarget.headerText (t : CTarget) : Str :=
  if t.type ≠ c!"none" ∧ t.group .other ≠ [] then
    c!"set_source_" ++ c!"files_properties(" ++ writeVariable (t.srcVar .other) ++
      c!" PROPERTIES " ++ c!"HEADER_FILE_ONLY" ++ c!" \"TRUE\")\n"
  else []

/-- generator/cmake.py:866-870 object files.  The variable that is written is that of the
sources that are not compiled; if there are none, its name is `None` and writing it fails
(`none` here). -/
def CTarget.objectText (t : CTarget) : Option Str :=
  if t.type ≠ c!"none" ∧ t.group .linkable ≠ [] then
    if t.group .other = [] then none
    else some (c!"set_source_" ++ c!"files_properties(" ++ writeVariable (t.srcVar .other) ++
      c!" PROPERTIES " ++ c!"EXTERNAL_OBJECT" ++ c!" \"TRUE\")\n")
  else some []

/-- generator/cmake.py:950-967 -/
def CTarget.includeText (t : CTarget) : Str :=
  if t.type ≠ c!"none" ∧ t.includes ≠ [] then
    setVariableList (t.name ++ c!"__include_dirs") (t.includes.map (normjoinSource t.path)) ++
    c!"set_property(TARGET " ++ t.name ++ c!" APPEND PROPERTY " ++ c!"INCLUDE_DIRECTORIES " ++
    writeVariable (t.name ++ c!"__include_dirs") ++ c!")\n"
  else []

/-- generator/cmake.py:969-974 -/
def CTarget.defineText (t : CTarget) : Str :=
  match t.defines with
  | some ds =>
    if t.type ≠ c!"none" then setTargetProperty t.name (c!"COMPILE_" ++ c!"DEFINITIONS") ds c!";"
    else []
  | none => []

/-- generator/cmake.py:991-1032 the flags of the compiler. -/
def CTarget.flagText (t : CTarget) : Str :=
  if t.type = c!"none" then []
  else if (t.cflagsC = [] ∨ t.group .c = []) ∧ (t.cflagsCC = [] ∨ t.group .cxx = []) then
    setTargetProperty t.name c!"COMPILE_FLAGS" t.cflags c!" "
  else if t.group .c ≠ [] ∧ ¬ (t.group .asm ≠ [] ∨ t.group .cxx ≠ []) then
    setTargetProperty t.name c!"COMPILE_FLAGS" (t.cflags ++ t.cflagsC) c!" "
  else if t.group .cxx ≠ [] ∧ ¬ (t.group .asm ≠ [] ∨ t.group .c ≠ []) then
    setTargetProperty t.name c!"COMPILE_FLAGS" (t.cflags ++ t.cflagsCC) c!" "
  else
    (if t.group .asm ≠ [] ∧ t.cflags ≠ [] then
      setFilesProperty (t.srcVar .asm) c!"COMPILE_FLAGS" t.cflags c!" " else []) ++
    (if t.group .c ≠ [] ∧ (t.cflags ≠ [] ∨ t.cflagsC ≠ []) then
      setFilesProperty (t.srcVar .c) c!"COMPILE_FLAGS" (t.cflags ++ t.cflagsC) c!" " else []) ++
    (if t.group .cxx ≠ [] ∧ (t.cflags ≠ [] ∨ t.cflagsCC ≠ []) then
      setFilesProperty (t.srcVar .cxx) c!"COMPILE_FLAGS" (t.cflags ++ t.cflagsCC) c!" " else [])

/-- generator/cmake.py:1034-1037 -/
def CTarget.linkFlagText (t : CTarget) : Str :=
  match t.ldflags with
  | some fs =>
    if t.type ≠ c!"none" then setTargetProperty t.name c!"LINK_FLAGS" fs c!" " else []
  | none => []

/-- generator/cmake.py:1056-1072 the dependencies by type. -/
def CTarget.staticDeps (t : CTarget) : List Str :=
  (t.deps.filter fun d => d.2 = some c!"static_library").map (·.1)

def CTarget.sharedDeps (t : CTarget) : List Str :=
  (t.deps.filter fun d => d.2 = some c!"shared_library").map (·.1)

def CTarget.otherDeps (t : CTarget) : List Str :=
  (t.deps.filter fun d => d.2 ≠ some c!"static_library" ∧ d.2 ≠ some c!"shared_library").map (·.1)

/-- generator/cmake.py:1083-1085 a name on its own line. -/
def depLines (ds : List Str) : Str := (uniquer id ds).flatMap fun d => c!"  " ++ d ++ c!"\n"

/-- generator/cmake.py:1074-1086 -/
def CTarget.extraDepText (t : CTarget) : Str :=
  if t.deps ≠ [] then
    t.extraDeps.flatMap fun x => c!"add_dependencies(" ++ x ++ c!"\n" ++
      depLines t.staticDeps ++ depLines t.sharedDeps ++ depLines t.otherDeps ++ c!")\n"
  else []

/-- generator/cmake.py:1088 -/
def CTarget.linkable (t : CTarget) : Bool :=
  t.type = c!"executable" || t.type = c!"loadable_module" || t.type = c!"shared_library"

/-- generator/cmake.py:1089-1104 -/
def CTarget.depText (t : CTarget) : Str :=
  let others := t.otherDeps ++ t.extraDeps
  if others ≠ [] ∨ (t.linkable = false ∧ (t.staticDeps ≠ [] ∨ t.sharedDeps ≠ [])) then
    c!"add_dependencies(" ++ t.name ++ c!"\n" ++ depLines others ++
    (if t.linkable = false then depLines t.staticDeps ++ depLines t.sharedDeps else []) ++ c!")\n"
  else []

/-- generator/cmake.py:76-78, 1131 `RemovePrefix(lib, "$(SDKROOT)")`. -/
def dropSdkRoot (lib : Str) : Str :=
  if startsWith lib c!"$(SDKROOT)" then lib.drop c!"$(SDKROOT)".length else lib

/-- generator/cmake.py:1106-1134 -/
def CTarget.linkText (t : CTarget) : Str :=
  let libs := t.libraries.filter (· ≠ [])
  if t.linkable = true ∧ (libs ≠ [] ∨ t.staticDeps ≠ [] ∨ t.sharedDeps ≠ []) then
    let grouped := t.circular && decide (1 < t.staticDeps.length) && !t.mac
    c!"target_link_" ++ c!"libraries(" ++ t.name ++ c!"\n" ++
    (if t.staticDeps ≠ [] then
      (if grouped then c!"-Wl,--start-group\n" else []) ++ depLines t.staticDeps ++
      (if grouped then c!"-Wl,--end-group\n" else []) else []) ++
    depLines t.sharedDeps ++
    ((uniquer id libs).flatMap fun l => c!"  \"" ++ dropSdkRoot l ++ c!"\"\n") ++
    c!")\n"
  else []

/-- generator/cmake.py:715-1137 what is written for a target after its actions, rules and
copies, without the parts named at the top; `none` where the program fails. -/
def CTarget.text (t : CTarget) : Option Str :=
  match cmTypes.find? (fun e => e.1 = t.type), t.objectText with
  | some (_, command, modifier), some objects =>
    some (t.sourceText ++ t.dummyText ++ t.libraryDirText ++ t.declareText command modifier ++
      t.excludeText ++ t.languageText ++ t.headerText ++ objects ++ t.includeText ++
      t.defineText ++ t.flagText ++ t.linkFlagText ++ t.extraDepText ++ t.depText ++ t.linkText)
  | _, _ => none

end Gyp
