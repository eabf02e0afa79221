import Verif.Model.Path
/-
Qualified target names: `gyp/pylib/gyp/common.py`.
-/
namespace Gyp

/-- common.py:59-75 `ParseQualifiedTarget`: `[build_file, target, toolset]`,
`None` as `none`. -/
def ParseQualifiedTarget (target : Str) : Option Str × Str × Option Str :=
  let (buildFile, target) := match rsplit1 ':' target with
    | some (b, t) => (some b, t)
    | none => (none, target)
  match rsplit1 '#' target with
  | some (t, ts) => (buildFile, t, some ts)
  | none => (buildFile, target, none)

/-- common.py:127-134 `QualifiedTarget`; a `None` or empty toolset is not
written. -/
def QualifiedTarget (buildFile target : Str) (toolset : Option Str) : Str :=
  let fully := buildFile ++ ':' :: target
  match toolset with
  | none => fully
  | some ts => if ts = [] then fully else fully ++ '#' :: ts

/-- common.py:78-110 `ResolveTarget`.  `build_file` is a string that may be
empty (Python's falsy value); `toolset` may be `None`. -/
def ResolveTarget (cwd : List Str) (buildFile target : Str) (toolset : Option Str) :
    Str × Str × Option Str :=
  let (parsedFile, target, parsedToolset) := ParseQualifiedTarget target
  let buildFile :=
    match parsedFile with
    | none => buildFile
    | some pf =>
      if pf = [] then buildFile
      else if buildFile ≠ [] then
        let bf := normpath (pathJoin (dirname buildFile) pf)
        if !isAbs bf then RelativePath cwd bf dot else bf
      else pf
  let toolset :=
    match parsedToolset with
    | none => toolset
    | some ts => if ts = [] then toolset else some ts
  (buildFile, target, toolset)

/-- common.py:113-115 `BuildFile`. -/
def BuildFile (t : Str) : Option Str := (ParseQualifiedTarget t).1

/-- common.py:51-56 `FindQualifiedTargets`. -/
def FindQualifiedTargets (target : Str) (qualified : List Str) : List Str :=
  qualified.filter fun t => (ParseQualifiedTarget t).2.1 = target

/-- common.py:316-319 `BuildFileTargets`. -/
def BuildFileTargets (targets : List Str) (buildFile : Str) : List Str :=
  targets.filter fun t => BuildFile t = some buildFile

end Gyp
