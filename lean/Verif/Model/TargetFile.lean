import Verif.Model.Includes
import Verif.Model.Load
import Verif.Model.Targets
/-
Loading one build file with targets: `gyp/pylib/gyp/input.py` `ProcessToolsetsInDict` and
`LoadTargetBuildFile` (without the recursion into dependencies, which is C28's subject).

Simplifications: values are immutable trees, so a deep copy is the value itself (C59);
of several malformed parts of a dictionary another one may be reported.
-/
namespace Gyp

/-- What loading a build file with targets can fail with. -/
inductive TFErr where
  /-- `targets` is not a list, or has an item that is not a dictionary: `TypeError` or worse -/
  | badTargets
  /-- `toolsets` is neither a list nor a string -/
  | badToolsets
  /-- `conditions` cannot be iterated: `TypeError` -/
  | badConditions
  /-- input.py:432 `Unable to find targets in build file ...` -/
  | noTargets (path : Str)
  /-- input.py:409 `... must not contain included_files key` -/
  | includedFiles (path : Str)
  /-- `target_defaults` is not a dictionary -/
  | badDefaults
  /-- `dependencies` of a target is not a list of strings -/
  | badDependencies
  | merge (e : MergeErr)
  | load (e : IncErr)
  | graph (e : GraphErr)
  /-- an exception while variables and conditions are processed -/
  | early
deriving DecidableEq

/-- input.py:334-337, 342 the toolsets a target is built for: `target.get("toolsets",
["target"])`; a string stands for the list of its characters. -/
def toolsetsOf (multi : Bool) (t : Dict) : Except TFErr (List Val) :=
  if multi then
    match t.get? c!"toolsets" with
    | none => .ok [.str c!"target"]
    | some (.list l) => .ok l
    | some (.str s) => .ok (s.map fun c => .str [c])
    | some _ => .error .badToolsets
  else .ok [.str c!"target"]

/-- input.py:330-348 what becomes of one target. -/
def expandTarget (multi : Bool) : Val → Except TFErr (List Val)
  | .dict t =>
    if c!"toolset" ∈ t.map Prod.fst ∧ c!"toolsets" ∉ t.map Prod.fst then .ok [.dict t]
    else
      match toolsetsOf multi t with
      | .error e => .error e
      | .ok [] => .ok []
      | .ok (first :: others) =>
        let t' := Dict.del t c!"toolsets"
        .ok (others.map (fun b => .dict (t'.set c!"toolset" b)) ++
          [.dict (t'.set c!"toolset" first)])
  | _ => .error .badTargets

/-- input.py:329-349 the new target list. -/
def expandTargets (multi : Bool) : List Val → Except TFErr (List Val)
  | [] => .ok []
  | t :: rest =>
    match expandTarget multi t with
    | .error e => .error e
    | .ok a =>
      match expandTargets multi rest with
      | .error e => .error e
      | .ok b => .ok (a ++ b)

mutual

/-- input.py:325-356 `ProcessToolsetsInDict(data)`; `multi` is the global
`multiple_toolsets`. -/
def ProcessToolsetsInDict (multi : Bool) : Dict → Except TFErr Dict
  | [] => .ok []
  | (k, v) :: rest =>
    match toolsetsEntry multi k v with
    | .error e => .error e
    | .ok v' =>
      match ProcessToolsetsInDict multi rest with
      | .error e => .error e
      | .ok rest' => .ok ((k, v') :: rest')

/-- input.py:326-356 one entry of the dictionary. -/
def toolsetsEntry (multi : Bool) (k : Str) : Val → Except TFErr Val
  | .list l =>
    if k = c!"targets" then (expandTargets multi l).map .list
    else if k = c!"conditions" then (toolsetsConditions multi l).map .list
    else .ok (.list l)
  | .str s => if k = c!"targets" then .error .badTargets else .ok (.str s)
  | .dict d => if k = c!"targets" then .error .badTargets else .ok (.dict d)
  | .int i =>
    if k = c!"targets" then .error .badTargets
    else if k = c!"conditions" then .error .badConditions else .ok (.int i)
  | .other =>
    if k = c!"targets" then .error .badTargets
    else if k = c!"conditions" then .error .badConditions else .ok .other

/-- input.py:351-356 the entries of `conditions`. -/
def toolsetsConditions (multi : Bool) : List Val → Except TFErr (List Val)
  | [] => .ok []
  | .list (h :: t) :: rest =>
    match toolsetsBranches multi t with
    | .error e => .error e
    | .ok t' =>
      match toolsetsConditions multi rest with
      | .error e => .error e
      | .ok rest' => .ok (.list (h :: t') :: rest')
  | v :: rest =>
    match toolsetsConditions multi rest with
    | .error e => .error e
    | .ok rest' => .ok (v :: rest')

/-- input.py:353-356 `condition[1:]`. -/
def toolsetsBranches (multi : Bool) : List Val → Except TFErr (List Val)
  | [] => .ok []
  | .dict d :: rest =>
    match ProcessToolsetsInDict multi d with
    | .error e => .error e
    | .ok d' =>
      match toolsetsBranches multi rest with
      | .error e => .error e
      | .ok rest' => .ok (.dict d' :: rest')
  | v :: rest =>
    match toolsetsBranches multi rest with
    | .error e => .error e
    | .ok rest' => .ok (v :: rest')

end

/-- input.py:441-453 one target merged into a copy of the defaults. -/
def mergeDefault (c : MergeCtx) (defaults : Val) : Val → Except TFErr Val
  | .dict t =>
    match defaults with
    | .dict d =>
      match MergeDicts c d t with
      | .ok r => .ok (.dict r)
      | .error e => .error (.merge e)
    | _ => .error .badDefaults
  | _ => .error .badTargets

/-- input.py:433-454 all targets. -/
def mergeDefaults (c : MergeCtx) (defaults : Val) : List Val → Except TFErr (List Val)
  | [] => .ok []
  | t :: rest =>
    match mergeDefault c defaults t with
    | .error e => .error e
    | .ok a =>
      match mergeDefaults c defaults rest with
      | .error e => .error e
      | .ok b => .ok (a :: b)

/-- input.py:428-457 `target_defaults`. -/
def applyTargetDefaults (cwd pathSections : List Str) (path : Str) (d : Dict) :
    Except TFErr Dict :=
  match d.get? c!"target_defaults" with
  | none => .ok d
  | some defaults =>
    match d.get? c!"targets" with
    | none => .error (.noTargets path)
    | some (.list ts) =>
      match mergeDefaults ⟨cwd, pathSections, path, path⟩ defaults ts with
      | .error e => .error e
      | .ok ts' => .ok ((d.set c!"targets" (.list ts')).del c!"target_defaults")
    | some _ => .error .badTargets

/-- input.py:467-473 the build files a target depends on. -/
def targetDependencies (cwd : List Str) (path : Str) : Val → Except TFErr (List Str)
  | .dict t =>
    match Dict.get? t c!"dependencies" with
    | none => .ok []
    | some (.list l) =>
      match strItems l with
      | none => .error .badDependencies
      | some deps => .ok (deps.map fun dep => (ResolveTarget cwd path dep none).1)
    | some _ => .error .badDependencies
  | _ => .error .badTargets

/-- input.py:464-473 the build files of all dependencies. -/
def fileDependencies (cwd : List Str) (path : Str) : List Val → Except TFErr (List Str)
  | [] => .ok []
  | t :: rest =>
    match targetDependencies cwd path t with
    | .error e => .error e
    | .ok a =>
      match fileDependencies cwd path rest with
      | .error e => .error e
      | .ok b => .ok (a ++ b)

/-- input.py:373-382 the variable `DEPTH`, if a depth is given. -/
def depthVariable (cwd : List Str) (depth path : Str) : Str :=
  let d := RelativePath cwd depth (dirname path)
  if d = [] then c!"." else replaceChar '\\' ['/'] d

/-- input.py:404-417 `_DEPTH` and `included_files`. -/
def markLoaded (cwd : List Str) (depth path : Str) (files : List Str) (d : Dict) : Dict :=
  (d.set c!"_DEPTH" (.str depth)).set c!"included_files"
    (.list (files.map fun f => .str (RelativePath cwd f (dirname path))))

/-- input.py:419-473 what is done with the completed dictionary: toolsets, early variables and
conditions, toolsets again, defaults. -/
def finishTargetFile (w : IncWorld) (multi : Bool) (early : Dict → Option Dict) (path : Str)
    (d : Dict) : Except TFErr Dict :=
  match ProcessToolsetsInDict multi d with
  | .error e => .error e
  | .ok d1 =>
    match early d1 with
    | none => .error .early
    | some d2 =>
      match ProcessToolsetsInDict multi d2 with
      | .error e => .error e
      | .ok d3 => applyTargetDefaults w.cwd w.pathSections path d3

/-- input.py:464-473 the dependencies of the finished file. -/
def dependenciesOf (w : IncWorld) (path : Str) (d : Dict) : Except TFErr (List Str) :=
  match d.get? c!"targets" with
  | none => .ok []
  | some (.list ts) => fileDependencies w.cwd path ts
  | some _ => .error .badTargets

/-- input.py:362-497 `LoadTargetBuildFile(build_file_path, ...)` for a file not loaded before:
the tables afterwards, the dictionary of the file and the build files to load next. `early` is
`ProcessVariablesAndConditionsInDict` in the early phase with the variables, `DEPTH` among
them. -/
def LoadTargetBuildFile (w : IncWorld) (multi : Bool) (early : Dict → Option Dict) (depth : Str)
    (fuel fuel2 : Nat) (st : IncState) (path : Str) (includes : List Str) :
    Except TFErr (IncState × Dict × List Str) :=
  match LoadOneBuildFile w fuel st path includes with
  | .error e => .error (.load e)
  | .ok (st1, d) =>
    if c!"included_files" ∈ d.keys then .error (.includedFiles path)
    else match GetIncludedBuildFiles (aget st1.aux) fuel2 [] path with
      | .error e => .error (.graph e)
      | .ok files =>
        match finishTargetFile w multi early path (markLoaded w.cwd depth path files d) with
        | .error e => .error e
        | .ok d' =>
          match dependenciesOf w path d' with
          | .error e => .error e
          | .ok deps => .ok ({ st1 with data := aset st1.data path d' }, d', deps)

end Gyp
