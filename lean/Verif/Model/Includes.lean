import Verif.Model.Merge
import Verif.Model.Assoc
/-
Reading build files and merging in the files they include:
`gyp/pylib/gyp/input.py` `LoadOneBuildFile`, `LoadBuildFileIncludesIntoDict`,
`LoadBuildFileIncludesIntoList`.

Simplifications: values are immutable trees, so the in-place changes of the loaded
dictionary are a new value, and a file whose includes are still being merged has no entry
in `data` yet.  Including such a file (a circular include) is therefore outside the model;
it ends with the error `circular`, where the code goes on with the half merged dictionary.
The texts added to exceptions on the way out and the debug output are left out.
-/
namespace Gyp

/-- What loading can fail with. -/
inductive IncErr where
  /-- input.py:230 `... not found` -/
  | notFound (path : Str)
  /-- input.py:233-244 the text does not evaluate -/
  | unreadable (path : Str)
  /-- input.py:247 `... does not evaluate to a dictionary` -/
  | notDict (path : Str)
  /-- input.py:279, 283 the value under `includes` is not something that iterates over
  strings: `TypeError` -/
  | badIncludes (path : Str)
  /-- an exception of `MergeDicts` while merging `included` into `path` -/
  | merge (path included : Str) (e : MergeErr)
  /-- a `skip_includes` of another type: outside the model -/
  | otherSkip (path : Str)
  /-- an include of a file that is still being loaded: outside the model -/
  | circular (path : Str)
  /-- the recursion limit -/
  | fuel
deriving DecidableEq

/-- What the loader sees of the file system: for a path `none` if there is no file,
`some none` if its text does not evaluate, else the value; and the settings of the merge. -/
structure IncWorld where
  read : Str → Option (Option Val)
  cwd : List Str
  pathSections : List Str

/-- The tables `data` (input.py:250, the finished files) and `aux_data` (input.py:251, 290-292,
the `included` list of each file; an absent list reads as empty) and the files whose
includes are being merged. -/
structure IncState where
  data : List (Str × Dict)
  aux : List (Str × List Str)
  opened : List Str

/-- input.py:254 the condition on `skip_includes`, by Python truthiness. Values of other
types than `str`, `int`, `list` and `dict` are outside the model (`none`): it does not tell
`None` and `False` from `True`. -/
def skipIncludes (d : Dict) : Option Bool :=
  match d.get? c!"skip_includes" with
  | none => some false
  | some (.str s) => some (s ≠ [])
  | some (.int i) => some (i ≠ 0)
  | some (.list l) => some !l.isEmpty
  | some (.dict e) => some !e.isEmpty
  | some .other => none

/-- The strings of a list, `none` if something else is among them. -/
def strItems : List Val → Option (List Str)
  | [] => some []
  | .str s :: l => (strItems l).map (s :: ·)
  | _ :: _ => none

/-- input.py:279 `for include in subdict["includes"]`: a string gives its characters, a
dictionary its keys; anything but strings makes `os.path.join` raise. -/
def includeNames (path : Str) (d : Dict) : Except IncErr (List Str) :=
  match d.get? c!"includes" with
  | none => .ok []
  | some (.list l) =>
    match strItems l with
    | some names => .ok names
    | none => .error (.badIncludes path)
  | some (.str s) => .ok (s.map fun c => [c])
  | some (.dict e) => .ok (Dict.keys e)
  | some _ => .error (.badIncludes path)

/-- input.py:283-285 a name in `includes` is relative to the directory of the file. -/
def includePath (path name : Str) : Str := normpath (pathJoin (dirname path) name)

/-- input.py:291-292 `aux_data[subdict_path]["included"].append(include)`. -/
def noteIncluded (st : IncState) (path incl : Str) : IncState :=
  { st with aux := aset st.aux path (((aget st.aux path).getD []) ++ [incl]) }

mutual

/-- input.py:223-268 `LoadOneBuildFile(build_file_path, data, aux_data, includes, is_target,
check)`; `includes` is empty unless `is_target`. The first argument bounds the number of
nested calls and of steps of the loops in them. -/
def LoadOneBuildFile (w : IncWorld) :
    Nat → IncState → Str → List Str → Except IncErr (IncState × Dict)
  | 0, _, _, _ => .error .fuel
  | fuel + 1, st, path, includes =>
    match aget st.data path with
    | some d => .ok (st, d)
    | none =>
      if path ∈ st.opened then .error (.circular path)
      else match w.read path with
        | none => .error (.notFound path)
        | some none => .error (.unreadable path)
        | some (some (.dict d)) =>
          let st1 : IncState :=
            { st with aux := aset st.aux path [], opened := path :: st.opened }
          match skipIncludes d with
          | none => .error (.otherSkip path)
          | some true => .ok ({ st1 with data := aset st1.data path d, opened := st.opened }, d)
          | some false =>
            match LoadBuildFileIncludesIntoDict w fuel st1 path d includes with
            | .error e => .error e
            | .ok (st2, d2) =>
              .ok ({ st2 with data := aset st2.data path d2, opened := st.opened }, d2)
        | some (some _) => .error (.notDict path)

/-- input.py:271-309 `LoadBuildFileIncludesIntoDict(subdict, subdict_path, data, aux_data,
includes, check)`. -/
def LoadBuildFileIncludesIntoDict (w : IncWorld) :
    Nat → IncState → Str → Dict → List Str → Except IncErr (IncState × Dict)
  | 0, _, _, _, _ => .error .fuel
  | fuel + 1, st, path, d, includes =>
    match includeNames path d with
    | .error e => .error e
    | .ok names =>
      match mergeIncludes w fuel (includes ++ names.map (includePath path)) st path
          (d.del c!"includes") with
      | .error e => .error e
      | .ok (st1, d1) => includesInEntries w fuel st1 path d1

/-- input.py:289-301 merge in the included files. -/
def mergeIncludes (w : IncWorld) :
    Nat → List Str → IncState → Str → Dict → Except IncErr (IncState × Dict)
  | 0, _, _, _, _ => .error .fuel
  | _ + 1, [], st, _, d => .ok (st, d)
  | fuel + 1, incl :: rest, st, path, d =>
    match LoadOneBuildFile w fuel (noteIncluded st path incl) incl [] with
    | .error e => .error e
    | .ok (st1, x) =>
      match MergeDicts ⟨w.cwd, w.pathSections, path, incl⟩ d x with
      | .error e => .error (.merge path incl e)
      | .ok d1 => mergeIncludes w fuel rest st1 path d1

/-- input.py:303-308 recurse into the values of a dictionary. -/
def includesInEntries (w : IncWorld) :
    Nat → IncState → Str → Dict → Except IncErr (IncState × Dict)
  | 0, _, _, _ => .error .fuel
  | _ + 1, st, _, [] => .ok (st, [])
  | fuel + 1, st, path, (k, v) :: rest =>
    match includesInValue w fuel st path v with
    | .error e => .error e
    | .ok (st1, v1) =>
      match includesInEntries w fuel st1 path rest with
      | .error e => .error e
      | .ok (st2, rest2) => .ok (st2, (k, v1) :: rest2)

/-- input.py:304-308, 314-320 one value of a dictionary or list. -/
def includesInValue (w : IncWorld) :
    Nat → IncState → Str → Val → Except IncErr (IncState × Val)
  | 0, _, _, _ => .error .fuel
  | fuel + 1, st, path, .dict d =>
    match LoadBuildFileIncludesIntoDict w fuel st path d [] with
    | .error e => .error e
    | .ok (st1, d1) => .ok (st1, .dict d1)
  | fuel + 1, st, path, .list l =>
    match LoadBuildFileIncludesIntoList w fuel st path l with
    | .error e => .error e
    | .ok (st1, l1) => .ok (st1, .list l1)
  | _ + 1, st, _, v => .ok (st, v)

/-- input.py:313-320 `LoadBuildFileIncludesIntoList(sublist, sublist_path, data, aux_data,
check)`. -/
def LoadBuildFileIncludesIntoList (w : IncWorld) :
    Nat → IncState → Str → List Val → Except IncErr (IncState × List Val)
  | 0, _, _, _ => .error .fuel
  | _ + 1, st, _, [] => .ok (st, [])
  | fuel + 1, st, path, v :: rest =>
    match includesInValue w fuel st path v with
    | .error e => .error e
    | .ok (st1, v1) =>
      match LoadBuildFileIncludesIntoList w fuel st1 path rest with
      | .error e => .error e
      | .ok (st2, rest2) => .ok (st2, v1 :: rest2)

end

end Gyp
