import Verif.Model.Path
import Verif.Model.Splitext
/-
The groups of files of an Xcode project: `gyp/pylib/gyp/xcodeproj_file.py`, `XCHierarchicalElement`
and `PBXGroup`.  An object is named by where it is: the places in the lists of children on the way to
it.  The dictionaries of a group (1181-1184, 1206-1225) are looked up in its list of children.
Simplified: of the properties of an object only name, source tree, path and children are kept; there
are no line ends in paths; references to other projects are left out.
-/
namespace Gyp

/-- `PBXFileReference`, and `PBXGroup` or (when `variant`) `PBXVariantGroup`. -/
inductive XNode
  | file (name : Option Str) (tree : Str) (path : Option Str)
  | group (variant : Bool) (name : Option Str) (tree : Str) (path : Option Str) (children : List XNode)

/-- xcodeproj_file.py:171 what follows `$(` in `_path_leading_variable`: the shortest text before a
parenthesis that ends the path or has a slash after it; and what is after the slash. -/
def leadingVariable : Str → Option (Str × Option Str)
  | [] => none
  | c :: rest =>
    if c = ')' ∧ rest = [] then some ([], none)
    else if c = ')' ∧ rest.head? = some '/' then some ([], some rest.tail)
    else (leadingVariable rest).map fun r => (c :: r.1, r.2)

/-- xcodeproj_file.py:174-193 `SourceTreeAndPathFromPath`; `none` when the path does not begin with a
variable. -/
def sourceTreeAndPath (path : Str) : Option (Str × Option Str) :=
  if startsWith path c!"$(" then leadingVariable (path.drop 2) else none

/-- xcodeproj_file.py:967 the source tree of what is relative to its group. -/
def groupTree : Str := c!"<group>"

/-- xcodeproj_file.py:968-998 `XCHierarchicalElement.__init__`: name, source tree and path. -/
def xcInit (name path : Option Str) : Option Str × Str × Option Str :=
  match path with
  | none => (name, groupTree, none)
  | some p =>
    let name := match name with
      | some n => some n
      | none => if basename p = [] ∨ basename p = p then none else some (basename p)
    match sourceTreeAndPath p with
    | none => (name, groupTree, some p)
    | some (tree, some q) => (name, tree, some q)
    | some (tree, none) => if name = none then (some tree, tree, none) else (name, tree, some p)

/-- xcodeproj_file.py:1549-1556 `PBXFileReference.__init__`: a slash at the end is dropped (the type of
the file is left out). -/
def newFile (name : Option Str) (path : Str) : XNode :=
  let (n, t, p) := xcInit name (some path)
  .file n t (p.map fun q => if endsWith q ['/'] then q.dropLast else q)

/-- xcodeproj_file.py:1178-1184 a group with no children yet. -/
def newGroup (variant : Bool) (name path : Option Str) : XNode :=
  let (n, t, p) := xcInit name path
  .group variant n t p []

/-- xcodeproj_file.py:1123-1138 `PathFromSourceTreeAndPath`. -/
def treePath (tree : Str) (path : Option Str) : Option Str :=
  if tree ≠ groupTree then
    match path with
    | some p => some (pathJoin (c!"$(" ++ tree ++ c!")") p)
    | none => some (c!"$(" ++ tree ++ c!")")
  else path

def XNode.treePath : XNode → Option Str
  | .file _ t p => Gyp.treePath t p
  | .group _ _ t p _ => Gyp.treePath t p

/-- xcodeproj_file.py:1252-1259 `GetChildByPath`: its place. -/
def childByPath (children : List XNode) (path : Str) : Option Nat :=
  if path = [] then none else children.findIdx? fun c => c.treePath = some path

/-- xcodeproj_file.py:1206-1212, 1227-1232 `AppendChild`; `none` is the `ValueError`. -/
def appendChild (children : List XNode) (c : XNode) : Option (List XNode) :=
  match c.treePath with
  | some p =>
    if p ≠ [] ∧ (childByPath children p).isSome then none else some (children ++ [c])
  | none => some (children ++ [c])

/-- xcodeproj_file.py:1395-1398 the place of the variant group with a name and a path. -/
def variantGroupAt (children : List XNode) (name : Str) (path : Option Str) : Option Nat :=
  children.findIdx? fun c =>
    match c with
    | .group true n t p _ => n = some name ∧ treePath t p = path
    | _ => false

/-- xcodeproj_file.py:1336-1343 a file reference in this group. -/
def addFileHere (children : List XNode) (path : Str) : Option (List XNode × List Nat) :=
  match childByPath children path with
  | some i =>
    match children[i]? with
    | some (.file ..) => some (children, [i])
    | _ => none
  | none => (appendChild children (newFile none path)).map fun cs => (cs, [children.length])

/-- xcodeproj_file.py:1352-1361 one variant in its group. -/
def addVariant (children : List XNode) (name path : Str) : Option (List XNode) :=
  match childByPath children path with
  | some i =>
    match children[i]? with
    | some (.file ..) => some children
    | _ => none
  | none => appendChild children (newFile (some name) path)

/-- xcodeproj_file.py:1345-1364, 1381-1406 a variant group in this group, and a variant in it. -/
def addVariantHere (children : List XNode) (variant name : Str) (grandparent : Option Str)
    (variantPath : Str) : Option (List XNode × List Nat) :=
  match variantGroupAt children name grandparent with
  | some i =>
    match children[i]? with
    | some (.group v n t p cs) =>
      (addVariant cs variant variantPath).map fun cs' => (children.set i (.group v n t p cs'), [i])
    | _ => none
  | none =>
    match newGroup true (some name) grandparent with
    | .group v n t p cs =>
      match appendChild children (.group v n t p cs), addVariant cs variant variantPath with
      | some children', some cs' =>
        some (children'.set children.length (.group v n t p cs'), [children.length])
      | _, _ => none
    | _ => none

/-- xcodeproj_file.py:1301-1307 the path with no detours; a directory keeps the slash at its end. -/
def cleanPath (path : Str) : Str := if endsWith path ['/'] then normpath path ++ ['/'] else normpath path

/-- xcodeproj_file.py:1283-1379 `AddOrGetFileByPath`, with the children of the group: the children
afterwards, and where the reference is; `none` is an exception.  The first argument bounds the depth
(each call drops a part of the path). -/
def addOrGetFile : Nat → List XNode → Str → Bool → Option (List XNode × List Nat)
  | 0, _, _, _ => none
  | fuel + 1, children, path, hierarchical =>
    let isDir := endsWith path ['/']
    let path := cleanPath path
    let parent := dirname path
    let grandparent := if dirname parent = [] then none else some (dirname parent)
    let parts := splitext (basename parent)
    let variant := decide (parts.2 = c!".lproj")
    if isDir && variant then none
    else
      let split := splitOn '/' path
      if split.length = 1 ∨ ((isDir || variant) = true ∧ split.length = 2) ∨ hierarchical = false then
        if variant then
          addVariantHere children parts.1 (basename path) grandparent
            (joinWith ['/'] (split.drop (split.length - 2)))
        else addFileHere children path
      else
        let next := split.headD []
        let rest := joinWith ['/'] split.tail
        match childByPath children next with
        | some i =>
          match children[i]? with
          | some (.group false n t p cs) =>
            (addOrGetFile fuel cs rest hierarchical).map fun r =>
              (children.set i (.group false n t p r.1), i :: r.2)
          | _ => none
        | none =>
          match newGroup false none (some next) with
          | .group v n t p cs =>
            match appendChild children (.group v n t p cs) with
            | some children' =>
              (addOrGetFile fuel cs rest hierarchical).map fun r =>
                (children'.set children.length (.group v n t p r.1), children.length :: r.2)
            | none => none
          | _ => none

/-- xcodeproj_file.py:1000-1007 `Name`. -/
def xcName (name path : Option Str) : Option Str :=
  match name with
  | some n => some n
  | none => path

/-- xcodeproj_file.py:1436-1476 the properties of a group that takes over its only child. -/
def takeOverProps (name : Option Str) (tree : Str) (path : Option Str)
    (childName : Option Str) (childTree : Str) (childPath : Option Str) : Option Str × Str × Option Str :=
  let tp : Str × Option Str :=
    if childTree = groupTree then
      (tree, match path, childPath with
        | some a, some b => some (pathJoin a b)
        | some a, none => some a
        | none, b => b)
    else (childTree, childPath)
  let kept := if name ≠ none ∧ name ≠ xcName childName tp.2 then name else childName
  (if kept ≠ none ∧ kept = tp.2 then none else kept, tp)

mutual
/-- xcodeproj_file.py:1408-1486 `TakeOverOnlyChild(True)` of a group with these properties. -/
def takeOver (name : Option Str) (tree : Str) (path : Option Str) : List XNode → XNode
  | [.group false n t p cs] =>
    let r := takeOverProps name tree path n t p
    takeOver r.1 r.2.1 r.2.2 cs
  | cs => .group false name tree path (takeOverAll cs)
termination_by cs => (sizeOf cs, 1)

/-- xcodeproj_file.py:1482-1486 the groups among the children. -/
def takeOverAll : List XNode → List XNode
  | [] => []
  | .group false n t p cs :: rest => takeOver n t p cs :: takeOverAll rest
  | c :: rest => c :: takeOverAll rest
termination_by cs => (sizeOf cs, 0)
end

end Gyp
