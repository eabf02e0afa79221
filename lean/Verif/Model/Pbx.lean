import Verif.Model.Assoc
import Verif.Model.Sort
import Verif.Model.Scan
import Verif.Model.Build
import Verif.Model.ConfigGypi
/-
`gyp/pylib/gyp/xcodeproj_file.py`: how a project file (`project.pbxproj`) is printed.
-/
namespace Gyp

/-- What properties of objects hold.  An object that is referred to counts with its `id` and its
`Comment()` (`none` is `None`). -/
inductive PbxVal where
  | text (s : Str)
  | int (i : Int)
  | ref (id : Str) (comment : Option Str)
  | list (l : List PbxVal)
  | dict (d : List (Str × PbxVal))

/-- xcodeproj_file.py:269-288, 1545-1547, 1817-1818: what the class of an object says of the way it is
printed (`_should_print_single_line`, and whether it has the alternate `_encode_transforms`). -/
structure PbxStyle where
  single : Bool
  alt : Bool

/-- xcodeproj_file.py:1545-1547 and 1817-1818: the two classes with a style of their own. -/
def pbxStyle (cls : Str) : PbxStyle :=
  let own := decide (cls = c!"PBXFileReference" ∨ cls = c!"PBXBuildFile")
  { single := own, alt := own }

/-- xcodeproj_file.py:160 `[A-Za-z0-9$./_]` -/
def pbxBareChar (c : Char) : Bool :=
  c.isAlphanum || c = '$' || c = '.' || c = '/' || c = '_'

/-- xcodeproj_file.py:160 `_unquoted.search`: `$` also matches before a final newline. -/
def pbxUnquoted (s : Str) : Bool :=
  let body := if s.getLast? = some '\n' then s.dropLast else s
  body ≠ [] && body.all pbxBareChar

/-- xcodeproj_file.py:272-288, 530-543: one character of a text in quotation marks.  Entry 13 is `\n` in
both tables. -/
def pbxChar (alt : Bool) (c : Char) : Str :=
  if c = '\\' then c!"\\\\"
  else if c = '"' then c!"\\\""
  else if c.toNat < 32 then
    if alt && (c = '\t' || c = '\n' || c = '\x0b') then [c]
    else if c = '\x07' then c!"\\a"
    else if c = '\x08' then c!"\\b"
    else if c = '\t' then c!"\\t"
    else if c = '\n' then c!"\\n"
    else if c = '\x0b' then c!"\\v"
    else if c = '\x0c' then c!"\\f"
    else if c = '\r' then c!"\\n"
    else c!"\\U00" ++ [hexLower (c.toNat / 16), hexLower (c.toNat % 16)]
  else [c]

/-- xcodeproj_file.py:545-582 `_EncodeString`. -/
def pbxString (alt : Bool) (s : Str) : Str :=
  if pbxUnquoted s && !hasSub c!"___" s then s
  else '"' :: s.flatMap (pbxChar alt) ++ c!"\""

/-- xcodeproj_file.py:517-528 `_EncodeComment`. -/
def pbxComment (comment : Str) : Str := c!"/* " ++ replaceStr c!"*/" c!"(*)/" comment ++ c!" */"

/-- xcodeproj_file.py:617-619, 652-653: an object, by its id and its comment. -/
def pbxRef (id : Str) (comment : Option Str) : Str :=
  match comment with
  | none => id
  | some c => if c = [] then id else id ++ ' ' :: pbxComment c

/-- `"\t" * n` -/
def pbxTabs (n : Nat) : Str := List.replicate n '\t'

/-- xcodeproj_file.py:608-615 `sep`. -/
def PbxStyle.sep (st : PbxStyle) : Str := if st.single then c!" " else c!"\n"

/-- xcodeproj_file.py:608-615 `element_tabs` and `end_tabs`, with the number of tabulators. -/
def PbxStyle.tabs (st : PbxStyle) (n : Nat) : Str := if st.single then [] else pbxTabs n

/-- xcodeproj_file.py:627-631: a list of at most one item where lists are flattened; `none` is the
exception for an item that is no text. -/
def pbxFlat (alt : Bool) : List PbxVal → Option Str
  | [] => some (pbxString alt [])
  | .text s :: _ => some (pbxString alt s)
  | _ => none

/-- The order of pairs by their keys, all different. -/
def keyLe {α : Type} (a b : Str × α) : Bool := strLe a.1 b.1

mutual
/-- xcodeproj_file.py:587-655 `_XCPrintableValue`; `none` is an exception. -/
def pbxVal (st : PbxStyle) (flat : Bool) : Nat → PbxVal → Option Str
  | _, .text s => some (pbxString st.alt s)
  | _, .int i => some (intStr i)
  | _, .ref id comment => some (pbxRef id comment)
  | n, .list l =>
    if flat = true ∧ l.length ≤ 1 then pbxFlat st.alt l
    else
      match pbxItems st flat (n + 1) l with
      | none => none
      | some ps =>
        some ('(' :: (st.sep ++ ps.flatMap (fun p => st.tabs (n + 1) ++ p ++ ',' :: st.sep) ++ st.tabs n ++ c!")"))
  | n, .dict d =>
    match pbxPairs st flat (n + 1) d with
    | none => none
    | some ps =>
      some ('{' :: (st.sep ++
        (pySorted keyLe ps).flatMap (fun p => st.tabs (n + 1) ++ pbxString st.alt p.1 ++ c!" = " ++ p.2 ++ ';' :: st.sep) ++
        st.tabs n ++ c!"}"))

/-- xcodeproj_file.py:634-640: the items of a list. -/
def pbxItems (st : PbxStyle) (flat : Bool) : Nat → List PbxVal → Option (List Str)
  | _, [] => some []
  | n, v :: l =>
    match pbxVal st flat n v, pbxItems st flat n l with
    | some p, some ps => some (p :: ps)
    | _, _ => none

/-- xcodeproj_file.py:642-650: the values of a dictionary, with their keys. -/
def pbxPairs (st : PbxStyle) (flat : Bool) : Nat → List (Str × PbxVal) → Option (List (Str × Str))
  | _, [] => some []
  | n, (k, v) :: d =>
    match pbxVal st flat n v, pbxPairs st flat n d with
    | some p, some ps => some ((k, p) :: ps)
    | _, _ => none
end

/-- xcodeproj_file.py:703-709: a text without its quotation marks. -/
def stripQuotes (p : Str) : Str :=
  if p.length > 1 ∧ p.head? = some '"' ∧ p.getLast? = some '"' then p.tail.dropLast else p

/-- xcodeproj_file.py:674-709: the value of a property as `_XCKVPrint` prints it. -/
def pbxProp (cls : Str) (tabs : Nat) (key : Str) (v : PbxVal) : Option Str :=
  let st := pbxStyle cls
  if key = c!"remoteGlobalIDString" ∧ cls = c!"PBXContainerItemProxy" then
    match v with
    | .ref id _ => some (pbxString st.alt id)
    | _ => none
  else
    let flat := decide (key = c!"buildSettings" ∧ cls = c!"XCBuildConfiguration")
    match pbxVal st flat tabs v with
    | none => none
    | some p => some (if key = c!"settings" ∧ cls = c!"PBXBuildFile" then stripQuotes p else p)

/-- xcodeproj_file.py:668-673, 710-715: the line of `_XCKVPrint`, with the value printed. -/
def pbxLine (st : PbxStyle) (tabs : Nat) (key p : Str) : Str :=
  st.tabs tabs ++ pbxString st.alt key ++ c!" = " ++ p ++ ';' :: st.sep

/-- xcodeproj_file.py:657-720 `_XCKVPrint`. -/
def pbxKV (cls : Str) (tabs : Nat) (key : Str) (v : PbxVal) : Option Str :=
  (pbxProp cls tabs key v).map (pbxLine (pbxStyle cls) tabs key)

/-- One object of a project. -/
structure PbxObject where
  id : Str
  comment : Option Str
  cls : Str
  props : List (Str × PbxVal)

/-- The texts of all of a list, when all of them have one. -/
def pbxTexts {α : Type} (f : α → Option Str) : List α → Option Str
  | [] => some []
  | a :: l =>
    match f a, pbxTexts f l with
    | some t, some ts => some (t ++ ts)
    | _, _ => none

/-- xcodeproj_file.py:722-756 `Print`.  The check for required properties is not modelled. -/
def pbxObject (o : PbxObject) : Option Str :=
  let st := pbxStyle o.cls
  match pbxKV o.cls 3 c!"isa" (.text o.cls), pbxTexts (fun p => pbxKV o.cls 3 p.1 p.2) (pySorted keyLe o.props) with
  | some isa, some props =>
    some (pbxTabs 2 ++ pbxRef o.id o.comment ++ c!" = {" ++ (if st.single then [] else c!"\n") ++ isa ++ props ++
      (if st.single then [] else pbxTabs 2) ++ c!"};\n")
  | _, _ => none

/-- xcodeproj_file.py:3178-3183: the classes of the objects, each once. -/
def pbxClasses : List PbxObject → List Str
  | [] => []
  | o :: l => let r := pbxClasses l; if o.cls ∈ r then r else o.cls :: r

/-- xcodeproj_file.py:3185-3192: the section of a class. -/
def pbxSection (objects : List PbxObject) (cls : Str) : Option Str :=
  match pbxTexts pbxObject (pySorted (fun a b => strLe a.id b.id) (objects.filter fun o => o.cls = cls)) with
  | none => none
  | some t => some (c!"\n" ++ c!"/* Begin " ++ cls ++ c!" section */\n" ++ t ++ c!"/* End " ++ cls ++ c!" section */\n")

/-- xcodeproj_file.py:3172-3198 `_PrintObjects`. -/
def pbxObjects (objects : List PbxObject) : Option Str :=
  (pbxTexts (pbxSection objects) (pySorted strLe (pbxClasses objects))).map fun t =>
    c!"\tobjects = {\n" ++ t ++ c!"\t};\n"

/-- xcodeproj_file.py:3149-3170 `XCProjectFile.Print`: the file with the properties it has besides
`objects`, and the objects that descend from it. -/
def pbxFile (props : List (Str × PbxVal)) (objects : List PbxObject) : Option Str :=
  (pbxTexts
    (fun p : Str × Option PbxVal =>
      match p.2 with
      | none => pbxObjects objects
      | some v => pbxKV c!"XCProjectFile" 1 p.1 v)
    (pySorted keyLe ((c!"objects", none) :: props.map fun p => (p.1, some p.2)))).map fun t =>
    c!"// !$*UTF8*$!\n" ++ c!"{\n" ++ t ++ c!"}\n"

end Gyp
