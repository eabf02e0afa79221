import Verif.Model.Sort
/-
`gyp/pylib/gyp/easy_xml.py`.

An element specification is a list: a name, optionally a dictionary of attributes,
then strings and child specifications.  `Forest` is the sequence of contents (a
first-child/next-sibling tree, so that it is a plain inductive type); attributes
are the dictionary's items, `[]` standing both for an absent and for an empty
dictionary (the code treats them alike).
-/
namespace Gyp

inductive Forest
  | nil
  | text (s : Str) (rest : Forest)
  | elem (name : Str) (attrs : List (Str × Str)) (kids : Forest) (rest : Forest)
deriving DecidableEq

/-- easy_xml.py:145-153 `_xml_escape_map`. -/
def xmlEscapeMap (c : Char) : Option Str :=
  if c = '"' then some c!"&quot;"
  else if c = '\'' then some c!"&apos;"
  else if c = '<' then some c!"&lt;"
  else if c = '>' then some c!"&gt;"
  else if c = '&' then some c!"&amp;"
  else if c = '\n' then some c!"&#xA;"
  else if c = '\r' then some c!"&#xD;"
  else none

/-- easy_xml.py:162-167 `replace(m)` on one character; characters outside the map are
not matched by the regular expression and stay. -/
def xmlEscapeChar (attr : Bool) (c : Char) : Str :=
  match xmlEscapeMap c with
  | none => [c]
  | some r => if attr ∧ c = '\'' then [c] else r

/-- easy_xml.py:159-169 `_XmlEscape(value, attr)`. -/
def XmlEscape (value : Str) (attr : Bool) : Str := value.flatMap (xmlEscapeChar attr)

/-- Are all contents strings?  (easy_xml.py:93 `all_strings`) -/
def Forest.allStrings : Forest → Bool
  | .nil => true
  | .text _ r => r.allStrings
  | .elem .. => false

/-- Is the sequence of contents empty?  (easy_xml.py:91 `if rest`) -/
def Forest.isEmpty : Forest → Bool
  | .nil => true
  | _ => false

/-- easy_xml.py:88-89 the attributes. -/
def attrText (attrs : List (Str × Str)) : Str :=
  (pySorted pairLe attrs).flatMap fun kv =>
    c!" " ++ kv.1 ++ c!"=\"" ++ XmlEscape kv.2 true ++ c!"\""

/-- easy_xml.py:71-76 `indentation`. -/
def indentation (pretty : Bool) (level : Nat) : Str :=
  if pretty then List.replicate (2 * level) ' ' else []

/-- easy_xml.py:72,76 `new_line`. -/
def newLine (pretty : Bool) : Str := if pretty then ['\n'] else []

/-- easy_xml.py:83-107 one element, given the text of its contents. -/
def elementText (pretty : Bool) (level : Nat) (name : Str) (attrs : List (Str × Str))
    (kids : Forest) (kidsText : Str) : Str :=
  indentation pretty level ++ c!"<" ++ name ++ attrText attrs ++
  (if kids.isEmpty then c!"/>" ++ newLine pretty
   else
    let multi_line := !kids.allStrings
    c!">" ++ (if multi_line then newLine pretty else []) ++ kidsText ++
    (if multi_line then indentation pretty level else []) ++
    c!"</" ++ name ++ c!">" ++ newLine pretty)

/-- easy_xml.py:97-103 the contents of an element, at `level`. -/
def contentText (pretty : Bool) (level : Nat) : Forest → Str
  | .nil => []
  | .text s rest => XmlEscape s false ++ contentText pretty level rest
  | .elem name attrs kids rest =>
    elementText pretty level name attrs kids (contentText pretty (level + 1) kids) ++
    contentText pretty level rest

/-- easy_xml.py:12-57 `XmlToString` of the specification `[name, attrs, *kids]`. -/
def XmlToString (encoding : Str) (pretty : Bool) (name : Str) (attrs : List (Str × Str))
    (kids : Forest) : Str :=
  c!"<?xml version=\"1.0\" encoding=\"" ++ encoding ++ c!"\"?>" ++ newLine pretty ++
  contentText pretty 0 (.elem name attrs kids .nil)

end Gyp
