import Verif.Model.Pbx
import Verif.Spec.Xml
/-
What a project file says: a reader of property lists of the old kind, written from their description
(texts with or without quotation marks, `( , )`, `{ = ; }`, white space and two kinds of comments), and
not from the code that prints them.
-/
namespace Gyp.Spec

/-- What can be read from a property list. -/
inductive Plist where
  | text (s : Str)
  | list (l : List Plist)
  | dict (d : List (Str × Plist))

/-- Where a reader is between two things of interest. -/
inductive GapState where
  | blank | line | block

/-- Skip white space and comments. -/
def gap : GapState → Str → Str
  | .blank, ' ' :: s => gap .blank s
  | .blank, '\t' :: s => gap .blank s
  | .blank, '\n' :: s => gap .blank s
  | .blank, '/' :: '/' :: s => gap .line s
  | .blank, '/' :: '*' :: s => gap .block s
  | .blank, s => s
  | .line, '\n' :: s => gap .blank s
  | .line, _ :: s => gap .line s
  | .block, '*' :: '/' :: s => gap .blank s
  | .block, _ :: s => gap .block s
  | _, [] => []

/-- The characters of texts without quotation marks. -/
def tokenChar (c : Char) : Bool :=
  c.isAlphanum || c = '_' || c = '$' || c = '/' || c = ':' || c = '.' || c = '-'

/-- What a character after a backslash stands for.  Numbers in base eight are refused here. -/
def slashed (c : Char) : Option Char :=
  if c = 'a' then some '\x07'
  else if c = 'b' then some '\x08'
  else if c = 'f' then some '\x0c'
  else if c = 'n' then some '\n'
  else if c = 'r' then some '\r'
  else if c = 't' then some '\t'
  else if c = 'v' then some '\x0b'
  else if c.isDigit then none
  else some c

/-- The character with four hexadecimal digits. -/
def fourHex (a b c d : Char) : Option Char :=
  match hexDigit a, hexDigit b, hexDigit c, hexDigit d with
  | some a, some b, some c, some d => some (Char.ofNat (((a * 16 + b) * 16 + c) * 16 + d))
  | _, _, _, _ => none

/-- A text after its first quotation mark, and what follows the second. -/
def readQuoted : Str → Option (Str × Str)
  | [] => none
  | '"' :: r => some ([], r)
  | '\\' :: e :: r =>
    if e = 'U' then
      match r with
      | a :: b :: c :: d :: r' =>
        match fourHex a b c d, readQuoted r' with
        | some x, some (t, rest) => some (x :: t, rest)
        | _, _ => none
      | _ => none
    else
      match slashed e, readQuoted r with
      | some x, some (t, rest) => some (x :: t, rest)
      | _, _ => none
  | ['\\'] => none
  | c :: r => (readQuoted r).map fun x => (c :: x.1, x.2)

/-- A text, and what follows. -/
def plistText : Str → Option (Str × Str)
  | '"' :: r => readQuoted r
  | s => if (s.takeWhile tokenChar) = [] then none else some (s.takeWhile tokenChar, s.dropWhile tokenChar)

mutual
/-- Anything, and what follows. -/
def readVal : Nat → Str → Option (Plist × Str)
  | 0, _ => none
  | n + 1, s =>
    match gap .blank s with
    | '(' :: r => (plistItems n r).map fun x => (.list x.1, x.2)
    | '{' :: r => (readPairs n r).map fun x => (.dict x.1, x.2)
    | t => (plistText t).map fun x => (.text x.1, x.2)

/-- The items of a list after `(`, with commas between them or after each; and what follows. -/
def plistItems : Nat → Str → Option (List Plist × Str)
  | 0, _ => none
  | n + 1, s =>
    match gap .blank s with
    | ')' :: r => some ([], r)
    | t =>
      match readVal n t with
      | none => none
      | some (v, r) =>
        match gap .blank r with
        | ',' :: r' => (plistItems n r').map fun x => (v :: x.1, x.2)
        | ')' :: r' => some ([v], r')
        | _ => none

/-- The pairs of a dictionary after `{`; and what follows. -/
def readPairs : Nat → Str → Option (List (Str × Plist) × Str)
  | 0, _ => none
  | n + 1, s =>
    match gap .blank s with
    | '}' :: r => some ([], r)
    | t =>
      match plistText t with
      | none => none
      | some (k, r) =>
        match gap .blank r with
        | '=' :: r' =>
          match readVal n r' with
          | none => none
          | some (v, r'') =>
            match gap .blank r'' with
            | ';' :: r3 => (readPairs n r3).map fun x => ((k, v) :: x.1, x.2)
            | _ => none
        | _ => none
end

/-- The file `s` is a property list that says `v`: read with enough steps, it gives `v` and nothing but
white space and comments is left.  (A file says at most one thing.) -/
def FileSays (s : Str) (v : Plist) : Prop :=
  ∃ N, ∀ n ≥ N, ∃ rest, readVal n s = some (v, rest) ∧ gap .blank rest = []

/-- Texts that are written without quotation marks. -/
def Bare (s : Str) : Prop :=
  s ≠ [] ∧ (∀ c ∈ s, c.isAlphanum = true ∨ c ∈ ['$', '.', '/', '_']) ∧ ¬ c!"___" <:+: s

/-- Texts that survive: without carriage returns; those that would need no quotation marks do not begin
with `//`, and are not followed by a newline. -/
def PlainText (s : Str) : Prop :=
  '\r' ∉ s ∧ (Bare s → ¬ c!"//" <+: s) ∧ ∀ t, s = t ++ c!"\n" → ¬ Bare t

/-- What follows a value in a file. -/
def After (rest : Str) : Prop := ∃ c r, rest = c :: r ∧ (c = ' ' ∨ c = ',' ∨ c = ';')

/-- Identifiers of objects: letters and digits. -/
def PlainId (s : Str) : Prop := s ≠ [] ∧ ∀ c ∈ s, c.isAlphanum = true

mutual
/-- Values with texts and identifiers that survive. -/
def Plain : PbxVal → Prop
  | .text s => PlainText s
  | .int _ => True
  | .ref id _ => PlainId id
  | .list l => PlainItems l
  | .dict d => PlainPairs d

def PlainItems : List PbxVal → Prop
  | [] => True
  | v :: l => Plain v ∧ PlainItems l

def PlainPairs : List (Str × PbxVal) → Prop
  | [] => True
  | (k, v) :: d => (PlainText k ∧ Plain v) ∧ PlainPairs d
end

mutual
/-- What a value should be read as.  In settings for a build (`flat`), a list with one text is that text
and one with none is the empty text.  Dictionaries are in the order of their keys. -/
def said (flat : Bool) : PbxVal → Plist
  | .text s => .text s
  | .int i => .text (intStr i)
  | .ref id _ => .text id
  | .list l =>
    match flat, l with
    | true, [] => .text []
    | true, [.text s] => .text s
    | _, _ => .list (saidItems flat l)
  | .dict d => .dict (pySorted keyLe (saidPairs flat d))

def saidItems (flat : Bool) : List PbxVal → List Plist
  | [] => []
  | v :: l => said flat v :: saidItems flat l

def saidPairs (flat : Bool) : List (Str × PbxVal) → List (Str × Plist)
  | [] => []
  | (k, v) :: d => (k, said flat v) :: saidPairs flat d
end

/-- What a property of an object of class `cls` should be read as: the target in another project is
named by its identifier; the settings of a file in a phase are written as a text and read as a
dictionary; anything else is as its value says. -/
inductive PropSaid (cls key : Str) : PbxVal → Plist → Prop
  | target {id : Str} {comment : Option Str} (hc : cls = c!"PBXContainerItemProxy")
      (hk : key = c!"remoteGlobalIDString") (h : PlainId id) : PropSaid cls key (.ref id comment) (.text id)
  | settings {a : Str} (hc : cls = c!"PBXBuildFile") (hk : key = c!"settings") (h : PlainId a) :
      PropSaid cls key (.text (c!"{ATTRIBUTES = (" ++ a ++ c!", ); }"))
        (.dict [(c!"ATTRIBUTES", .list [.text a])])
  | other {v : PbxVal} (hc : ¬ (cls = c!"PBXContainerItemProxy" ∧ key = c!"remoteGlobalIDString"))
      (hk : ¬ (cls = c!"PBXBuildFile" ∧ key = c!"settings")) (h : Plain v) :
      PropSaid cls key v (said (decide (key = c!"buildSettings" ∧ cls = c!"XCBuildConfiguration")) v)

/-- What an object should be read as: a dictionary with its class and its properties, and nothing
else. -/
def ObjectSaid (o : PbxObject) (w : Plist) : Prop :=
  ∃ d, w = .dict d ∧ aget d c!"isa" = some (.text o.cls) ∧
    (∀ k v, (k, v) ∈ o.props → ∃ x, PropSaid o.cls k v x ∧ aget d k = some x) ∧
    (akeys d).Perm (c!"isa" :: akeys o.props)

/-- Objects with properties that survive, each once. -/
structure PlainObject (o : PbxObject) : Prop where
  id : PlainId o.id
  cls : PlainId o.cls
  keys : (c!"isa" :: akeys o.props).Nodup
  props : ∀ k v, (k, v) ∈ o.props → PlainText k ∧ ∃ x, PropSaid o.cls k v x

end Gyp.Spec
