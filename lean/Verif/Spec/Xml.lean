import Verif.Basic
/-
A reader for XML documents (XML 1.0, the part needed here: a declaration, elements,
attributes in double quotes, character data, predefined entities and character
references; not part of /repo).  It follows the standard where that matters for
faithfulness: end tags must match, attributes must be distinct, `<` is not allowed
in attribute values, characters must be legal, and blanks in attribute values are
normalised to spaces.
-/
namespace Gyp.Spec

inductive Ev
  | start (name : Str) (attrs : List (Str × Str))
  | char (c : Char)
  | stop (name : Str)
deriving DecidableEq

inductive XMode
  | content
  | contentRef (buf : Str)
  | lt
  | decl (q : Bool)
  | tag (name : Str)
  | attrs (name : Str) (as : List (Str × Str)) (blank : Bool)
  | attName (name : Str) (as : List (Str × Str)) (n : Str)
  | attEq (name : Str) (as : List (Str × Str)) (n : Str)
  | attVal (name : Str) (as : List (Str × Str)) (n v : Str)
  | attRef (name : Str) (as : List (Str × Str)) (n v buf : Str)
  | empty (name : Str) (as : List (Str × Str))
  | endTag (name : Str)
deriving DecidableEq

structure XSt where
  mode : XMode
  stack : List Str
  evs : List Ev
deriving DecidableEq

/-- XML 1.0 `Char` (Lean characters exclude the surrogates already). -/
def xmlLegal (c : Char) : Bool :=
  (32 ≤ c.toNat || c = '\t' || c = '\n' || c = '\r') && c.toNat ≠ 0xFFFE && c.toNat ≠ 0xFFFF

/-- Characters of names (ASCII part of `NameChar`). -/
def nameChar (c : Char) : Bool := c.isAlphanum || c = '_' || c = '-' || c = '.' || c = ':'

def hexDigit (c : Char) : Option Nat :=
  if '0' ≤ c ∧ c ≤ '9' then some (c.toNat - 48)
  else if 'A' ≤ c ∧ c ≤ 'F' then some (c.toNat - 55)
  else if 'a' ≤ c ∧ c ≤ 'f' then some (c.toNat - 87)
  else none

/-- The character an entity or character reference stands for. -/
def xmlEntity (buf : Str) : Option Char :=
  if buf = c!"quot" then some '"'
  else if buf = c!"apos" then some '\''
  else if buf = c!"lt" then some '<'
  else if buf = c!"gt" then some '>'
  else if buf = c!"amp" then some '&'
  else match buf with
    | '#' :: 'x' :: ds =>
      (ds.foldl (fun acc d => acc.bind fun n => (hexDigit d).map (16 * n + ·)) (some 0)).map
        Char.ofNat
    | _ => none

/-- Character data: outside the root element only blanks may occur. -/
def xmlChar (s : XSt) (c : Char) : Option XSt :=
  if s.stack = [] then
    if c = ' ' ∨ c = '\n' ∨ c = '\t' ∨ c = '\r' then some { s with mode := .content } else none
  else some { s with mode := .content, evs := s.evs ++ [.char c] }

def xmlOpen (s : XSt) (name : Str) (as : List (Str × Str)) : Option XSt :=
  some ⟨.content, name :: s.stack, s.evs ++ [.start name as]⟩

def xmlStep (s : XSt) (c : Char) : Option XSt :=
  match s.mode with
  | .content =>
    if c = '<' then some { s with mode := .lt }
    else if c = '&' then some { s with mode := .contentRef [] }
    else if c = '\r' then xmlChar s '\n'
    else if xmlLegal c then xmlChar s c else none
  | .contentRef buf =>
    if c = ';' then (xmlEntity buf).bind fun d => if xmlLegal d then xmlChar s d else none
    else some { s with mode := .contentRef (buf ++ [c]) }
  | .lt =>
    if c = '/' then some { s with mode := .endTag [] }
    else if c = '?' then
      if s.stack = [] ∧ s.evs = [] then some { s with mode := .decl false } else none
    else if nameChar c then
      if s.stack = [] ∧ s.evs ≠ [] then none else some { s with mode := .tag [c] }
    else none
  | .decl q => if q ∧ c = '>' then some { s with mode := .content }
      else some { s with mode := .decl (c = '?') }
  | .tag name =>
    if nameChar c then some { s with mode := .tag (name ++ [c]) }
    else if c = ' ' then some { s with mode := .attrs name [] true }
    else if c = '>' then xmlOpen s name []
    else if c = '/' then some { s with mode := .empty name [] }
    else none
  | .attrs name as blank =>
    if c = ' ' then some { s with mode := .attrs name as true }
    else if c = '>' then xmlOpen s name as
    else if c = '/' then some { s with mode := .empty name as }
    else if nameChar c ∧ blank then some { s with mode := .attName name as [c] }
    else none
  | .attName name as n =>
    if nameChar c then some { s with mode := .attName name as (n ++ [c]) }
    else if c = '=' then
      if n ∈ as.map Prod.fst then none else some { s with mode := .attEq name as n }
    else none
  | .attEq name as n => if c = '"' then some { s with mode := .attVal name as n [] } else none
  | .attVal name as n v =>
    if c = '"' then some { s with mode := .attrs name (as ++ [(n, v)]) false }
    else if c = '<' then none
    else if c = '&' then some { s with mode := .attRef name as n v [] }
    else if c = '\t' ∨ c = '\n' ∨ c = '\r' then some { s with mode := .attVal name as n (v ++ [' ']) }
    else if xmlLegal c then some { s with mode := .attVal name as n (v ++ [c]) } else none
  | .attRef name as n v buf =>
    if c = ';' then (xmlEntity buf).bind fun d =>
      if xmlLegal d then some { s with mode := .attVal name as n (v ++ [d]) } else none
    else some { s with mode := .attRef name as n v (buf ++ [c]) }
  | .empty name as =>
    if c = '>' then some ⟨.content, s.stack, s.evs ++ [.start name as, .stop name]⟩ else none
  | .endTag name =>
    if nameChar c then some { s with mode := .endTag (name ++ [c]) }
    else if c = '>' then
      match s.stack with
      | top :: rest => if top = name then some ⟨.content, rest, s.evs ++ [.stop name]⟩ else none
      | [] => none
    else none

def xmlRun (s : XSt) : Str → Option XSt
  | [] => some s
  | c :: t => (xmlStep s c).bind fun s' => xmlRun s' t

/-- The events of a complete document: exactly one root element. -/
def xmlRead (t : Str) : Option (List Ev) :=
  (xmlRun ⟨.content, [], []⟩ t).bind fun s =>
    if s.mode = .content ∧ s.stack = [] ∧ s.evs ≠ [] then some s.evs else none

/-- Two events are the same when they agree up to the order of attributes (which
XML does not define). -/
def Ev.same : Ev → Ev → Prop
  | .start n as, .start m bs => n = m ∧ as.Perm bs
  | a, b => a = b

example : xmlRead c!"<?xml version=\"1.0\"?><a x=\"1&amp;2\"><b/>t&#x41;</a>" =
    some [.start c!"a" [(c!"x", c!"1&2")], .start c!"b" [], .stop c!"b", .char 't', .char 'A',
      .stop c!"a"] := by decide +kernel

end Gyp.Spec
