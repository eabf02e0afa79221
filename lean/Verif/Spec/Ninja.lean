import Verif.Basic
/-
How ninja reads a line (ninja manual, "Lexical syntax"; not part of /repo).

`$` is the only escape character: `$$` is a dollar, `$ ` a space, `$:` a colon,
`$` before a newline continues the line and swallows the blanks that begin the
next one, `$` before anything else starts a variable reference.  Outside values,
unescaped blanks separate words, `:` and `|`, `||` are tokens of their own.
-/
namespace Gyp.Spec

/-- A piece of a word: a literal character, or the `$` that begins a variable
reference (the rest of which follows as literal pieces). -/
inductive Piece
  | lit (c : Char)
  | var (c : Char)
deriving DecidableEq

inductive Tok
  | word (w : List Piece)
  | colon | pipe | pipe2 | eol
deriving DecidableEq

inductive NMode
  | normal | dollar | cont | bar
deriving DecidableEq

structure NLex where
  mode : NMode
  cur : Option (List Piece)
  done : List Tok
deriving DecidableEq

def NLex.flush (s : NLex) : List Tok := s.done ++ (s.cur.map Tok.word).toList

def NLex.push (s : NLex) (p : Piece) : NLex :=
  { s with mode := .normal, cur := some (s.cur.getD [] ++ [p]) }

/-- One character outside an escape. -/
def ninjaPlain (s : NLex) (c : Char) : NLex :=
  if c = ' ' then ⟨.normal, none, s.flush⟩
  else if c = ':' then ⟨.normal, none, s.flush ++ [.colon]⟩
  else if c = '|' then ⟨.bar, none, s.flush⟩
  else if c = '\n' then ⟨.normal, none, s.flush ++ [.eol]⟩
  else if c = '$' then { s with mode := .dollar }
  else s.push (.lit c)

/-- One character of a statement line. -/
def ninjaStep (s : NLex) (c : Char) : NLex :=
  match s.mode with
  | .normal => ninjaPlain s c
  | .dollar =>
    if c = '$' ∨ c = ' ' ∨ c = ':' then s.push (.lit c)
    else if c = '\n' then { s with mode := .cont }
    else s.push (.var c)
  | .cont => if c = ' ' then s else ninjaPlain { s with mode := .normal } c
  | .bar =>
    if c = '|' then ⟨.normal, none, s.done ++ [.pipe2]⟩
    else ninjaPlain ⟨.normal, none, s.done ++ [.pipe]⟩ c

/-- Tokens of a text (a trailing unfinished escape is dropped: no caller relies
on that). -/
def ninjaTokens (t : Str) : List Tok := (t.foldl ninjaStep ⟨.normal, none, []⟩).flush

/-- The characters of a word without variable references. -/
def plainWord (w : List Piece) : Option Str :=
  w.mapM fun | .lit c => some c | .var _ => none

/-- Reading a variable's value: blanks, colons and bars are ordinary. -/
inductive VMode
  | normal | dollar | cont
deriving DecidableEq

def valueStep (s : VMode × List Piece) (c : Char) : VMode × List Piece :=
  match s with
  | (.normal, acc) => if c = '$' then (.dollar, acc) else (.normal, acc ++ [.lit c])
  | (.dollar, acc) =>
    if c = '$' ∨ c = ' ' ∨ c = ':' then (.normal, acc ++ [.lit c])
    else if c = '\n' then (.cont, acc)
    else (.normal, acc ++ [.var c])
  | (.cont, acc) =>
    if c = ' ' then (.cont, acc)
    else if c = '$' then (.dollar, acc) else (.normal, acc ++ [.lit c])

/-- The value denoted by a text (which may span continued lines). -/
def ninjaValue (t : Str) : List Piece := (t.foldl valueStep (.normal, [])).2

/-- A `build` statement: outputs, rule, inputs, implicit and order-only inputs. -/
structure BuildStmt where
  outputs : List Str
  rule : Str
  inputs : List Str
  implicit : List Str
  orderOnly : List Str
deriving DecidableEq

/-- Leading words of a token list. -/
def takeWords : List Tok → List Str × List Tok
  | .word w :: ts =>
    match plainWord w with
    | some s => ((s :: (takeWords ts).1), (takeWords ts).2)
    | none => ([], .word w :: ts)
  | ts => ([], ts)

/-- Read a build statement: `build outs: rule ins | implicit || order-only`. -/
def parseBuild (ts : List Tok) : Option BuildStmt :=
  match takeWords ts with
  | (kw :: outputs, .colon :: ts1) =>
    if kw ≠ c!"build" then none else
    match takeWords ts1 with
    | (rule :: inputs, ts2) =>
      let (implicit, ts3) := match ts2 with
        | .pipe :: ts' => takeWords ts'
        | _ => ([], ts2)
      let (orderOnly, ts4) := match ts3 with
        | .pipe2 :: ts' => takeWords ts'
        | _ => ([], ts3)
      if ts4 = [.eol] then some ⟨outputs, rule, inputs, implicit, orderOnly⟩ else none
    | _ => none
  | _ => none

example : parseBuild (ninjaTokens c!"build a$ b: cc c $\n    d | e || f\n") =
    some ⟨[c!"a b"], c!"cc", [c!"c", c!"d"], [c!"e"], [c!"f"]⟩ := by decide

end Gyp.Spec
