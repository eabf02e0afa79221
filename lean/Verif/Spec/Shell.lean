import Verif.Basic
/-
How a POSIX shell (IEEE 1003.1 XCU 2.2, 2.3, 2.6) splits the arguments of a
simple command into words and removes quotes.

The reader is strict: it answers `none` as soon as it meets something that the
shell would not take literally (an operator, a comment, a newline ending the
command, a parameter or command substitution, a pattern, a tilde or brace), or
an unterminated quotation.  `some ws` therefore means that the program receives
exactly the argument vector `ws`.

`keepDollar` selects what happens to `$` inside double quotes: refuse
(`false`), or copy it (`true`, for text in which parameter expansions are
wanted; the result is then the word before expansion, and since it stands
inside double quotes its expansion is never split).
-/
namespace Gyp.Spec

inductive Mode
  | plain | plainEsc | single | double | doubleEsc
deriving DecidableEq

/-- Reader state: quoting mode, the word being read (if one has begun), and the
finished words. -/
structure Lex where
  mode : Mode
  cur : Option Str
  done : List Str
deriving DecidableEq

/-- Characters that are not literal outside quotes. -/
def activePlain (c : Char) : Bool :=
  c ∈ c!"$`\n&;<>()|*?[~#{}"

/-- Append characters to the current word, beginning one if necessary. -/
def Lex.push (s : Lex) (m : Mode) (cs : Str) : Lex :=
  { s with mode := m, cur := some (s.cur.getD [] ++ cs) }

/-- Read one character. -/
def lexStep (keepDollar : Bool) (s : Lex) (c : Char) : Option Lex :=
  match s.mode with
  | .plain =>
    if c = ' ' ∨ c = '\t' then
      some { mode := .plain, cur := none, done := s.done ++ s.cur.toList }
    else if c = '\\' then some { s with mode := .plainEsc }
    else if c = '\'' then some (s.push .single [])
    else if c = '"' then some (s.push .double [])
    else if activePlain c then none
    else some (s.push .plain [c])
  | .plainEsc =>
    if c = '\n' then some { s with mode := .plain }     -- line continuation
    else some (s.push .plain [c])
  | .single =>
    if c = '\'' then some { s with mode := .plain }
    else some (s.push .single [c])
  | .double =>
    if c = '"' then some { s with mode := .plain }
    else if c = '\\' then some { s with mode := .doubleEsc }
    else if c = '`' then none
    else if c = '$' ∧ keepDollar = false then none
    else some (s.push .double [c])
  | .doubleEsc =>
    if c = '\n' then some { s with mode := .double }
    else if c = '$' ∨ c = '`' ∨ c = '"' ∨ c = '\\' then some (s.push .double [c])
    else some (s.push .double ['\\', c])

/-- Read a text from a given state. -/
def lexRun (keepDollar : Bool) (s : Lex) : Str → Option Lex
  | [] => some s
  | c :: rest => (lexStep keepDollar s c).bind fun s' => lexRun keepDollar s' rest

/-- Words of a complete text: all quotations must be closed. -/
def lexWords (keepDollar : Bool) (text : Str) : Option (List Str) :=
  (lexRun keepDollar ⟨.plain, none, []⟩ text).bind fun s =>
    if s.mode = .plain then some (s.done ++ s.cur.toList) else none

/-- The argument vector a shell makes of a command line. -/
def shellWords (s : Str) : Option (List Str) := lexWords false s

/-- The same, with parameter expansions left in place inside double quotes. -/
def shellWordsKeepDollar (s : Str) : Option (List Str) := lexWords true s

example : shellWords c!"a  'b c' d\\ e\"f'\"" = some [c!"a", c!"b c", c!"d ef'"] := by
  decide
example : shellWords c!"a;b" = none := by decide

end Gyp.Spec
