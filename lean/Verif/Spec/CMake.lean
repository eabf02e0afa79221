import Verif.Basic
/-
How CMake reads a file, after the `cmake-language(7)` manual: command invocations,
quoted and unquoted arguments, escape sequences, variable references, lists; and the
commands `set`, `unset` and `list(APPEND)`.  Every other command is recorded with the
arguments it is given.

Not described (the reader gives no result): bracket arguments and comments between the
arguments, parentheses inside the arguments, `$ENV{}` and `$CACHE{}`, nested references,
the options `PARENT_SCOPE` and `CACHE` of `set`.  Generator expressions `$<...>` are left
as text.
-/
namespace Gyp.Spec

/-- The values of the variables; a variable that is not set has the empty value. -/
abbrev CEnv := Str → Str

/-- An argument as written: between double quotes, or bare. -/
inductive CArg
  | quoted (text : Str)
  | bare (text : Str)
  deriving DecidableEq

/-- A command invocation as written. -/
structure CCall where
  name : Str
  args : List CArg
  deriving DecidableEq

/-- Where the reader is. -/
inductive CKMode
  /-- between commands -/
  | top
  /-- in a comment between commands -/
  | note
  /-- in the name of a command -/
  | ident
  /-- between arguments -/
  | gap
  /-- in a bare argument -/
  | bare
  | bareEsc
  /-- in a quoted argument -/
  | quoted
  | quotedEsc
  /-- right after a closing quote -/
  | closed
  deriving DecidableEq

structure CState where
  mode : CKMode
  done : List CCall
  name : Str
  args : List CArg
  cur : Str
  deriving DecidableEq

def isBlankC (c : Char) : Bool := c = ' ' || c = '\t' || c = '\n' || c = '\r'

def isAlnum (c : Char) : Bool :=
  ('a' ≤ c && c ≤ 'z') || ('A' ≤ c && c ≤ 'Z') || ('0' ≤ c && c ≤ '9')

/-- A character of the name of a command. -/
def isIdent (c : Char) : Bool := isAlnum c || c = '_'

/-- A character of the name of a variable in a reference. -/
def isVarChar (c : Char) : Bool := isAlnum c || c ∈ c!"/_.+-"

def lexStepC (s : CState) (c : Char) : Option CState :=
  match s.mode with
  | .top =>
    if isBlankC c then some s
    else if c = '#' then some { s with mode := .note }
    else if isIdent c then some { s with mode := .ident, name := [c], args := [] }
    else none
  | .note => some (if c = '\n' then { s with mode := .top } else s)
  | .ident =>
    if isIdent c then some { s with name := s.name ++ [c] }
    else if c = '(' then some { s with mode := .gap }
    else none
  | .gap =>
    if isBlankC c then some s
    else if c = ')' then
      some { s with mode := .top, done := s.done ++ [⟨s.name, s.args⟩] }
    else if c = '"' then some { s with mode := .quoted, cur := [] }
    else if c = '\\' then some { s with mode := .bareEsc, cur := [] }
    else if c ∈ c!"(#[" then none
    else some { s with mode := .bare, cur := [c] }
  | .bare =>
    if isBlankC c then some { s with mode := .gap, args := s.args ++ [.bare s.cur] }
    else if c = ')' then
      some { s with mode := .top, done := s.done ++ [⟨s.name, s.args ++ [.bare s.cur]⟩] }
    else if c = '\\' then some { s with mode := .bareEsc }
    else if c ∈ c!"(#\"" then none
    else some { s with cur := s.cur ++ [c] }
  | .bareEsc => some { s with mode := .bare, cur := s.cur ++ ['\\', c] }
  | .quoted =>
    if c = '"' then some { s with mode := .closed, args := s.args ++ [.quoted s.cur] }
    else if c = '\\' then some { s with mode := .quotedEsc }
    else some { s with cur := s.cur ++ [c] }
  | .quotedEsc => some { s with mode := .quoted, cur := s.cur ++ ['\\', c] }
  | .closed =>
    if isBlankC c then some { s with mode := .gap }
    else if c = ')' then
      some { s with mode := .top, done := s.done ++ [⟨s.name, s.args⟩] }
    else none

def lexAll (s : CState) : Str → Option CState
  | [] => some s
  | c :: cs => (lexStepC s c).bind fun s' => lexAll s' cs

/-- The commands of a file. -/
def readCommands (text : Str) : Option (List CCall) :=
  match lexAll ⟨.top, [], [], [], []⟩ text with
  | some s => if s.mode = .top then some s.done else none
  | none => none

/-- Inside the text of an argument. -/
inductive TMode
  | plain
  /-- after a backslash -/
  | esc
  /-- after a dollar sign -/
  | dollar
  /-- inside `${`, with the name so far -/
  | ref (name : Str)

/-- The text of an argument with its escape sequences and references replaced.  A backslash
and a semicolon stay as they are: they matter when a list is taken apart. -/
def evalFrom (env : CEnv) : TMode → Str → Option Str
  | .plain, [] => some []
  | .esc, [] => none
  | .dollar, [] => some ['$']
  | .ref _, [] => none
  | .plain, c :: r =>
    if c = '\\' then evalFrom env .esc r
    else if c = '$' then evalFrom env .dollar r
    else (evalFrom env .plain r).map (c :: ·)
  | .esc, c :: r =>
    if c = ';' then (evalFrom env .plain r).map (['\\', ';'] ++ ·)
    else if c = 't' then (evalFrom env .plain r).map ('\t' :: ·)
    else if c = 'r' then (evalFrom env .plain r).map ('\r' :: ·)
    else if c = 'n' then (evalFrom env .plain r).map ('\n' :: ·)
    else if c = '\n' then evalFrom env .plain r
    else if isAlnum c then none
    else (evalFrom env .plain r).map (c :: ·)
  | .dollar, c :: r =>
    if c = '{' then evalFrom env (.ref []) r
    else if isAlnum c then none
    else if c = '\\' then (evalFrom env .esc r).map ('$' :: ·)
    else if c = '$' then (evalFrom env .dollar r).map ('$' :: ·)
    else (evalFrom env .plain r).map (['$', c] ++ ·)
  | .ref n, c :: r =>
    if c = '}' then (evalFrom env .plain r).map (env n ++ ·)
    else if isVarChar c then evalFrom env (.ref (n ++ [c])) r
    else none

def evalText (env : CEnv) (text : Str) : Option Str := evalFrom env .plain text

/-- Taking a list apart: at every semicolon that no backslash precedes and that is not
inside square brackets; a backslash before a semicolon goes away; empty elements are
dropped. -/
def takeApart (nest : Int) (cur : Str) : Str → List Str
  | [] => if cur = [] then [] else [cur]
  | '\\' :: ';' :: r => takeApart nest (cur ++ [';']) r
  | ';' :: r =>
    if nest = 0 then (if cur = [] then [] else [cur]) ++ takeApart 0 [] r
    else takeApart nest (cur ++ [';']) r
  | c :: r =>
    takeApart (if c = '[' then nest + 1 else if c = ']' then nest - 1 else nest)
      (cur ++ [c]) r

/-- The elements of the list a text stands for. -/
def elements (text : Str) : List Str := takeApart 0 [] text

/-- What an argument gives the command: a quoted one a single text, a bare one the
elements of its text. -/
def argValues (env : CEnv) : CArg → Option (List Str)
  | .quoted t => (evalText env t).map fun v => [v]
  | .bare t => (evalText env t).map elements

def allValues (env : CEnv) : List CArg → Option (List Str)
  | [] => some []
  | a :: as =>
    match argValues env a, allValues env as with
    | some v, some vs => some (v ++ vs)
    | _, _ => none

def assign (env : CEnv) (name value : Str) : CEnv :=
  fun n => if n = name then value else env n

/-- A command that did something other than set a variable. -/
structure Told where
  command : Str
  args : List Str
  deriving DecidableEq

/-- One command: the variables afterwards, and what is recorded. -/
def invoke (env : CEnv) (name : Str) (args : List Str) : Option (CEnv × List Told) :=
  if name = c!"set" then
    match args with
    | [] => none
    | [n] => some (assign env n [], [])
    | n :: vs =>
      if c!"PARENT_SCOPE" ∈ vs ∨ c!"CACHE" ∈ vs then none
      else some (assign env n (joinWith [';'] vs), [])
  else if name = c!"unset" then
    match args with
    | [n] => some (assign env n [], [])
    | _ => none
  else if name = c!"list" then
    match args with
    | op :: n :: vs =>
      if op = c!"APPEND" then
        some (assign env n (joinWith [';'] ((if env n = [] then [] else [env n]) ++ vs)), [])
      else none
    | _ => none
  else some (env, [⟨name, args⟩])

def runCalls (env : CEnv) : List CCall → Option (CEnv × List Told)
  | [] => some (env, [])
  | c :: cs =>
    match allValues env c.args with
    | none => none
    | some vs =>
      match invoke env c.name vs with
      | none => none
      | some (env', told) =>
        match runCalls env' cs with
        | none => none
        | some (env'', told') => some (env'', told ++ told')

/-- Reading a file with CMake: the variables afterwards and the commands recorded. -/
def cmakeReads (env : CEnv) (text : Str) : Option (CEnv × List Told) :=
  match readCommands text with
  | some cs => runCalls env cs
  | none => none

/-! ### What the claims are about -/

/-- The list that the bare argument `${name}` stands for. -/
def listOf (env : CEnv) (name : Str) : List Str := elements (env name)

/-- A name that ends in two numbers, `_2_0`. -/
def endsInNumbers (n : Str) : Bool :=
  let r := n.reverse.dropWhile Char.isDigit
  n.reverse.head?.any Char.isDigit && r.head? == some '_' && r.tail.head?.any Char.isDigit &&
    (r.tail.dropWhile Char.isDigit).head? == some '_'

/-- The names kept for the inputs and outputs of actions, rules and copies and for the
sources and the include directories of targets. -/
def KeptName (n : Str) : Prop :=
  endsWith n c!"__input" ∨ endsWith n c!"__output" ∨ endsWith n c!"_srcs" ∨
    endsWith n c!"__include_dirs" ∨ endsWith n c!"__input_dirs" ∨ endsWith n c!"__output_dirs" ∨
    endsInNumbers n

instance (n : Str) : Decidable (KeptName n) := by unfold KeptName; infer_instance

/-- A text of a gyp file stands for another: `${name}` is a reference to a variable of
CMake whose value is no list, anything else stands for itself. -/
inductive Amounts (env : CEnv) : Str → Str → Prop
  | nil : Amounts env [] []
  | char {c : Char} {v w : Str} : c ≠ '$' → Amounts env v w → Amounts env (c :: v) (c :: w)
  | ref {n v w : Str} : n.all isVarChar → ¬ KeptName n → ';' ∉ env n → Amounts env v w →
      Amounts env (c!"${" ++ n ++ c!"}" ++ v) (env n ++ w)

/-- As many `[` as `]`. -/
def BracketsEven (w : Str) : Prop := w.count '[' = w.count ']'

/-- Fit to be an element of a list of CMake: not empty, not ending in a backslash, with
as many `[` as `]`. -/
def Element (w : Str) : Prop := w ≠ [] ∧ w.getLast? ≠ some '\\' ∧ BracketsEven w

instance (w : Str) : Decidable (Element w) := by
  unfold Element BracketsEven; infer_instance

/-- Letters, digits and the other characters that mean nothing to the reader. -/
def isPlainChar (c : Char) : Bool := isAlnum c || c ∈ c!"/_.+-,:=@%^~"

/-- A word that can stand bare. -/
def PlainWordC (w : Str) : Prop := w ≠ [] ∧ w.all isPlainChar

instance (w : Str) : Decidable (PlainWordC w) := by unfold PlainWordC; infer_instance

/-- A text that can stand bare: plain characters and references, standing for a text that
is not empty. -/
def BareWord (env : CEnv) (t w : Str) : Prop :=
  (∀ c ∈ t, isPlainChar c ∨ c ∈ c!"${}") ∧ Amounts env t w ∧ w ≠ []

/-- The name of a variable or of a target. -/
def NameC (n : Str) : Prop := n ≠ [] ∧ n.all isVarChar

instance (n : Str) : Decidable (NameC n) := by unfold NameC; infer_instance

/-- The options of `add_custom_command` and `add_custom_target` that are written. -/
def commandOptions : List Str :=
  [c!"OUTPUT", c!"COMMAND", c!"DEPENDS", c!"WORKING_DIRECTORY", c!"COMMENT", c!"VERBATIM",
   c!"SOURCES"]

/-- The arguments of such a command by option: what comes before the first option, and
each option with the values up to the next. -/
def byOption : List Str → List Str × List (Str × List Str)
  | [] => ([], [])
  | a :: r =>
    let (before, rest) := byOption r
    if a ∈ commandOptions then ([], (a, before) :: rest) else (a :: before, rest)

/-- What there is to an action, as CMake should see it: the paths of its inputs and
outputs, the directories to be made first, the words of its command, the words of the
comment. -/
structure ActionRead where
  ins : List Str
  outs : List Str
  dirs : List Str
  args : List Str
  comment : List Str

/-- CMake is told of an action: a command that makes the outputs from the inputs, first
making the directories with `cmake` itself (`cm`), in the directory `wd`; and a target
`name` that needs the outputs. -/
def RecordsAction (cm wd name : Str) (r : ActionRead) (told : List Told) : Prop :=
  ∃ cc ct, told = [⟨c!"add_custom_command", cc⟩, ⟨c!"add_custom_target", ct⟩] ∧
    byOption cc = ([],
      [(c!"OUTPUT", r.outs)] ++
      r.dirs.map (fun d => (c!"COMMAND", [cm, c!"-E", c!"make_directory", d])) ++
      [(c!"COMMAND", r.args), (c!"DEPENDS", r.ins), (c!"WORKING_DIRECTORY", [wd]),
       (c!"COMMENT", r.comment), (c!"VERBATIM", [])]) ∧
    byOption ct = ([name], [(c!"DEPENDS", r.outs), (c!"SOURCES", r.ins)])

end Gyp.Spec
