import Verif.Spec.Make
/-
How GNU make expands texts with functions (GNU make manual, "Functions for Transforming Text" and
"Canned Recipes"; not part of /repo).

A text is first taken apart: references and calls of functions, the arguments of which are
separated by the commas outside of parentheses.  Then it is expanded from the inside.  Only the
functions that the header of the makefiles uses are here.
-/
namespace Gyp.Spec

/-! ### The parts of a text -/

/-- The parts of a text, and lists of arguments. -/
inductive MkExp
  | nil
  /-- a text -/
  | lit (s : Str) (rest : MkExp)
  /-- a reference to the variable with a name -/
  | ref (name : MkExp) (rest : MkExp)
  /-- a call of a function with a list of arguments -/
  | fn (name : Str) (args : MkExp) (rest : MkExp)
  /-- an argument, and the others -/
  | arg (a : MkExp) (rest : MkExp)
deriving DecidableEq

/-- The text up to the parenthesis that closes it, and the text after that. -/
def closing : Nat → Str → Option (Str × Str)
  | _, [] => none
  | depth, c :: rest =>
    if c = ')' then
      match depth with
      | 0 => some ([], rest)
      | d + 1 => (closing d rest).map fun (a, b) => (c :: a, b)
    else if c = '(' then (closing (depth + 1) rest).map fun (a, b) => (c :: a, b)
    else (closing depth rest).map fun (a, b) => (c :: a, b)

/-- The first argument, and the text after the comma. -/
def firstArg : Nat → Str → Str × Option Str
  | _, [] => ([], none)
  | depth, c :: rest =>
    if c = ',' ∧ depth = 0 then ([], some rest)
    else
      let d := if c = '(' then depth + 1 else if c = ')' then depth - 1 else depth
      let (a, b) := firstArg d rest
      (c :: a, b)

/-- At most `n` arguments (all of them if `n` is zero); the last one may contain commas. -/
def callArgs : Nat → Nat → Str → List Str
  | 0, _, _ => []
  | fuel + 1, n, s =>
    if n = 1 then [s]
    else
      match firstArg 0 s with
      | (a, some rest) => a :: callArgs fuel (n - 1) rest
      | (a, none) => [a]

/-- The functions, with the number of their arguments (zero: any number). -/
def makeFunctions : List (Str × Nat) :=
  [(c!"subst", 3), (c!"findstring", 2), (c!"filter-out", 2), (c!"word", 2), (c!"dir", 1), (c!"notdir", 1),
   (c!"if", 3), (c!"or", 0), (c!"and", 0), (c!"call", 0)]

def blankOrLine (c : Char) : Bool := c = ' ' || c = '\t' || c = '\n'

/-- Without blanks at both ends. -/
def stripText (s : Str) : Str := ((s.dropWhile blankOrLine).reverse.dropWhile blankOrLine).reverse

/-- The function that is called in the text between two parentheses, its arguments as text. -/
def functionCall (s : Str) : Option (Str × List Str) :=
  match s.span (fun c => !blankOrLine c) with
  | (_, []) => none
  | (f, rest) =>
    match makeFunctions.lookup f with
    | none => none
    | some n =>
      let args := callArgs (s.length + 1) n (rest.dropWhile blankOrLine)
      some (f,
        if f = c!"or" ∨ f = c!"and" then args.map stripText
        else if f = c!"if" then (args.take 1).map stripText ++ args.drop 1
        else args)

/-- Put a text before the parts of a text. -/
def litChar (c : Char) : MkExp → MkExp
  | .lit s rest => .lit (c :: s) rest
  | e => .lit [c] e

/-- The parts of a text (`none`: a parenthesis is missing). -/
def parseText : Nat → Str → Option MkExp
  | _, [] => some .nil
  | 0, _ => none
  | n + 1, '$' :: '$' :: rest => (parseText n rest).map (litChar '$')
  | n + 1, '$' :: '(' :: rest => do
    let (inner, rest) ← closing 0 rest
    let after ← parseText n rest
    match functionCall inner with
    | some (f, args) =>
      let args ← args.foldr (fun a l => do
        let l ← l
        let a ← parseText n a
        some (.arg a l)) (some .nil)
      some (.fn f args after)
    | none => do
      let name ← parseText n inner
      some (.ref name after)
  | n + 1, '$' :: c :: rest => (parseText n rest).map (.ref (.lit [c] .nil))
  | n + 1, c :: rest => (parseText n rest).map (litChar c)

/-- The parts of a text. -/
def partsOf (s : Str) : Option MkExp := parseText (s.length + 1) s

/-! ### Functions -/

/-- The words of a text. -/
def wordsFrom : Str → Str → List Str
  | cur, [] => if cur = [] then [] else [cur]
  | cur, c :: rest =>
    if blankOrLine c then (if cur = [] then [] else [cur]) ++ wordsFrom [] rest else wordsFrom (cur ++ [c]) rest

def makeWords (s : Str) : List Str := wordsFrom [] s

/-- `$(subst from,to,text)`: with nothing to look for, `to` is put at the end. -/
def makeSubst (old new s : Str) : Str := if old = [] then s ++ new else replaceStr old new s

/-- The text is in another one. -/
def foundIn (x : Str) : Str → Bool
  | [] => x = []
  | c :: rest => x.isPrefixOf (c :: rest) || foundIn x rest

/-- The word matches the pattern. -/
def matchesPattern (pattern w : Str) : Bool :=
  match split1 '%' pattern with
  | none => pattern = w
  | some (a, b) => a.length + b.length ≤ w.length ∧ a.isPrefixOf w ∧ b.isSuffixOf w

/-- `$(filter-out patterns,text)` -/
def filterOut (patterns text : Str) : Str :=
  joinWith [' '] ((makeWords text).filter fun w => !(makeWords patterns).any fun p => matchesPattern p w)

/-- The part of a name up to the last slash, and after it. -/
def dirPart (w : Str) : Str :=
  match rsplit1 '/' w with
  | some (a, _) => a ++ c!"/"
  | none => c!"./"

def filePart (w : Str) : Str :=
  match rsplit1 '/' w with
  | some (_, b) => b
  | none => w

/-- A number in decimal. -/
def numberOf (s : Str) : Nat := s.foldl (fun n c => 10 * n + (c.toNat - '0'.toNat)) 0

/-- The value of a function other than `call`. -/
def functionResult (f : Str) (args : List Str) : Str :=
  if f = c!"subst" then
    match args with
    | [a, b, s] => makeSubst a b s
    | _ => []
  else if f = c!"findstring" then
    match args with
    | [a, s] => if foundIn a s then a else []
    | _ => []
  else if f = c!"filter-out" then
    match args with
    | [a, s] => filterOut a s
    | _ => []
  else if f = c!"word" then
    match args with
    | [n, s] => (makeWords s).getD (numberOf n - 1) []
    | _ => []
  else if f = c!"dir" then joinWith [' '] ((makeWords (args.headD [])).map dirPart)
  else if f = c!"notdir" then joinWith [' '] ((makeWords (args.headD [])).map filePart)
  else if f = c!"if" then
    match args with
    | [a, b] => if a = [] then [] else b
    | [a, b, c] => if a = [] then c else b
    | _ => []
  else if f = c!"or" then (args.find? (· ≠ [])).getD []
  else if f = c!"and" then if args.all (· ≠ []) then args.getLastD [] else []
  else []

/-! ### Expansion -/

mutual
/-- A text with its references and calls replaced; `look` gives the value of a variable, with the
arguments it is called with, and `given` are the arguments of the text itself. -/
def valueIn (look : Str → List Str → Str) (given : List Str) : MkExp → Str
  | .nil => []
  | .lit s rest => s ++ valueIn look given rest
  | .ref name rest => look (valueIn look given name) given ++ valueIn look given rest
  | .fn f args rest =>
    let xs := valuesIn look given args
    (if f = c!"call" then look (stripText (xs.headD [])) (xs.drop 1) else functionResult f xs) ++
      valueIn look given rest
  | .arg _ _ => []
/-- The values of arguments. -/
def valuesIn (look : Str → List Str → Str) (given : List Str) : MkExp → List Str
  | .arg a rest => valueIn look given a :: valuesIn look given rest
  | _ => []
end

/-- The argument that `1`, `2`, ... stands for. -/
def givenArg (given : List Str) (name : Str) : Option Str :=
  match name with
  | [c] => if '1' ≤ c ∧ c ≤ '9' then some (given.getD (c.toNat - '1'.toNat) []) else none
  | _ => none

/-- The value of a variable: an argument, a text that is expanded now, or a plain value.  The
number bounds how deep texts refer to others. -/
def lookUp (defs : Str → Option MkExp) (vals : Str → Str) : Nat → Str → List Str → Str
  | n, name, given =>
    match givenArg given name with
    | some x => x
    | none =>
      match n, defs name with
      | m + 1, some e => valueIn (lookUp defs vals m) given e
      | _, _ => vals name

/-! ### Recipes -/

/-- The lines of a text; the end of a line after a backslash does not count.  `odd`: after an odd
number of backslashes. -/
def recipeSplit (odd : Bool) (cur : Str) : Str → List Str
  | [] => [cur]
  | c :: rest =>
    if c = '\n' ∧ odd = false then cur :: recipeSplit false [] rest
    else recipeSplit (c = '\\' && !odd) (cur ++ [c]) rest

/-- The lines of a recipe. -/
def recipeLines (s : Str) : List Str :=
  ((recipeSplit false [] s).map fun l => l.dropWhile isBlank).filter (· ≠ [])

example : recipeLines c!"\n  @a\n\n  b \\\n  c\n" = [c!"@a", c!"b \\\n  c"] := by decide

example : partsOf c!"a$(b c)$$d$(if $(x), y,z)$@" = some (.lit c!"a" (.ref (.lit c!"b c" .nil) (.lit c!"$d"
    (.fn c!"if" (.arg (.ref (.lit c!"x" .nil) .nil) (.arg (.lit c!" y" .nil) (.arg (.lit c!"z" .nil) .nil)))
      (.ref (.lit c!"@" .nil) .nil))))) := by decide +kernel

end Gyp.Spec
