import Verif.Model.Merge
import Verif.Model.Scan
import Verif.Model.ShellQuote
/-
Variable expansion and conditions: `gyp/pylib/gyp/input.py` `ExpandVariables`,
`EvalCondition`, `ProcessVariablesAndConditionsInDict` and what they call.

The functions call each other; each is given the others as a record `Rec` and `recs` ties
the knot with a bound on the nesting of calls.

Simplifications: running commands, writing file lists, splitting by `shlex`, evaluating a
condition as a Python expression and `str()` of lists and dictionaries are parameters;
`str.isdigit` is taken on ASCII; dictionaries and lists are values, so that the in-place
expansion of a list that is also reachable as a variable is not seen through that
variable (it is expanded again when it is used).
-/
namespace Gyp

inductive ExpErr where
  /-- the bound on nested calls is reached (Python: `RecursionError`) -/
  | fuel
  /-- input.py:1007 `Undefined variable` -/
  | undefined (name : Str)
  /-- any other `GypError` -/
  | gyp
  /-- an `IndexError`, `AttributeError`, `TypeError` or `ValueError` -/
  | python
  /-- input.py:1326 a list where only a string or number may be -/
  | notScalar
  /-- from `MergeDicts` -/
  | merge (e : MergeErr)
deriving DecidableEq

/-- What is not modelled, and where the expansion takes place. -/
structure ExpEnv where
  /-- `<`, `>` or `^`, by phase: input.py:761-770 -/
  sym : Char
  /-- `conditions`, `target_conditions` or nothing, by phase: input.py:1221-1228 -/
  condKey : Option Str
  /-- Python's white space -/
  space : Char → Bool
  /-- input.py:899-991 run a command: is it an array, the command string, the command -/
  command : Bool → Option Str → Str → Except ExpErr Str
  /-- input.py:872-897 write a file list; the file name that replaces the reference -/
  fileList : Str → Except ExpErr Str
  /-- input.py:836-838 the list filters on a copy of the variables -/
  filterVars : Dict → Except ExpErr Dict
  /-- `shlex.split` -/
  shlex : Str → Except ExpErr (List Str)
  /-- `str()` of a value that is neither `str` nor `int` -/
  pyStr : Val → Str
  /-- input.py:1176-1185 compile and evaluate an expression in the given variables -/
  evalCond : Str → Dict → Except ExpErr Bool
  /-- for `MergeDicts(the_dict, merge_dict, build_file, build_file)` -/
  ctx : MergeCtx

/-- `str(v)`. -/
def ExpEnv.strOf (env : ExpEnv) : Val → Str
  | .str s => s
  | .int i => intStr i
  | v => env.pyStr v

/-- `s.strip()`. -/
def ExpEnv.strip (env : ExpEnv) (s : Str) : Str :=
  ((s.dropWhile env.space).reverse.dropWhile env.space).reverse

/-- One match of the variable pattern. -/
structure RefMatch where
  start : Nat
  /-- a `!` in the type -/
  bang : Bool
  /-- an `@` in the type -/
  at_ : Bool
  /-- a `|` in the type -/
  bar : Bool
  cmd : Option Str
  isArray : Bool
  /-- length of the match -/
  len : Nat
deriving DecidableEq

/-- input.py:719 the class `[-a-zA-Z0-9_.]`. -/
def cmdChar (c : Char) : Bool :=
  c = '-' || ('a' ≤ c && c ≤ 'z') || ('A' ≤ c && c ≤ 'Z') || ('0' ≤ c && c ≤ '9') || c = '_' ||
    c = '.'

/-- Drop one character if it is `c`. -/
def eat (c : Char) (s : Str) : Bool × Str :=
  match s with
  | [] => (false, [])
  | x :: r => if x = c then (true, r) else (false, x :: r)

/-- input.py:717-738 the pattern matched at the beginning of a text that comes at `pos`.  No
two parts of the pattern can match the same character except white space (`\s*` and `.*?`),
where giving characters back never helps, so matching is deterministic. -/
def matchHere (env : ExpEnv) (pos : Nat) (s : Str) : Option RefMatch :=
  match s with
  | [] => none
  | c :: r =>
    if c ≠ env.sym then none
    else
      let (bang, r1) := eat '!' r
      let (at_, r2) := eat '@' r1
      let (bar, r3) := if bang || at_ then (false, r2) else eat '|' r2
      let cmd := r3.takeWhile cmdChar
      let (paren, r4) := eat '(' (r3.dropWhile cmdChar)
      if !paren then none
      else
        let white := r4.takeWhile env.space
        let (bracket, r5) := eat '[' (r4.dropWhile env.space)
        let (close, r6) := eat ')' (r5.dropWhile fun c => c ≠ ')' && c ≠ '\n')
        if !close then none
        else some { start := pos, bang := bang, at_ := at_, bar := bar,
                    cmd := if cmd = [] then none else some cmd,
                    isArray := white ≠ [] || bracket, len := s.length - r6.length }

/-- `variable_re.finditer`: leftmost matches that do not overlap.  `skip` characters belong
to the last match. -/
def findRefs (env : ExpEnv) : Nat → Nat → Str → List RefMatch
  | _, _, [] => []
  | skip + 1, pos, _ :: r => findRefs env skip (pos + 1) r
  | 0, pos, c :: r =>
    match matchHere env pos (c :: r) with
    | some m => m :: findRefs env (m.len - 1) (pos + 1) r
    | none => findRefs env 0 (pos + 1) r

/-- A Python index into a sequence of the given length. -/
def pyIndex (len : Nat) (i : Int) : Nat :=
  if i < 0 then (i + len).toNat else min i.toNat len

/-- `s[a:b]`. -/
def pySlice (s : Str) (a b : Int) : Str :=
  (s.take (pyIndex s.length b)).drop (pyIndex s.length a)

/-- `IsStrCanonicalInt` and `int()` on a value. -/
def toInt : Val → Val
  | .str s => if IsStrCanonicalInt asciiDigit s then .int (pyInt s) else .str s
  | v => v

/-- The functions that call each other. -/
structure Rec where
  /-- `ExpandVariables(input, phase, variables, build_file)` -/
  expand : Val → Dict → Except ExpErr Val
  /-- `ProcessVariablesAndConditionsInList`: the list afterwards -/
  procList : List Val → Dict → Except ExpErr (List Val)
  /-- `ProcessVariablesAndConditionsInDict`: the dictionary afterwards -/
  procDict : Option Str → Dict → Dict → Except ExpErr Dict

/-- input.py:810-830 the range that is replaced, `contents` and `replacement`. -/
structure RefSpan where
  stop : Int
  contents : Str
  text : Str

/-- input.py:810-830 -/
def refSpan (m : RefMatch) (s : Str) : RefSpan :=
  let c : Int × Int := match FindEnclosingBracketGroup (s.drop m.start) with
    | none => (-1, -1)
    | some (a, b) => (a, b)
  let stop : Int := m.start + c.2
  ⟨stop, pySlice s (m.start + c.1 + 1) (stop - 1), pySlice s m.start stop⟩

/-- input.py:993-1011 look a variable up. -/
def lookupVar (contents : Str) (vars : Dict) : Except ExpErr Val :=
  match Dict.get? vars contents with
  | some v => .ok v
  | none =>
    match contents.getLast? with
    | none => .error .python
    | some c => if c = '!' ∨ c = '/' then .ok (.list []) else .error (.undefined contents)

/-- input.py:1013-1040 check the replacement and expand in a list. -/
def checkReplacement (r : Rec) (contents : Str) (vars : Dict) : Val → Except ExpErr Val
  | .str s => .ok (.str s)
  | .int i => .ok (.int i)
  | .list l =>
    if l ≠ [] ∧ contents = [] then .error .python
    else if contents.getLast? ≠ some '/' ∧ l.any (fun v => !v.isScalar) then .error .gyp
    else match r.procList l vars with
      | .ok l' => .ok (.list l')
      | .error e => .error e
  | _ => .error .gyp

/-- input.py:832-1011 what a reference stands for. -/
def refValue (env : ExpEnv) (r : Rec) (m : RefMatch) (contents : Str) (vars : Dict) :
    Except ExpErr (Str × Val) :=
  let inner : Except ExpErr Val :=
    if m.bar then
      match env.filterVars vars with
      | .error e => .error e
      | .ok vars' => r.expand (.str contents) vars'
    else r.expand (.str contents) vars
  match inner with
  | .error e => .error e
  | .ok (.str c) =>
    let c := env.strip c
    let v : Except ExpErr Val :=
      if m.bar then (env.fileList c).map Val.str
      else if m.bang then (env.command m.isArray m.cmd c).map Val.str
      else lookupVar c vars
    match v with
    | .error e => .error e
    | .ok v => .ok (c, v)
  | .ok _ => .error .python

/-- input.py:1054-1070 the text of a replacement in a string. -/
def encodeReplacement (env : ExpEnv) : Val → Str
  | .list l => EncodePOSIXShellList (l.map env.strOf)
  | v => env.strOf v

/-- input.py:793-1072 one match: a list replaces everything or a text is put in. -/
def expandMatch (env : ExpEnv) (r : Rec) (vars : Dict) (m : RefMatch) (s : Str) :
    Except ExpErr Val :=
  let span := refSpan m s
  match refValue env r m span.contents vars with
  | .error e => .error e
  | .ok (contents, v) =>
    match checkReplacement r contents vars v with
    | .error e => .error e
    | .ok v =>
      if m.at_ && s = span.text then
        match v with
        | .list l => .ok (.list l)
        | v => match env.shlex (env.strOf v) with
          | .error e => .error e
          | .ok ws => .ok (.list (ws.map Val.str))
      else .ok (.str (s.take m.start ++ encodeReplacement env v ++
        s.drop (pyIndex s.length span.stop)))

/-- input.py:793-1072 the loop over the matches, last one first. -/
def expandMatches (env : ExpEnv) (r : Rec) (vars : Dict) : List RefMatch → Val → Except ExpErr Val
  | [], out => .ok out
  | m :: ms, .str s =>
    match expandMatch env r vars m s with
    | .error e => .error e
    | .ok out => expandMatches env r vars ms out
  | _ :: _, _ => .error .python

/-- input.py:1086 -/
def firstIsList : List Val → Bool
  | .list _ :: _ => true
  | _ => false

/-- input.py:1074-1098 what is done with the output of the replacements. -/
def expandAgain (r : Rec) (vars : Dict) (input out : Val) : Except ExpErr Val :=
  match out with
  | .list l =>
    if firstIsList l then .ok (.list l)
    else match l.mapM (fun item => r.expand item vars) with
      | .error e => .error e
      | .ok l' => .ok (.list l')
  | .str s =>
    if input.scalarEq (.str s) then .ok (.str s) else r.expand (.str s) vars
  | v => .ok v

/-- input.py:1100-1106 -/
def finish : Val → Val
  | .list l => .list (l.map toInt)
  | v => toInt v

/-- input.py:759-1108 `ExpandVariables(input, phase, variables, build_file)`. -/
def expandStep (env : ExpEnv) (r : Rec) (input : Val) (vars : Dict) : Except ExpErr Val :=
  let s := env.strOf input
  if IsStrCanonicalInt asciiDigit s then .ok (.int (pyInt s))
  else if env.sym ∉ s then .ok (.str s)
  else
    let ms := findRefs env 0 0 s
    if ms = [] then .ok (.str s)
    else
      match expandMatches env r vars ms.reverse (.str s) with
      | .error e => .error e
      | .ok out =>
        match expandAgain r vars input out with
        | .error e => .error e
        | .ok v => .ok (finish v)

/-- input.py:1405-1439 `ProcessVariablesAndConditionsInList`: one item. -/
def procItem (r : Rec) (vars : Dict) : Val → Except ExpErr (List Val)
  | .dict d => match r.procDict none vars d with
    | .error e => .error e
    | .ok d' => .ok [.dict d']
  | .list l => match r.procList l vars with
    | .error e => .error e
    | .ok l' => .ok [.list l']
  | .str s => match r.expand (.str s) vars with
    | .error e => .error e
    | .ok (.list l) => .ok l
    | .ok (.str t) => .ok [.str t]
    | .ok (.int i) => .ok [.int i]
    | .ok _ => .error .python
  | .int i => .ok [.int i]
  | .other => .error .python

/-- input.py:1405-1439 `ProcessVariablesAndConditionsInList`. -/
def procListStep (r : Rec) (l : List Val) (vars : Dict) : Except ExpErr (List Val) :=
  match l.mapM (procItem r vars) with
  | .error e => .error e
  | .ok ls => .ok ls.flatten

/-! ### Variables of a dictionary -/

/-- `type(value) in (str, int, list)`. -/
def Val.isPlain : Val → Bool
  | .str _ => true
  | .int _ => true
  | .list _ => true
  | _ => false

/-- input.py:1252-1257 `LoadAutomaticVariablesFromDict(variables, the_dict)`. -/
def LoadAutomaticVariablesFromDict (vars : Dict) (d : Dict) : Dict :=
  d.foldl (fun vars e => if e.2.isPlain then Dict.set vars ('_' :: e.1) e.2 else vars) vars

/-- input.py:1268-1285 one entry of the `variables` dictionary. -/
def loadVariable (theDict : Dict) (inVariables : Bool) (vars : Dict) (e : Str × Val) : Dict :=
  if !e.2.isPlain then vars
  else if endsWith e.1 ['%'] then
    let name := e.1.dropLast
    if (Dict.get? vars name).isSome then vars
    else if inVariables then Dict.set vars name ((Dict.get? theDict name).getD e.2)
    else Dict.set vars name e.2
  else Dict.set vars e.1 e.2

/-- `the_dict.get("variables", {})`; `none`: it has no `items`. -/
def variablesOf (d : Dict) : Option Dict :=
  match Dict.get? d c!"variables" with
  | none => some []
  | some (.dict v) => some v
  | some _ => none

/-- input.py:1260-1285 `LoadVariablesFromVariablesDict(variables, the_dict, the_dict_key)`. -/
def LoadVariablesFromVariablesDict (vars : Dict) (d : Dict) (key : Option Str) :
    Except ExpErr Dict :=
  match variablesOf d with
  | none => .error .python
  | some vs => .ok (vs.foldl (loadVariable d (key = some c!"variables")) vars)

/-! ### Conditions -/

/-- input.py:1161-1201 `EvalSingleCondition`: which dictionary to use. -/
def EvalSingleCondition (env : ExpEnv) (r : Rec) (vars : Dict) (expr : Val) (trueDict : Dict)
    (falseDict : Option Dict) : Except ExpErr (Option Dict) :=
  match r.expand expr vars with
  | .error e => .error e
  | .ok (.str s) =>
    match env.evalCond s vars with
    | .error e => .error e
    | .ok true => .ok (some trueDict)
    | .ok false => .ok falseDict
  | .ok _ => .error .python

/-- input.py:1132-1158 the loop of `EvalCondition`. -/
def evalLoop (single : Val → Dict → Option Dict → Except ExpErr (Option Dict)) :
    List Val → Option Dict → Except ExpErr (Option Dict)
  | [], result => .ok result
  | [_], _ => .error .python
  | expr :: .dict t :: rest, result =>
    let next (falseDict : Option Dict) : Except ExpErr (Option Dict) :=
      match result with
      | some d => .ok (some d)
      | none => single expr t falseDict
    match rest with
    | .dict f :: rest' =>
      if rest' ≠ [] then .error .gyp
      else next (some f)
    | rest =>
      match next none with
      | .error e => .error e
      | .ok result' => evalLoop single rest result'
  | _ :: _ :: _, _ => .error .gyp

/-- input.py:1116-1158 `EvalCondition(condition, ...)`.  For a list of length 1 the message
is built from `condition[0]`, which fails differently if that is no string. -/
def EvalCondition (single : Val → Dict → Option Dict → Except ExpErr (Option Dict)) :
    Val → Except ExpErr (Option Dict)
  | .list l => if l.length < 2 then .error .gyp else evalLoop single l none
  | _ => .error .gyp

/-- input.py:1237-1249 one condition: evaluate it, process the chosen dictionary, merge. -/
def applyCondition (env : ExpEnv) (r : Rec) (vars : Dict) (d : Dict) (cond : Val) :
    Except ExpErr Dict :=
  match EvalCondition (EvalSingleCondition env r vars) cond with
  | .error e => .error e
  | .ok none => .ok d
  | .ok (some m) =>
    match r.procDict none vars m with
    | .error e => .error e
    | .ok m' =>
      match MergeDicts env.ctx d m' with
      | .error e => .error (.merge e)
      | .ok d' => .ok d'

/-- input.py:1237-1249 the loop over the conditions. -/
def applyConditions (env : ExpEnv) (r : Rec) (vars : Dict) : Dict → List Val → Except ExpErr Dict
  | d, [] => .ok d
  | d, c :: cs =>
    match applyCondition env r vars d c with
    | .error e => .error e
    | .ok d' => applyConditions env r vars d' cs

/-- input.py:1204-1249 `ProcessConditionsInDict`.  A conditions section that is a string
or a dictionary is iterated by Python; its items are no lists, so that is an error unless
it is empty. -/
def ProcessConditionsInDict (env : ExpEnv) (r : Rec) (vars : Dict) (d : Dict) :
    Except ExpErr Dict :=
  match env.condKey with
  | none => .ok d
  | some key =>
    match Dict.get? d key with
    | none => .ok d
    | some (.list conds) => applyConditions env r vars (Dict.del d key) conds
    | some (.str []) => .ok (Dict.del d key)
    | some (.dict []) => .ok (Dict.del d key)
    | some (.str _) => .error .gyp
    | some (.dict _) => .error .gyp
    | some _ => .error .python

/-! ### Dictionaries -/

/-- input.py:1322-1334 expand one string. -/
def expandEntry (r : Rec) (vars : Dict) (e : Str × Val) : Except ExpErr (Str × Val) :=
  match e.2 with
  | .str s =>
    if e.1 = c!"variables" then .ok e
    else
      match r.expand (.str s) vars with
      | .error e => .error e
      | .ok v => if v.isScalar then .ok (e.1, v) else .error .notScalar
  | _ => .ok e

/-- input.py:1384-1402 one child. -/
def procEntry (r : Rec) (vars : Dict) (e : Str × Val) : Except ExpErr (Str × Val) :=
  if e.1 = c!"variables" then .ok e
  else
    match e.2 with
    | .str _ => .ok e
    | .int _ => .ok e
    | .dict d => match r.procDict (some e.1) vars d with
      | .error e => .error e
      | .ok d' => .ok (e.1, .dict d')
    | .list l => match r.procList l vars with
      | .error e => .error e
      | .ok l' => .ok (e.1, .list l')
    | .other => .error .python

/-- input.py:1303-1318 process the `variables` dictionary of a dictionary; `vars` has the
automatic variables. -/
def procVariables (r : Rec) (vars : Dict) (d : Dict) : Except ExpErr (Dict × Dict) :=
  match Dict.get? d c!"variables" with
  | none => .ok (vars, d)
  | some (.dict vs) =>
    let vars := vs.foldl (fun vars e => Dict.set vars e.1 e.2) vars
    match r.procDict (some c!"variables") vars vs with
    | .error e => .error e
    | .ok vs' => .ok (vars, Dict.set d c!"variables" (.dict vs'))
  | some _ => .error .python

/-- The variables seen in a dictionary: those from outside, then the automatic ones, then
those of its `variables` section. -/
def scopeOf (vars : Dict) (key : Option Str) (d : Dict) : Except ExpErr Dict :=
  LoadVariablesFromVariablesDict (LoadAutomaticVariablesFromDict vars d) d key

/-- input.py:1288-1402 `ProcessVariablesAndConditionsInDict`. -/
def procDictStep (env : ExpEnv) (r : Rec) (key : Option Str) (vars : Dict) (d : Dict) :
    Except ExpErr Dict :=
  match procVariables r (LoadAutomaticVariablesFromDict vars d) d with
  | .error e => .error e
  | .ok (vars1, d1) =>
    match LoadVariablesFromVariablesDict vars1 d1 key with
    | .error e => .error e
    | .ok vars2 =>
      match d1.mapM (expandEntry r vars2) with
      | .error e => .error e
      | .ok d2 =>
        match scopeOf vars key d2 with
        | .error e => .error e
        | .ok vars3 =>
          match ProcessConditionsInDict env r vars3 d2 with
          | .error e => .error e
          | .ok d3 =>
            match scopeOf vars key d3 with
            | .error e => .error e
            | .ok vars4 => d3.mapM (procEntry r vars4)

/-- All functions, with a bound on the nesting of calls. -/
def recs (env : ExpEnv) : Nat → Rec
  | 0 => ⟨fun _ _ => .error .fuel, fun _ _ => .error .fuel, fun _ _ _ => .error .fuel⟩
  | n + 1 => ⟨expandStep env (recs env n), procListStep (recs env n),
      procDictStep env (recs env n)⟩

/-- input.py:759-1108 `ExpandVariables`, calls nested at most `fuel` deep. -/
def ExpandVariables (env : ExpEnv) (fuel : Nat) (input : Val) (vars : Dict) : Except ExpErr Val :=
  (recs env fuel).expand input vars

/-- input.py:1405-1439 `ProcessVariablesAndConditionsInList`. -/
def ProcessVariablesAndConditionsInList (env : ExpEnv) (fuel : Nat) (l : List Val) (vars : Dict) :
    Except ExpErr (List Val) := (recs env fuel).procList l vars

/-- input.py:1288-1402 `ProcessVariablesAndConditionsInDict`. -/
def ProcessVariablesAndConditionsInDict (env : ExpEnv) (fuel : Nat) (key : Option Str)
    (vars d : Dict) : Except ExpErr Dict := (recs env fuel).procDict key vars d

end Gyp
