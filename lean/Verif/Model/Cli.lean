import Verif.Model.Assoc
/-
The command line of node-gyp: `lib/node-gyp.js` and `bin/node-gyp.js`.
-/
namespace Gyp

/-- lib/node-gyp.js:9-19 `commands`. -/
def cliCommands : List Str :=
  [c!"build", c!"clean", c!"configure", c!"rebuild", c!"install", c!"list", c!"remove"]

/-- lib/node-gyp.js:69-72 `aliases`. -/
def cliAliases : List (Str × Str) := [(c!"ls", c!"list"), (c!"rm", c!"remove")]

/-- The names every JavaScript object inherits from `Object.prototype`: the operator `in`
answers true for them. -/
def objectProto : List Str :=
  [c!"constructor", c!"__defineGetter__", c!"__defineSetter__", c!"hasOwnProperty",
    c!"__lookupGetter__", c!"__lookupSetter__", c!"isPrototypeOf", c!"propertyIsEnumerable",
    c!"toString", c!"valueOf", c!"__proto__", c!"toLocaleString"]

/-- An element of the mapped argument vector: a text, or the value an object inherits under a
name. -/
inductive CliWord where
  | text (s : Str)
  | inherited (name : Str)
deriving DecidableEq

/-- lib/node-gyp.js:101-107: the word behind an alias. -/
def mapAlias (arg : Str) : CliWord :=
  match aget cliAliases arg with
  | some t => .text t
  | none => if arg ∈ objectProto then .inherited arg else .text arg

/-- lib/node-gyp.js:111 `arg in this.commands`.  The text form of an inherited value (a
function or an object) is no key. -/
def isCliCommand : CliWord → Bool
  | .text s => decide (s ∈ cliCommands) || decide (s ∈ objectProto)
  | .inherited _ => false

/-- An entry of `gyp.todo`. -/
structure CliCmd where
  name : CliWord
  args : List CliWord
deriving DecidableEq

/-- `commands[commands.length - 1].args = args` -/
def setLastArgs : List CliCmd → List CliWord → List CliCmd
  | [], _ => []
  | [c], args => [{ c with args := args }]
  | c :: d :: cs, args => c :: setLastArgs (d :: cs) args

/-- lib/node-gyp.js:110-119: one round of the loop; the state is the remaining vector and the
commands so far. -/
def cliStep (st : List CliWord × List CliCmd) (arg : CliWord) : List CliWord × List CliCmd :=
  if isCliCommand arg = true then
    let i := if arg ∈ st.1 then st.1.idxOf arg else 0
    let args := st.1.take i
    let argv := (st.1.drop i).drop 1
    let cmds := if st.2.length > 0 then setLastArgs st.2 args else st.2
    (argv, cmds ++ [{ name := arg, args := [] }])
  else st

/-- lib/node-gyp.js:98-122: the queue made from the words that are no options.  Which words
these are (the package nopt) is not modelled. -/
def parseCommands (remain : List Str) : List CliCmd :=
  let argv := remain.map mapAlias
  let st := argv.foldl cliStep (argv, [])
  if st.2.length > 0 then setLastArgs st.2 st.1 else st.2

/-- The value of an option. -/
inductive OptVal where
  | text (s : Str)
  | flag (b : Bool)
  | words (l : List Str)
deriving DecidableEq

/-- Truth of a value in JavaScript. -/
def OptVal.truthy : OptVal → Bool
  | .text s => decide (s ≠ [])
  | .flag b => b
  | .words _ => true

/-- lib/node-gyp.js:125 -/
def npmPrefix : Str := c!"npm_config_"

/-- lib/node-gyp.js:126-146: one environment variable; the state is the table of options and the
level of the log. -/
def npmStep (st : List (Str × OptVal) × Option OptVal) (e : Str × Str) :
    List (Str × OptVal) × Option OptVal :=
  if startsWith e.1 npmPrefix = false then st
  else if e.1 = npmPrefix ++ c!"loglevel" then (st.1, some (.text e.2))
  else
    let name := e.1.drop npmPrefix.length
    if name ≠ [] then (aset st.1 (replaceChar '_' c!"-" name) (.text e.2), st.2) else st

/-- lib/node-gyp.js:124-150: the options and the log level after the environment. -/
def npmOptions (env : List (Str × Str)) (opts : List (Str × OptVal)) (level : Option OptVal) :
    List (Str × OptVal) × Option OptVal :=
  let st := env.foldl npmStep (opts, level)
  match aget st.1 c!"loglevel" with
  | some v => if v.truthy = true then (st.1, some v) else st
  | none => st

/-- How the program ends. -/
inductive CliExit where
  /-- bin/node-gyp.js:33-40: no command, usage or version is printed, status 0. -/
  | info
  /-- bin/node-gyp.js:73-78: "ok", status 0. -/
  | ok
  /-- bin/node-gyp.js:96-102: "not ok", status 1. -/
  | failed
deriving DecidableEq

/-- bin/node-gyp.js:71-103 `run`.  A command is any function of the state of the world that
says what it appends to the queue, whether it succeeds and the next state.  `fuel` bounds the
number of commands; the result carries the commands that were started, in order.  A command
that never ends is not modelled. -/
def runQueue {W : Type} (exec : CliCmd → W → W × List CliCmd × Bool) :
    Nat → List CliCmd → W → Option (CliExit × List CliCmd × W)
  | _, [], w => some (.ok, [], w)
  | 0, _ :: _, _ => none
  | fuel + 1, c :: todo, w =>
    match exec c w with
    | (w, _, false) => some (.failed, [c], w)
    | (w, pushed, true) =>
      match runQueue exec fuel (todo ++ pushed) w with
      | none => none
      | some (e, started, w) => some (e, c :: started, w)

/-- bin/node-gyp.js:33-40 and 148: without a command nothing runs. -/
def cliMain {W : Type} (exec : CliCmd → W → W × List CliCmd × Bool) (fuel : Nat)
    (todo : List CliCmd) (w : W) : Option (CliExit × List CliCmd × W) :=
  match todo with
  | [] => some (.info, [], w)
  | _ :: _ => runQueue exec fuel todo w

/-- lib/rebuild.js:3-9 -/
def rebuildPushes (args : List CliWord) : List CliCmd :=
  [⟨.text c!"clean", []⟩, ⟨.text c!"configure", args⟩, ⟨.text c!"build", []⟩]

/-- What the commands append to the queue: `rebuild` its three steps (lib/rebuild.js:3-9),
`install` and, through it, `configure` perhaps a `remove` (lib/install.js:390,
lib/configure.js:79), the others nothing. -/
def cliPushes (removes : Option (List CliWord)) (c : CliCmd) : List CliCmd :=
  if c.name = .text c!"rebuild" then rebuildPushes c.args
  else if c.name = .text c!"install" ∨ c.name = .text c!"configure" then
    match removes with
    | some args => [⟨.text c!"remove", args⟩]
    | none => []
  else []

/-- The commands of node-gyp: `body` is what they do to the world; it says
with which arguments a `remove` is to follow, if any, and whether the command succeeds. -/
def gypExec {W : Type} (body : CliCmd → W → W × Option (List CliWord) × Bool) (c : CliCmd) (w : W) :
    W × List CliCmd × Bool :=
  let r := body c w
  if c.name = .text c!"rebuild" then (r.1, cliPushes r.2.1 c, true)
  else (r.1, cliPushes r.2.1 c, r.2.2)

end Gyp
