import Verif.Model.Cli
/-
What a command line of node-gyp means.
-/
namespace Gyp.Spec

/-- The command a word stands for, if any. -/
def commandFor (w : Str) : Option Str :=
  if w ∈ [c!"build", c!"clean", c!"configure", c!"rebuild", c!"install", c!"list", c!"remove"] then
    some w
  else if w = c!"ls" then some c!"list"
  else if w = c!"rm" then some c!"remove"
  else none

/-- Names every JavaScript object answers to. -/
def inheritedNames : List Str :=
  [c!"constructor", c!"__defineGetter__", c!"__defineSetter__", c!"hasOwnProperty",
    c!"__lookupGetter__", c!"__lookupSetter__", c!"isPrototypeOf", c!"propertyIsEnumerable",
    c!"toString", c!"valueOf", c!"__proto__", c!"toLocaleString"]

/-- The words spell the commands: each command is given by its word, followed by its arguments,
none of which is a command. -/
def SpelledBy : List CliCmd → List Str → Prop
  | [], ws => ws = []
  | c :: cs, ws => ∃ w args rest n, ws = w :: (args ++ rest) ∧ commandFor w = some n ∧
      c.name = .text n ∧ c.args = args.map .text ∧ (∀ a ∈ args, commandFor a = none) ∧
      SpelledBy cs rest

/-- The environment variable `e` sets the option `n`: it is `npm_config_` followed by the name
with dashes written as underscores; `loglevel` is not an option of this kind. -/
def SetsOption (e n : Str) : Prop :=
  ∃ r, e = c!"npm_config_" ++ r ∧ r ≠ [] ∧ r ≠ c!"loglevel" ∧
    n = r.map fun c => if c = '_' then '-' else c

/-- A history of commands: each with what it appended to the queue and whether it succeeded,
leading from one state of the world to another. -/
def History {W : Type} (exec : CliCmd → W → W × List CliCmd × Bool) :
    W → List (CliCmd × List CliCmd × Bool) → W → Prop
  | w, [], w' => w' = w
  | w, (c, pushed, ok) :: h, w' => ∃ w1, exec c w = (w1, pushed, ok) ∧ History exec w1 h w'

end Gyp.Spec
