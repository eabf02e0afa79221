import Verif.Spec.MakeFunctions
import Verif.Spec.MakeActions
/-
When a file is to be made again.
-/
namespace Gyp.Spec

/-- The parts of the texts of variables, from assignments with `=` and from definitions of several
lines. -/
def macroDefs (assigns : List Str) (defines : List (Str × Str)) (name : Str) : Option MkExp :=
  ((assigns.filterMap laterAssignment ++ defines).lookup name).bind partsOf

/-- The expansion of a recipe that calls a definition with arguments.  (Texts refer to others less
than twenty deep.) -/
def callText (defs : Str → Option MkExp) (vals : Str → Str) (f : Str) (args : List Str) : Str :=
  lookUp defs vals 20 f args

/-! ### Names and commands -/

/-- The name of an output without characters special to make or the shell in this place. -/
def OutputName (t : Str) : Prop :=
  t ≠ [] ∧ ∀ c ∈ t, c ∉ ['$', ':', '\n', '#', '\\', '\t', ' ', '?', '"', '`']

/-- A name in a list of names. -/
def ListName (p : Str) : Prop := p ≠ [] ∧ ∀ c ∈ p, blankOrLine c = false ∧ c ≠ '%'

/-- A command that can be recorded: one line without number signs. -/
structure RecordedCommand (c : Str) : Prop where
  ne : c ≠ []
  line : '\n' ∉ c ∧ '#' ∉ c
  first : ∀ x, c.head? = some x → isBlank x = false
  last : c.getLast? ≠ some '\\'

/-- What make knows when it comes to an output `target` that is made by the command of a name: the
prerequisites that are newer, those that only give an order, the command and the recorded
command. -/
structure Situation (vals : Str → Str) (target name : Str) (newer orderOnly : List Str) (command record : Str) :
    Prop where
  atTarget : vals c!"@" = target
  atNewer : vals c!"?" = joinWith [' '] newer
  atOrder : vals c!"|" = joinWith [' '] orderOnly
  atCommand : vals (c!"cmd_" ++ name) = command
  atRecord : vals (c!"cmd_" ++ target) = record
  empty : vals c!"empty" = []
  quiet : vals c!"quiet" = [] ∨ vals c!"quiet" = c!"quiet_"
  quietText : '\n' ∉ vals (c!"quiet_cmd_" ++ name)
  depsdir : OutputName (vals c!"depsdir")
  names : ∀ p ∈ newer ++ orderOnly, ListName p

/-- A prerequisite has changed. -/
def Outdated (newer orderOnly : List Str) : Prop := ∃ p ∈ newer, p ≠ c!"FORCE_DO_CMD" ∧ p ∉ orderOnly

/-! ### What is run -/

/-- Read a command up to a redirection: its words and the name after `>`. -/
def redirectRun (s : Lex) : Str → Option (List Str × Str)
  | [] => none
  | c :: rest =>
    if s.mode = .plain ∧ c = '>' then some (s.done ++ s.cur.toList, rest.dropWhile isBlank)
    else (lexStep false s c).bind fun s' => redirectRun s' rest

/-- The file that a line of a recipe prints to, and what it prints. -/
def printsTo (line : Str) : Option (Str × Str) :=
  if startsWith line c!"@printf " then
    match redirectRun ⟨.plain, none, []⟩ (line.drop 1) with
    | some ([_, f, x], file) => if f = c!"%s\\n" then some (file, x ++ c!"\n") else none
    | _ => none
  else none

/-- What a recipe leaves at the beginning of a file. -/
def leavesIn (file : Str) (lines : List Str) : Option Str :=
  (lines.filterMap fun l => (printsTo l).bind fun (f, x) => if f = file then some x else none).getLast?

example : leavesIn c!"d" [c!"@printf '%s\\n' 'a > b'", c!"@x", c!"@printf '%s\\n' 'it'\\''s' > d", c!"y >> d"] =
    some c!"it's\n" := by decide

/-- The file with the record of an output. -/
def recordFile (vals : Str → Str) (target : Str) : Str := vals c!"depsdir" ++ c!"/" ++ target ++ c!".d"

/-- The lines that complete the file of an output from the list of headers that the compiler has
written beside it: they only append to the file. -/
def headerLines (file target : Str) : List Str :=
  [c!"@# The depfile may not exist if the input file didn't have any #includes.",
   c!"touch " ++ file ++ c!".raw",
   c!"# Fixup path as in (1).",
   c!"sed -e \"s|^" ++ filePart target ++ c!"|" ++ target ++ c!"|\" " ++ file ++ c!".raw >> " ++ file,
   c!"# Add extra rules as in (2).",
   c!"# We remove slashes and replace spaces with new lines;",
   c!"# remove blank lines;",
   c!"# delete the first line and append a colon to the remaining lines.",
   c!"sed -e 's|\\\\||' -e 'y| |\\n|' " ++ file ++ c!".raw |\\\n  grep -v '^$'                             |\\\n" ++
     c!"  sed -e 1d -e 's|$|:|'                     \\\n    >> " ++ file,
   c!"rm " ++ file ++ c!".raw"]

/-! ### Builds -/

/-- A time that make came to an output: the command then, whether a prerequisite had changed, and
whether everything that was run succeeded. -/
structure Visit where
  command : Str
  outdated : Bool
  succeeded : Bool

/-- The visits of an output in the order of time, each with whether the command was run, and the
recorded command after them.  Between the visits other variables may change. -/
inductive Visits (defs : Str → Option MkExp) (target name dep : Str) : List (Visit × Bool) → Str → Prop
  | start : Visits defs target name dep [] []
  | skip {h : List (Visit × Bool)} {r : Str} {v : Visit} {vals : Str → Str} {newer oo : List Str} :
      Visits defs target name dep h r → Situation vals target name newer oo v.command r →
      (v.outdated = true ↔ Outdated newer oo) → callText defs vals c!"do_cmd" [name, dep] = [] →
      Visits defs target name dep (h ++ [(v, false)]) r
  | fail {h : List (Visit × Bool)} {r : Str} {v : Visit} {vals : Str → Str} {newer oo : List Str} :
      Visits defs target name dep h r → Situation vals target name newer oo v.command r →
      (v.outdated = true ↔ Outdated newer oo) → callText defs vals c!"do_cmd" [name, dep] ≠ [] →
      v.succeeded = false → Visits defs target name dep (h ++ [(v, true)]) r
  | made {h : List (Visit × Bool)} {r : Str} {v : Visit} {vals : Str → Str} {newer oo : List Str}
      {text rest r' : Str} :
      Visits defs target name dep h r → Situation vals target name newer oo v.command r →
      (v.outdated = true ↔ Outdated newer oo) → callText defs vals c!"do_cmd" [name, dep] ≠ [] →
      v.succeeded = true →
      leavesIn (recordFile vals target) (recipeLines (callText defs vals c!"do_cmd" [name, dep])) = some text →
      makeAssignment (text ++ rest) = some (c!"cmd_" ++ target, r') →
      Visits defs target name dep (h ++ [(v, true)]) r'

/-- The command that last made the output. -/
def lastMade (h : List (Visit × Bool)) : Option Str :=
  ((h.filter fun e => e.2 && e.1.succeeded).getLast?).map (·.1.command)

end Gyp.Spec
