import Verif.Model.Log
/-
What is seen of messages.  The events are those of `Verif.Model.Log`; a logger begins paused, with
the level `info`.
-/
namespace Gyp.Spec

/-- After some events the logger is paused: the last of the events that pause or resume it is not
one that resumes it. -/
def pausedAfter (es : List LogEvent) : Bool :=
  (es.filter fun e => e = .pause || e = .resume).getLast? ≠ some .resume

/-- The level that is in force after some events. -/
def levelAfter (es : List LogEvent) : Str :=
  (es.filterMap fun | .setLevel l => some l | _ => none).getLastD c!"info"

/-- The stream (whether it is a terminal; none: there is none) after some events. -/
def streamAfter (first : Option Bool) (es : List LogEvent) : Option Bool :=
  (es.filterMap fun | .setStream s => some s | _ => none).getLastD first

/-- The moment when a message that came as the event number `i` is shown: at once, or when the
logger is next resumed. -/
def shownAt (es : List LogEvent) (i : Nat) : Option Nat :=
  if pausedAfter (es.take i) then (List.range es.length).find? fun j => i < j && es[j]? = some .resume
  else some i

/-- The levels from loudest to quietest, with the text that stands for them. -/
def levelTags : List (Str × Str) :=
  [(c!"silly", c!"sill"), (c!"verbose", c!"verb"), (c!"info", c!"info"), (c!"http", c!"http"),
   (c!"notice", c!"notice"), (c!"warn", c!"WARN"), (c!"error", c!"ERR!")]

/-- With some level in force messages of another level are shown: it is as quiet or quieter. -/
def showsLevel (current level : Str) : Prop :=
  ∃ i j : Nat, (levelTags.map Prod.fst)[i]? = some current ∧ (levelTags.map Prod.fst)[j]? = some level ∧ i ≤ j

/-- A text without whitespace around it. -/
def Trimmed (s t : Str) : Prop :=
  (∃ a b, s = a ++ t ++ b ∧ (∀ c ∈ a ++ b, jsSpace c = true)) ∧
  (∀ c, t.head? = some c → jsSpace c = false) ∧ ∀ c, t.getLast? = some c → jsSpace c = false

/-- The lines of a text. -/
def textLines (text : Str) : List Str := splitOn '\n' text

/-- A message as it is shown: each line of its text, without whitespace around it, after the word
`gyp`, the level and the prefix. -/
def ShownAs (level p text shown : Str) : Prop :=
  ∃ tag, (level, tag) ∈ levelTags ∧ ∃ ls : List Str,
    List.Forall₂ Trimmed (textLines text) ls ∧
    shown = ls.flatMap fun l => c!"gyp " ++ tag ++ (if p = [] then [] else c!" " ++ p) ++ c!" " ++ l ++ c!"\n"

/-- The event number `i` is a message that gets shown: when its time has come its level is not
hidden and there is a stream. -/
def GetsShown (first : Option Bool) (es : List LogEvent) (i : Nat) : Prop :=
  ∃ level p text j, es[i]? = some (.message level p text) ∧ shownAt es i = some j ∧
    showsLevel (levelAfter (es.take j)) level ∧ streamAfter first (es.take j) ≠ none

/-- A text without sequences for colours. -/
def plainText : Bool → Str → Str
  | _, [] => []
  | false, c :: s => if c = '\x1b' then plainText true s else c :: plainText false s
  | true, c :: s => plainText (c ≠ 'm') s

example : plainText false c!"a\x1b[31;40mb\x1b[0mc" = c!"abc" := by decide

end Gyp.Spec
