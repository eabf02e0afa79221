import Verif.Model.Shasums
import Verif.Model.Version
/-
`lib/log.js`: the messages of node-gyp.
-/
namespace Gyp

/-- What happens to the logger: an event `log` of the process (`pause`, `resume`, or a message with
a level, a prefix and its formatted text), an assignment of its level or of its stream.  (The stream
is missing, or is a terminal or not; `format` of Node's util is applied before.) -/
inductive LogEvent
  | pause
  | resume
  | message (level «prefix» text : Str)
  | setLevel (level : Str)
  | setStream (stream : Option Bool)
deriving DecidableEq

/-- log.js:16-39 colours; `fg`, `bg` and `inverse` as codes. -/
structure LogStyle where
  fg : Option Nat := none
  bg : Option Nat := none
  inverse : Option Nat := none

/-- A level: its name, the text that is shown, its style. -/
structure LogLevel where
  id : Str
  display : Option Str := none
  style : LogStyle

/-- log.js:47-75 `#levels`, ordered from loudest to quietest. -/
def logLevels : List LogLevel :=
  [{ id := c!"silly", display := some c!"sill", style := { inverse := some 7 } },
   { id := c!"verbose", display := some c!"verb", style := { fg := some 36, bg := some 40 } },
   { id := c!"info", style := { fg := some 32 } },
   { id := c!"http", style := { fg := some 32, bg := some 40 } },
   { id := c!"notice", style := { fg := some 36, bg := some 40 } },
   { id := c!"warn", display := some c!"WARN", style := { fg := some 30, bg := some 43 } },
   { id := c!"error", display := some c!"ERR!", style := { fg := some 31, bg := some 40 } }]

/-- log.js:79 the index of a level. -/
def levelIndex (id : Str) : Option Nat := logLevels.findIdx? (·.id = id)

/-- log.js:43-46 the state; `#level` is the name of a level or null. -/
structure Logger where
  paused : Bool
  buffer : List LogEvent
  level : Option Str
  stream : Option Bool

/-- log.js:97-99 `set level`. -/
def setLogLevel (l : Logger) (level : Str) : Logger :=
  { l with level := if (levelIndex level).isSome then some level else none }

/-- log.js:101-103 `isVisible`; a comparison with undefined is false. -/
def isVisible (l : Logger) (level : Str) : Bool :=
  match l.level.bind levelIndex, levelIndex level with
  | some a, some b => a ≤ b
  | _, _ => false

/-- log.js:17-20 `COLORS.wrap`. -/
def wrapColors (s : Str) (codes : List (Option Nat)) : Str :=
  c!"\x1b[" ++ joinWith c!";" ((codes.filterMap id).map natStr) ++ c!"m" ++ s ++ c!"\x1b[0m"

/-- log.js:127-137 `#color`. -/
def logColor (tty : Bool) (s : Str) (style : LogStyle) : Str :=
  if tty then wrapColors s [style.fg, style.bg, style.inverse] else s

/-- `split(/\r?\n/)` -/
def splitReturns : Str → List Str
  | [] => [[]]
  | '\r' :: '\n' :: s => [] :: splitReturns s
  | '\n' :: s => [] :: splitReturns s
  | c :: s =>
    match splitReturns s with
    | [] => [[c]]
    | l :: ls => (c :: l) :: ls

/-- log.js:146-155 the beginning of every line. -/
def logPrefix (tty : Bool) (level : LogLevel) (p : Str) : Str :=
  let parts := [logColor tty c!"gyp" { fg := some 37, bg := some 40 },
    logColor tty (level.display.getD level.id) level.style] ++
    (if p = [] then [] else [logColor tty p { fg := some 35 }])
  jsTrim (joinWith [' '] parts) ++ [' ']

/-- log.js:155-158 what is written. -/
def logText (tty : Bool) (level : LogLevel) (p text : Str) : Str :=
  joinWith ['\n'] ((splitReturns text).map fun l => logPrefix tty level p ++ jsTrim l) ++ ['\n']

/-- log.js:139-159 `#log`: what is written to the stream. -/
def logMessage (l : Logger) : LogEvent → List Str
  | .message level p text =>
    if isVisible l level then
      match l.stream, logLevels.find? (·.id = level) with
      | some tty, some lv => [logText tty lv p text]
      | _, _ => []
    else []
  | _ => []

/-- log.js:105-125 `#onLog`, and the assignments. -/
def onLog (l : Logger) (e : LogEvent) : Logger × List Str :=
  match e with
  | .pause => ({ l with paused := true }, [])
  | .resume => ({ l with paused := false, buffer := [] }, l.buffer.flatMap (logMessage l))
  | .message _ _ _ =>
    if l.paused then ({ l with buffer := l.buffer ++ [e] }, [])
    else (l, logMessage l e)
  | .setLevel level => (setLogLevel l level, [])
  | .setStream s => ({ l with stream := s }, [])

/-- log.js:76-81 the constructor, with `log.pause()`. -/
def newLogger (stream : Option Bool) : Logger :=
  (onLog { setLogLevel ⟨false, [], none, none⟩ c!"info" with stream := stream } .pause).1

/-- Everything that is written while events happen. -/
def runLog (l : Logger) : List LogEvent → Logger × List Str
  | [] => (l, [])
  | e :: es =>
    let (l1, out1) := onLog l e
    let (l2, out2) := runLog l1 es
    (l2, out1 ++ out2)

end Gyp
