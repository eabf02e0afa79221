import Verif.Model.ConfigGypi
import Verif.Model.Shasums
/-
Where `configure` takes its settings from: lib/create-config-gypi.js:7-36.

`JSON.parse` is a parameter; `none` is an exception.  The copy of `process.config` that
`JSON.parse(JSON.stringify(...))` makes is the value itself.  Logging is dropped.
-/
namespace Gyp

/-- create-config-gypi.js:10 `config.replace(/#.*/g, '')`. -/
def stripComments (s : Str) : Str :=
  match s with
  | [] => []
  | c :: r => if c = '#' then stripComments (r.dropWhile fun c => !jsLineEnd c) else c :: stripComments r
termination_by s.length
decreasing_by
  · have := (List.dropWhile_sublist (fun c => !jsLineEnd c) (l := r)).length_le
    simp; omega
  · simp

/-- create-config-gypi.js:12 `config.replace(/'$\s+'/mg, '')`: the run of white space is as long
as possible, and what follows it must be a quote. -/
def joinStrings (s : Str) : Str :=
  match s with
  | [] => []
  | c :: r =>
    if c = '\'' ∧ r.head?.any jsLineEnd = true ∧ (r.dropWhile jsSpace).head? = some '\'' then
      joinStrings (r.dropWhile jsSpace).tail
    else c :: joinStrings r
termination_by s.length
decreasing_by
  · have := (List.dropWhile_sublist jsSpace (l := r)).length_le
    simp; omega
  · simp

/-- create-config-gypi.js:7-16 `parseConfigGypi`. -/
def parseConfigGypi (parse : Str → Option JVal) (config : Str) : Option JVal :=
  parse (replaceChar '\'' c!"\"" (joinStrings (stripComments config)))

/-- What create-config-gypi.js:18-36 looks at: whether the options are given (and not empty or
false), the files that can be read, and
`process.config`. -/
structure BaseEnv where
  nodedir : Bool
  disturl : Bool
  distUrl : Bool
  forceProcessConfig : Bool
  nodeDir : Str
  read : Str → Option Str
  processConfig : JVal

/-- create-config-gypi.js:18-36 `getBaseConfigGypi`; the directory is absolute and has no `/` at its
end, so `path.resolve` only joins. -/
def getBaseConfig (parse : Str → Option JVal) (E : BaseEnv) : JVal :=
  let useCustomHeaders := E.nodedir || E.disturl || E.distUrl
  let shouldRead := useCustomHeaders && !E.forceProcessConfig
  if shouldRead && E.nodeDir ≠ [] then
    match E.read (E.nodeDir ++ c!"/include/node/config.gypi") with
    | some text =>
      match parseConfigGypi parse text with
      | some v => v
      | none => E.processConfig
    | none => E.processConfig
  else E.processConfig

end Gyp
