import Verif.Model.Path
import Verif.Model.Assoc
import Verif.Model.Load
import Verif.Model.Scan
/-
`gyp/pylib/gyp/__init__.py`: options on the command line and in the environment,
and the flags that are written into the generated files so that they can
regenerate themselves.

Simplifications.
* `argparse` (Python 3.8 to 3.11) is modelled for the options of `gyp_main`, which
  declares no positional arguments: attached and separate values, abbreviated long
  options, negative numbers, unknown options.  After `--` everything is left over;
  single-letter switches are not combined (`-Vx` is an error).
* The environment is given by `var` (`os.environ.get`, empty if not set) and `words`
  (`ShlexEnv`: the variable split like a shell does).
* `int(text)` is modelled for ASCII digits (Python also takes other decimal digits,
  and since 3.11 refuses more than 4300 digits).
-/
namespace Gyp

/-! ### Tables -/

/-- A value of a table. -/
inductive NvVal where
  | true_
  | int (i : Int)
  | str (s : Str)
  deriving DecidableEq, Repr

/-- `int(text)`; `none` is `ValueError`. -/
def pyIntText (s : Str) : Option Int :=
  let t := pyStrip s
  let neg := t.head? = some '-'
  let d := if t.head? = some '-' ∨ t.head? = some '+' then t.tail else t
  let groups := splitOn '_' d
  if groups.all (fun g => g ≠ [] && g.all asciiDigit) then
    let n : Int := digitsVal groups.flatten
    some (if neg then -n else n)
  else none

/-- `__init__.py:191-203` one item -/
def nvItem (item : Str) : Str × NvVal :=
  match split1 '=' item with
  | some (name, text) =>
    match pyIntText text with
    | some i => (name, .int i)
    | none => (name, .str text)
  | none => (item, .true_)

/-- `__init__.py:184-204` `NameValueListToDict` -/
def NameValueListToDict (l : List Str) : List (Str × NvVal) :=
  l.foldl (fun d item => aset d (nvItem item).1 (nvItem item).2) []

/-! ### Options -/

inductive OptAction where
  | store | append | storeTrue | storeFalse | help
  deriving DecidableEq, Repr

/-- The value of an option. -/
inductive OptValue where
  | none
  | flag (b : Bool)
  | text (s : Str)
  | many (l : List Str)
  deriving DecidableEq, Repr

/-- One call of `add_argument`. -/
structure OptSpec where
  dest : Str
  opts : List Str
  action : OptAction
  isPath : Bool
  env : Option Str
  regenerate : Bool
  default : OptValue
  deriving DecidableEq, Repr

abbrev Options := Str → OptValue

def Options.set (o : Options) (dest : Str) (v : OptValue) : Options := fun d => if d = dest then v else o d

/-- `__init__.py:340-487` the options of `gyp_main`; `-h` is added by `argparse`. -/
def gypOptions : List OptSpec :=
  [⟨c!"help", [c!"-h", c!"--help"], .help, false, none, false, .none⟩,
   ⟨c!"configs", [c!"--build"], .append, false, none, true, .none⟩,
   ⟨c!"check", [c!"--check"], .storeTrue, false, none, true, .flag false⟩,
   ⟨c!"config_dir", [c!"--config-dir"], .store, false, some c!"GYP_CONFIG_DIR", true, .none⟩,
   ⟨c!"debug", [c!"-d", c!"--debug"], .append, false, none, true, .many []⟩,
   ⟨c!"defines", [c!"-D"], .append, false, some c!"GYP_DEFINES", true, .none⟩,
   ⟨c!"depth", [c!"--depth"], .store, true, none, true, .none⟩,
   ⟨c!"formats", [c!"-f", c!"--format"], .append, false, some c!"GYP_GENERATORS", false, .none⟩,
   ⟨c!"generator_flags", [c!"-G"], .append, false, some c!"GYP_GENERATOR_FLAGS", true, .many []⟩,
   ⟨c!"generator_output", [c!"--generator-output"], .store, true, some c!"GYP_GENERATOR_OUTPUT", true, .none⟩,
   ⟨c!"use_environment", [c!"--ignore-environment"], .storeFalse, false, none, false, .flag true⟩,
   ⟨c!"includes", [c!"-I", c!"--include"], .append, true, none, true, .none⟩,
   ⟨c!"circular_check", [c!"--no-circular-check"], .storeFalse, false, none, false, .flag true⟩,
   ⟨c!"no_parallel", [c!"--no-parallel"], .storeTrue, false, none, false, .flag false⟩,
   ⟨c!"suffix", [c!"-S", c!"--suffix"], .store, false, none, true, .text []⟩,
   ⟨c!"toplevel_dir", [c!"--toplevel-dir"], .store, true, none, true, .none⟩,
   ⟨c!"root_targets", [c!"-R", c!"--root-target"], .append, false, none, true, .none⟩,
   ⟨c!"version", [c!"-V", c!"--version"], .storeTrue, false, none, true, .flag false⟩]

/-! ### `argparse` -/

inductive ArgKind where
  | positional
  | unknown
  | ambiguous
  | opt (spec : OptSpec) (explicit : Option Str)
  deriving DecidableEq, Repr

def lookupOpt (table : List OptSpec) (s : Str) : Option OptSpec := table.find? fun o => o.opts.contains s

def optStrings (table : List OptSpec) : List (Str × OptSpec) :=
  table.flatMap fun o => o.opts.map fun s => (s, o)

/-- `ArgumentParser._get_option_tuples` -/
def optTuples (table : List OptSpec) (arg : Str) : List (OptSpec × Option Str) :=
  if startsWith arg c!"--" then
    match split1 '=' arg with
    | some (a, b) => ((optStrings table).filter fun p => startsWith p.1 a).map fun p => (p.2, some b)
    | none => ((optStrings table).filter fun p => startsWith p.1 arg).map fun p => (p.2, none)
  else
    (optStrings table).filterMap fun p =>
      if p.1 = arg.take 2 then some (p.2, some (arg.drop 2))
      else if startsWith p.1 arg then some (p.2, none)
      else none

/-- `ArgumentParser._negative_number_matcher`: `^-\d+$|^-\d*\.\d+$` -/
def negativeNumber (arg : Str) : Bool :=
  match arg with
  | '-' :: rest =>
    (rest ≠ [] && rest.all asciiDigit) ||
    (match split1 '.' rest with
     | some (a, b) => a.all asciiDigit && b ≠ [] && b.all asciiDigit
     | none => false)
  | _ => false

/-- `ArgumentParser._parse_optional` -/
def classifyArg (table : List OptSpec) (arg : Str) : ArgKind :=
  if arg.head? ≠ some '-' then .positional
  else
    match lookupOpt table arg with
    | some o => .opt o none
    | none =>
      if arg.length = 1 then .positional
      else
        match (split1 '=' arg).bind fun p => (lookupOpt table p.1).map fun o => (o, p.2) with
        | some (o, v) => .opt o (some v)
        | none =>
          match optTuples table arg with
          | [(o, e)] => .opt o e
          | _ :: _ :: _ => .ambiguous
          | [] =>
            if negativeNumber arg then .positional
            else if ' ' ∈ arg then .positional
            else .unknown

inductive ParseErr where
  | help | ambiguous | expectedArgument | ignoredArgument
  deriving DecidableEq, Repr

structure ParseState where
  opts : Options
  extras : List Str
  /-- an option that waits for its value -/
  pending : Option OptSpec
  /-- after `--` -/
  stop : Bool

/-- The actions `store` and `append`. -/
def takeValue (spec : OptSpec) (v : Str) (o : Options) : Options :=
  match spec.action with
  | .append =>
    match o spec.dest with
    | .many l => o.set spec.dest (.many (l ++ [v]))
    | _ => o.set spec.dest (.many [v])
  | _ => o.set spec.dest (.text v)

/-- `ArgumentParser._parse_known_args`: one argument. -/
def parseStep (table : List OptSpec) (s : ParseState) (arg : Str) : Except ParseErr ParseState :=
  if s.stop then .ok { s with extras := s.extras ++ [arg] }
  else
    match s.pending with
    | some spec =>
      if classifyArg table arg = .positional then
        .ok { s with opts := takeValue spec arg s.opts, pending := none }
      else .error .expectedArgument
    | none =>
      if arg = c!"--" then .ok { s with extras := s.extras ++ [arg], stop := true }
      else
        match classifyArg table arg with
        | .positional => .ok { s with extras := s.extras ++ [arg] }
        | .unknown => .ok { s with extras := s.extras ++ [arg] }
        | .ambiguous => .error .ambiguous
        | .opt spec explicit =>
          match spec.action, explicit with
          | .help, none => .error .help
          | .help, some _ => .error .ignoredArgument
          | .storeTrue, none => .ok { s with opts := s.opts.set spec.dest (.flag true) }
          | .storeTrue, some _ => .error .ignoredArgument
          | .storeFalse, none => .ok { s with opts := s.opts.set spec.dest (.flag false) }
          | .storeFalse, some _ => .error .ignoredArgument
          | _, some v => .ok { s with opts := takeValue spec v s.opts }
          | _, none => .ok { s with pending := some spec }

def defaultOptions (table : List OptSpec) : Options := fun d =>
  match table.find? fun o => o.dest = d with
  | some o => o.default
  | none => .none

/-- `__init__.py:336-339` `parse_args`: the options and the arguments left over. -/
def parseArgs (table : List OptSpec) (args : List Str) : Except ParseErr (Options × List Str) :=
  match args.foldlM (parseStep table) ⟨defaultOptions table, [], none, false⟩ with
  | .error e => .error e
  | .ok s => if s.pending = none then .ok (s.opts, s.extras) else .error .expectedArgument

/-! ### Regeneration -/

/-- What the process reads. -/
structure OptEnv where
  /-- names of the current directory, from the root -/
  cwd : List Str
  /-- `ShlexEnv` (`__init__.py:207-211`) -/
  words : Str → List Str
  /-- `os.environ.get`, empty if not set -/
  var : Str → Str

/-- `__init__.py:214-217` -/
def FormatOpt (opt value : Str) : Str :=
  if startsWith opt c!"--" then opt ++ c!"=" ++ value else opt ++ value

/-- `if value in flags: flags.remove(value)`, then `flags.append(value)`. -/
def appendLast (flags : List Str) (value : Str) : List Str := flags.erase value ++ [value]

/-- `__init__.py:220-240` `RegenerateAppendFlag` -/
def RegenerateAppendFlag (E : OptEnv) (flag : Str) (values : List Str) (predicate : Str → Str)
    (envName : Option Str) (useEnvironment : Bool) : List Str :=
  let flags :=
    match envName with
    | some n =>
      if useEnvironment then
        (E.words n).foldl (fun flags v => appendLast flags (FormatOpt flag (predicate v))) []
      else []
    | none => []
  flags ++ values.map fun v => FormatOpt flag (predicate v)

/-- The text of an option, empty for none. -/
def OptValue.toText : OptValue → Str
  | .text s => s
  | _ => []

/-- The values of an option, none for `None`. -/
def OptValue.toList : OptValue → List Str
  | .many l => l
  | _ => []

/-- `__init__.py:255-259` `FixPath` -/
def FixPath (E : OptEnv) (o : Options) (path : Str) : Str :=
  let p := FixIfRelativePath E.cwd path (o c!"depth").toText
  if p = [] then dot else p

/-- `__init__.py:267-297` the flags of one option (warnings dropped). -/
def regenerateOne (E : OptEnv) (o : Options) (spec : OptSpec) : List Str :=
  let opt := spec.opts.head?.getD []
  let value := o spec.dest
  let predicate := if spec.isPath then FixPath E o else fun v => v
  let useEnvironment := decide (o c!"use_environment" = .flag true)
  match spec.action with
  | .append => RegenerateAppendFlag E opt value.toList predicate spec.env useEnvironment
  | .store =>
    if value.toText ≠ [] then [FormatOpt opt (predicate value.toText)]
    else
      match spec.env with
      | some n => if useEnvironment ∧ E.var n ≠ [] then [FormatOpt opt (predicate (E.var n))] else []
      | none => []
  | .storeTrue => if value = .flag true then [opt] else []
  | .storeFalse => if value = .flag true then [] else [opt]
  | .help => []

/-- `__init__.py:243-299` `RegenerateFlags` -/
def RegenerateFlags (E : OptEnv) (o : Options) : List Str :=
  c!"--ignore-environment" :: (gypOptions.filter (·.regenerate)).flatMap (regenerateOne E o)

/-! ### `gyp_main` -/

/-- `__init__.py:574-588` the components up to the last one named `src`; `none` if
there is none. -/
def upToSrc (components : List Str) : Option (List Str) :=
  match components.reverse.dropWhile (· ≠ c!"src") with
  | [] => none
  | l => some l.reverse

/-- `__init__.py:573-593` the depth, if it is not given. -/
def findDepth (cwd : List Str) (buildFiles : List Str) : Option Str :=
  buildFiles.findSome? fun f =>
    match upToSrc (splitOn '/' (abspath cwd (dirname f))) with
    | some l => if joinWith ['/'] l = [] then none else some (joinWith ['/'] l)
    | none => none

/-- `__init__.py:543-546, 573-606`: the options as the generators see them; `none` when
the depth cannot be found. -/
def prepareOptions (E : OptEnv) (buildFiles : List Str) (o : Options) : Option Options :=
  let o := if (o c!"generator_output").toText = [] ∧ o c!"use_environment" = .flag true ∧
      E.var c!"GYP_GENERATOR_OUTPUT" ≠ [] then
    o.set c!"generator_output" (.text (E.var c!"GYP_GENERATOR_OUTPUT")) else o
  let withDepth :=
    if (o c!"depth").toText ≠ [] then some o
    else (findDepth E.cwd buildFiles).map fun d => o.set c!"depth" (.text d)
  withDepth.map fun o =>
    if (o c!"toplevel_dir").toText = [] then o.set c!"toplevel_dir" (o c!"depth") else o

/-- `__init__.py:611-616` the variables set on the command line. -/
def cmdlineVariables (E : OptEnv) (o : Options) : List (Str × NvVal) :=
  NameValueListToDict
    ((if o c!"use_environment" = .flag true then E.words c!"GYP_DEFINES" else []) ++
      (o c!"defines").toList)

/-- `__init__.py:640-645` the generator flags. -/
def generatorFlags (E : OptEnv) (o : Options) : List (Str × NvVal) :=
  NameValueListToDict
    ((if o c!"use_environment" = .flag true then E.words c!"GYP_GENERATOR_FLAGS" else []) ++
      (o c!"generator_flags").toList)

/-- `__init__.py:494-499, 514` the directory of the configuration that was asked for
(empty for none; `os.path.expanduser` and the default `~/.gyp` are not modelled). -/
def configDir (E : OptEnv) (o : Options) : Str :=
  if (o c!"config_dir").toText ≠ [] then (o c!"config_dir").toText
  else if o c!"use_environment" = .flag true then E.var c!"GYP_CONFIG_DIR"
  else []

end Gyp
