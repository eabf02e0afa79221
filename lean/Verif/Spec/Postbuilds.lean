import Verif.Spec.MakeRun
import Verif.Spec.Ninja
import Verif.Model.XcodeFlags
/-
What runs after a target is linked: what make makes of variables for single targets (GNU make manual,
"Target-specific Variable Values"), what `for p in words; do eval $p; done` and `a && b` mean to a shell
(IEEE 1003.1 XCU 2.6.5, 2.6.6, 2.9.3, `eval`), and what the settings of Xcode ask for.  Not part of
/repo.
-/
namespace Gyp.Spec

/-! ### Variables for a target -/

/-- A line `target: NAME := VALUE`: the names of the targets, the variable and its value. -/
def targetLine (v : MakeVars) (text : Str) : Option (List Str × Str × Str) :=
  match split1 ':' (makeLogicalLine text) with
  | none => none
  | some (t, rest) =>
    match split1 ':' rest with
    | some (n, '=' :: x) =>
      (deep (valueOf v) (x.dropWhile isBlank)).map fun y => (names t, rstripBlanks (n.dropWhile isBlank), y)
    | _ => none

/-- The variables a target sees after some lines; `none` when a line is something else. -/
def seenByTarget (target : Str) : MakeVars → List Str → Option MakeVars
  | v, [] => some v
  | v, l :: ls =>
    match targetLine v l with
    | none => none
    | some (ts, n, y) => seenByTarget target (if target ∈ ts then (n, y) :: v else v) ls

example : seenByTarget c!"a b" [(c!"T", c!"x")] [c!"a\\ b: V_x := 1 2\n", c!"c: V_x := 3\n", c!"a\\ b: W := -$(V_$(T)) # 4\n"] =
    some [(c!"W", c!"-1 2 "), (c!"V_x", c!"1 2"), (c!"T", c!"x")] := by decide

/-! ### The shell -/

/-- The fields of an expansion that is not quoted. -/
def fields (s : Str) : List Str :=
  (splitOn ' ' (s.map fun c => if c = '\t' ∨ c = '\n' then ' ' else c)).filter (· ≠ [])

/-- What `eval $p` runs: the fields of `p`, which are patterns for names of files if there is one of
`*?[` in them, are joined by blanks and read again.  `none`: more than the words of one command. -/
def evalWords (p : Str) : Option (List Str) :=
  if p.any (· ∈ c!"*?[") then none else shellWords (joinWith [' '] (fields p))

example : evalWords c!"cp \"a b\" c\\;" = some [c!"cp", c!"a b", c!"c;"] := by decide
example : evalWords c!"cp \"a  b\" c" = some [c!"cp", c!"a b", c!"c"] := by decide

/-- The words of the commands in `a && b && c`, read on from some state. -/
def andRun (s : Lex) (cmds : List (List Str)) : Str → Option (List (List Str))
  | [] => if s.mode = .plain then some (cmds ++ [s.done ++ s.cur.toList]) else none
  | c :: rest =>
    if s.mode = .plain ∧ c = '&' then
      match rest with
      | '&' :: rest' => andRun ⟨.plain, none, []⟩ (cmds ++ [s.done ++ s.cur.toList]) rest'
      | _ => none
    else
      match lexStep false s c with
      | none => none
      | some s' => andRun s' cmds rest

/-- The words of the commands in `a && b && c`. -/
def andList (text : Str) : Option (List (List Str)) := andRun ⟨.plain, none, []⟩ [] text

example : andList c!"cd \"a && b\" && x y" = some [[c!"cd", c!"a && b"], [c!"x", c!"y"]] := by decide

/-! ### What the settings ask for -/

/-- A setting is given as this text. -/
def SettingSays (s : XSettings) (key value : Str) : Prop := aget s key = some (.text value)

instance (s : XSettings) (key value : Str) : Decidable (SettingSays s key value) :=
  inferInstanceAs (Decidable (aget s key = some (.text value)))

/-- Debugging symbols are wanted in a file of their own. -/
def WantsSymbols (s : XSettings) (type : Str) : Prop :=
  (aget s c!"GCC_GENERATE_DEBUGGING_SYMBOLS" = none ∨ SettingSays s c!"GCC_GENERATE_DEBUGGING_SYMBOLS" c!"YES") ∧
    SettingSays s c!"DEBUG_INFORMATION_FORMAT" c!"dwarf-with-dsym" ∧ type ≠ c!"static_library"

/-- The product is to be stripped. -/
def WantsStrip (s : XSettings) : Prop :=
  SettingSays s c!"DEPLOYMENT_POSTPROCESSING" c!"YES" ∧ SettingSays s c!"STRIP_INSTALLED_PRODUCT" c!"YES"

instance (s : XSettings) (type : Str) : Decidable (WantsSymbols s type) :=
  inferInstanceAs (Decidable (_ ∧ _ ∧ _))
instance (s : XSettings) : Decidable (WantsStrip s) := inferInstanceAs (Decidable (_ ∧ _))

/-- The style of stripping: the one that is set; else only what is not global stays for modules and
extensions that are bundles, nothing for programs, everything but debugging symbols otherwise. -/
def wantedStyle (type : Str) (bundle extension : Bool) (s : XSettings) : Str :=
  match aget s c!"STRIP_STYLE" with
  | some (.text x) => x
  | some (.list _) => []
  | none =>
    if bundle ∧ (type = c!"loadable_module" ∨ extension) then c!"non-global"
    else if type = c!"executable" then c!"all"
    else c!"debugging"

/-- The flags of `strip` for the styles. -/
def styleWords : Str → Option (List Str)
  | ['a', 'l', 'l'] => some []
  | ['n', 'o', 'n', '-', 'g', 'l', 'o', 'b', 'a', 'l'] => some [c!"-x"]
  | ['d', 'e', 'b', 'u', 'g', 'g', 'i', 'n', 'g'] => some [c!"-S"]
  | _ => none

/-- The flags of `strip` that are set. -/
def extraWords (s : XSettings) : List Str :=
  match aget s c!"STRIPFLAGS" with
  | some (.text x) => if x = [] then [] else splitOn ' ' x
  | _ => []

/-- The flags of `strip`. -/
def wantedFlags (type : Str) (bundle extension : Bool) (s : XSettings) : Option (List Str) :=
  (styleWords (wantedStyle type bundle extension s)).map (· ++ extraWords s)

/-- What is said about a target. -/
def announce (quiet : Bool) (what target : Str) : List (List Str) :=
  if quiet then [] else [[c!"echo", what ++ c!"(" ++ target ++ c!")"]]

/-- The commands for symbols and stripping, in this order. -/
def wantedCommands (quiet : Bool) (target type : Str) (s : XSettings) (output binary : Str) (flags : List Str) :
    List (List Str) :=
  (if WantsSymbols s type then
    announce quiet c!"DSYMUTIL" target ++ [[c!"dsymutil", binary, c!"-o", output ++ c!".dSYM"]] else []) ++
  (if WantsStrip s then announce quiet c!"STRIP" target ++ [[c!"strip"] ++ flags ++ [binary]] else [])

/-- The commands of the target, in their order. -/
def ownCommands (quiet : Bool) (target : Str) (postbuilds : List (Str × List Str)) : List (List Str) :=
  postbuilds.flatMap fun p =>
    (if quiet then [] else [[c!"echo", c!"POSTBUILD(" ++ target ++ c!")"] ++ splitOn ' ' p.1]) ++ [p.2]

/-- Settings with a known style and flags that are plain words. -/
structure PlainStrip (type : Str) (bundle extension : Bool) (s : XSettings) : Prop where
  flags : ∃ ws, wantedFlags type bundle extension s = some ws
  extra : ∀ w ∈ extraWords s, PlainWord w
  style : ∀ l, aget s c!"STRIP_STYLE" ≠ some (.list l)
  given : ∀ l, aget s c!"STRIPFLAGS" ≠ some (.list l)

/-- What ninja makes of the value of a variable, when there are no references in it. -/
def ninjaText (t : Str) : Option Str := plainWord (ninjaValue t)

/-- An argument of a command that comes through make, `eval` and the shell unchanged: it has none of
`$`, `#`, newline, tab and the characters of patterns, nor two blanks in a row. -/
def EvalArg (a : Str) : Prop := (∀ c ∈ a, c ∉ c!"$#\n\t*?[") ∧ ∀ p q, a ≠ p ++ c!"  " ++ q

/-- A text of a command that make takes as it is. -/
def MakeTakes (s : Str) : Prop := ∀ c ∈ s, c ∉ c!"$#\n"

end Gyp.Spec
