import Verif.Model.MsvsActions
/-
The rules of a target in a Visual Studio project: gyp/generator/msvs.py:443-454, 560-760, 925-945 and
2317-2445.

Modelled for MSBuild projects.  `os.path` is `ntpath` for paths without a drive.  Keys with numbers reach the
model as truth values.  Not modelled: the text of the files `.props`, `.targets` and `.xml`, whose contents are
the names and texts of `MsRule` in fixed places.
-/
namespace Gyp

/-- A rule of a target.  `sources` is `rule_sources`; lists are empty when missing; `cygwin` is
`msvs_cygwin_shell` of the rule or of the target (msvs.py:449-453), `quote` is `msvs_quote_cmd`, `external` is
`msvs_external_rule`, `asSources` is `process_outputs_as_sources`. -/
structure WinRule where
  name : Str
  extension : Str
  sources : List Str := []
  inputs : List Str := []
  outputs : List Str := []
  action : Option (List Str) := none
  message : Option Str := none
  external : Bool := false
  asSources : Bool := false
  cygwin : Bool := true
  quote : Bool := true

/-- `ntpath.dirname`, for paths without a drive. -/
def winDirname (p : Str) : Str :=
  let head := (p.reverse.dropWhile fun c => c ≠ '/' && c ≠ '\\').reverse
  let bare := (head.reverse.dropWhile fun c => c = '/' || c = '\\').reverse
  if bare = [] then head else bare

/-- msvs.py:560-578 `_RuleExpandPath` -/
def ruleExpandPath (path file : Str) : Str :=
  let path := replaceStr c!"$(InputName)" (winSplitext (winBasename file)).1 path
  let path := replaceStr c!"$(InputDir)" (winDirname file) path
  let path := replaceStr c!"$(InputExt)" (winSplitext (winBasename file)).2 path
  let path := replaceStr c!"$(InputFileName)" (winBasename file) path
  replaceStr c!"$(InputPath)" file path

/-- msvs.py:593-612 `_RuleInputsAndOutputs` -/
def ruleInputsOutputs (w : WinPaths) (r : WinRule) (file : Str) : List Str × List Str :=
  (winUpdate [file] (r.inputs.map fun i => ruleExpandPath (fixPath w i) file),
    winUpdate [] (r.outputs.map fun o => ruleExpandPath (fixPath w o) file))

/-- msvs.py:929-945 one file of a rule, with `is_msbuild`. -/
def adjustForFile (w : WinPaths) (r : WinRule) (acc : List Str × List Str) (file : Str) :
    List Str × List Str :=
  let excluded := acc.2.filter (· ≠ fixPath w file)
  if r.asSources then
    let io := ruleInputsOutputs w r file
    let inputs := (winUpdate [] (io.1.map (fixPath w))).filter (· ≠ fixPath w file)
    let outputs := winUpdate [] (io.2.map (fixPath w))
    let sources := winUpdate acc.1 inputs
    (winUpdate sources outputs, excluded)
  else (acc.1, excluded)

/-- msvs.py:925-945 `_AdjustSourcesForRules`: the sources and the excluded sources. -/
def adjustForRules (w : WinPaths) (rules : List WinRule) (acc : List Str × List Str) :
    List Str × List Str :=
  rules.foldl (fun acc r => r.sources.foldl (adjustForFile w r) acc) acc

/-- msvs.py:2387 `re.sub(r"\W", "_", name)`, for names in ASCII. -/
def ruleIdent (name : Str) : Str := name.map fun c => if c.isAlphanum || c = '_' then c else '_'

/-- msvs.py:2370-2430 an object of `MSBuildRule`. -/
structure MsRule where
  displayName : Str
  ruleName : Str
  targetName : Str
  afterTargets : Str
  beforeTargets : Str
  dependsOn : Str
  computeOutput : Str
  dirsToMake : Str
  inputs : Str
  tlog : Str
  extension : Str
  description : Str
  additionalDependencies : Str
  outputs : Str
  command : Str
deriving DecidableEq

/-- msvs.py:2384-2430 `MSBuildRule.__init__`; `none` is an exception. -/
def msbuildRule (w : WinPaths) (cygwinDir : Str) (r : WinRule) : Option MsRule :=
  let n := ruleIdent r.name
  match r.action with
  | none => none
  | some action =>
    match buildCommandLine w cygwinDir action r.cygwin true r.quote true with
    | none => none
    | some command =>
      some
        { displayName := r.name, ruleName := n, targetName := '_' :: n, afterTargets := n ++ c!"AfterTargets"
          beforeTargets := n ++ c!"BeforeTargets", dependsOn := n ++ c!"DependsOn"
          computeOutput := c!"Compute" ++ n ++ c!"Output", dirsToMake := n ++ c!"DirsToMake", inputs := n ++ c!"_inputs"
          tlog := n ++ c!"_tlog"
          extension := if startsWith r.extension c!"." then r.extension else '.' :: r.extension
          description := ConvertVCMacrosToMSBuild (r.message.getD n)
          additionalDependencies := joinWith c!";" (r.inputs.map fun i => ConvertVCMacrosToMSBuild (fixPath w i))
          outputs := joinWith c!";" (r.outputs.map fun o => ConvertVCMacrosToMSBuild (fixPath w o))
          command := ConvertVCMacrosToMSBuild command }

/-- msvs.py:2335-2345 the rules of MSBuild; `none` is an exception. -/
def msbuildRules (w : WinPaths) (cygwinDir : Str) : List WinRule → Option (List MsRule)
  | [] => some []
  | r :: rs =>
    if r.external then msbuildRules w cygwinDir rs
    else if r.action = none ∧ r.sources = [] then msbuildRules w cygwinDir rs
    else
      match msbuildRule w cygwinDir r, msbuildRules w cygwinDir rs with
      | some m, some ms => some (m :: ms)
      | _, _ => none

/-- msvs.py:2344 the names of rules by extensions. -/
def extensionNames (ms : List MsRule) : List (Str × Str) := ms.foldl (fun d m => aset d m.extension m.ruleName) []

/-- msvs.py:2343 the dependencies of rules. -/
def ruleDependencies (ms : List MsRule) : List Str := ms.flatMap fun m => splitOn ';' m.additionalDependencies

/-- msvs.py:654-657 `_Cygwinify` -/
def cygwinify (path : Str) : Str :=
  replaceStr c!"$(IntDir)" c!"$(IntDirCygwin)" (replaceStr c!"$(OutDir)" c!"$(OutDirCygwin)" path)

/-- msvs.py:701-715 the text for one file of an external rule; `none` is an exception. -/
def externalRecipe (w : WinPaths) (r : WinRule) (file : Str) : Option Str :=
  match r.action with
  | none => none
  | some action =>
    let io := ruleInputsOutputs w r file
    some (joinWith c!" " (io.2.map cygwinify) ++ c!": " ++ joinWith c!" " (io.1.map cygwinify) ++ c!"\n\t" ++
      joinWith c!" " (action.map fun c => c!"\"" ++ ruleExpandPath c file ++ c!"\"") ++ c!"\n\n")

/-- Every rule with each of its files, in order. -/
def ruleTriggers (rules : List WinRule) : List (WinRule × Str) := rules.flatMap fun r => r.sources.map fun f => (r, f)

/-- msvs.py:660-755 `_GenerateExternalRules`: the name and the text of the makefile, and the step that runs it;
`none` is an exception. -/
def externalRules (w : WinPaths) (cygwinDir target suffix : Str) (rules : List WinRule) : Option (Str × Str × WinStep) :=
  let filename := target ++ c!"_rules" ++ suffix ++ c!".mk"
  let files := ruleTriggers rules
  let io := files.map fun rf => ruleInputsOutputs w rf.1 rf.2
  match io.mapM fun p => p.2.head? with
  | none => none
  | some firstOutputs =>
    let allInputs := io.foldl (fun acc p => winUpdate acc p.1) []
    let allOutputs := io.foldl (fun acc p => winUpdate acc p.2) []
    let dirs := io.foldl (fun acc p => winUpdate acc (p.2.map winDirname)) []
    match files.mapM fun rf => externalRecipe w rf.1 rf.2 with
    | none => none
    | some recipes =>
      let text := c!"OutDirCygwin:=$(shell cygpath -u \"$(OutDir)\")\n" ++ c!"IntDirCygwin:=$(shell cygpath -u \"$(IntDir)\")\n" ++
        c!"all: " ++ joinWith c!" " (firstOutputs.map cygwinify) ++ c!"\n" ++
        (dirs.filter (· ≠ [])).flatMap (fun d => c!"\tmkdir -p `cygpath -u \"" ++ d ++ c!"\"`\n") ++ c!"\n" ++ recipes.flatten
      match buildCommandLine w cygwinDir [c!"make", c!"OutDir=$(OutDir)", c!"IntDir=$(IntDir)", c!"-j",
          c!"${NUMBER_OF_PROCESSORS_PLUS_1}", c!"-f", filename] true false true true with
      | none => none
      | some command =>
        some (filename, text,
          ⟨(filename :: allInputs).map (fixPath w), allOutputs.map (fixPath w),
            c!"Running external rules for " ++ target, command⟩)

/-- What the rules of a target add to its project. -/
structure RulesOut where
  sources : List Str
  excluded : List Str
  native : List MsRule
  makefile : Option (Str × Str)
  steps : List WinStep

/-- msvs.py:2317-2367 `_GenerateRulesForMSBuild`; `none` is an exception. -/
def rulesForMSBuild (w : WinPaths) (cygwinDir target suffix : Str) (rules : List WinRule) (sources excluded : List Str) :
    Option RulesOut :=
  match msbuildRules w cygwinDir rules with
  | none => none
  | some native =>
    if rules.any (·.external) then
      match externalRules w cygwinDir target suffix (rules.filter (·.external)) with
      | none => none
      | some (filename, text, step) =>
        let acc := adjustForRules w rules (listAdd sources filename, excluded)
        some ⟨acc.1, acc.2, native, some (filename, text), [step]⟩
    else
      let acc := adjustForRules w rules (sources, excluded)
      some ⟨acc.1, acc.2, native, none, []⟩

end Gyp
