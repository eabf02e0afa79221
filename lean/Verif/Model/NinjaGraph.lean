import Verif.Model.NinjaPaths
import Verif.Model.OrderedSet
import Verif.Model.Assoc
import Verif.Model.Sort
import Verif.Model.ShellQuote
/-
The build graph the ninja generator writes: gyp/generator/ninja.py:102-186, 359-373, 379-551, 588-631, 646-862,
1209-1284, 1350-1571, 1573-1646 and 2793-2881.

Modelled for flavors other than `mac`, `win`, `netbsd` and `openbsd`, and for targets that are no bundles.  What is
written is a list of statements (`NEdge` for `build`, with names of commands, inputs and outputs; their text is the
subject of `Model/NinjaSyntax.lean`).  Exceptions are `none`.  Not modelled: variables of files (flags, defines and
so on), descriptions, pools, depfiles, postbuilds (empty without Xcode settings) and precompiled headers (a prefix
header is a setting of Xcode).
-/
namespace Gyp

/-- A statement `build outputs: command inputs | implicit || orderOnly` with its variables. -/
structure NEdge where
  outputs : List Str
  command : Str
  inputs : List Str
  implicit : List Str := []
  orderOnly : List Str := []
  bindings : List (Str × Str) := []
deriving DecidableEq

/-- ninja.py:102-155 a target that is written. -/
structure NTarget where
  type : Str
  preactionStamp : Option Str
  precompileStamp : Option Str
  actionsStamp : Option Str
  binary : Option Str
  usesCpp : Bool
deriving DecidableEq

/-- ninja.py:157-159 `Linkable` -/
def NTarget.linkable (t : NTarget) : Bool := t.type ∈ [c!"static_library", c!"shared_library"]

/-- ninja.py:161-169 `UsesToc` -/
def NTarget.usesToc (t : NTarget) : Bool := t.type ∈ [c!"shared_library", c!"loadable_module"]

/-- ninja.py:183-186 `FinalOutput` -/
def NTarget.finalOutput (t : NTarget) : Option Str := t.binary.or t.actionsStamp

/-- ninja.py:171-176 `PreActionInput`; a target that is written has a final output. -/
def NTarget.preActionInput (t : NTarget) : Option Str :=
  if t.usesToc then t.finalOutput.map (· ++ c!".TOC") else t.finalOutput.or t.preactionStamp

/-- ninja.py:178-181 `PreCompileInput` -/
def NTarget.preCompileInput (t : NTarget) : Option Str := t.actionsStamp.or t.precompileStamp

/-- An action (ninja.py:646-685). -/
structure NAction where
  name : Str
  action : List Str
  inputs : List Str
  outputs : List Str
  asSources : Bool := false

/-- A rule (ninja.py:687-830). -/
structure NRule where
  name : Str
  action : Option (List Str)
  inputs : List Str := []
  outputs : List Str := []
  sources : List Str := []
  asSources : Bool := false

/-- A copy (ninja.py:832-862). -/
structure NCopy where
  destination : Str
  files : List Str

/-- A target. -/
structure NSpec where
  product : NinjaProduct
  dependencies : List Str := []
  actions : List NAction := []
  rules : List NRule := []
  copies : List NCopy := []
  sources : List Str := []

/-- ninja.py:359-373 `WriteCollapsedDependencies`: a file for all of `targets`, and what is written. -/
def collapsed (x : NinjaCtx) (name : Str) (targets : List Str) (order : Option Str) :
    Option (Option Str × List NEdge) :=
  if [] ∈ targets then none
  else if targets = [] then (if order = none then some (none, []) else none)
  else if targets.length > 1 ∨ order ≠ none then
    match gypPathToUniqueOutput x (name ++ c!".stamp") true with
    | none => none
    | some stamp => some (some stamp, [{ outputs := [stamp], command := c!"stamp", inputs := targets, orderOnly := order.toList }])
  else some (targets.head?, [])

/-- What steps of a target give: the statements, the outputs of steps, and more sources. -/
structure NSteps where
  edges : List NEdge
  outputs : List Str
  sources : List Str

def NSteps.append (a b : NSteps) : NSteps := ⟨a.edges ++ b.edges, a.outputs ++ b.outputs, a.sources ++ b.sources⟩

/-- ninja.py:652-681 one action. -/
def ninjaAction (x : NinjaCtx) (prebuild : Option Str) (a : NAction) : Option NSteps :=
  match a.inputs.mapM (gypPathToNinja x), a.outputs.mapM (gypPathToNinja x) with
  | some inputs, some outputs =>
    some ⟨[{ outputs := outputs, command := ninjaRuleName x a.name, inputs := inputs, orderOnly := prebuild.toList }],
      outputs, if a.asSources then a.outputs else []⟩
  | _, _ => none

/-- ninja.py:646-685 `WriteActions` -/
def ninjaActions (x : NinjaCtx) (prebuild : Option Str) : List NAction → Option NSteps
  | [] => some ⟨[], [], []⟩
  | a :: as =>
    match ninjaAction x prebuild a, ninjaActions x prebuild as with
    | some s, some t => some (s.append t)
    | _, _ => none

/-- ninja.py:727-733 the variables a rule needs, sorted. -/
def neededVariables (args : List Str) : List Str :=
  [c!"dirname", c!"ext", c!"name", c!"root", c!"source"].filter fun v =>
    v = c!"source" || args.any (hasSub (c!"${" ++ v ++ c!"}"))

/-- ninja.py:760-768 the outputs of a rule for a source, as they are in build files. -/
def ruleOutputsFor (r : NRule) (source : Str) : List Str :=
  let source := normpath source
  let base := basename source
  r.outputs.map fun o => expandRuleVariables o (splitext base).1 (dirname source) source (splitext base).2 base

/-- ninja.py:785-810 the variables of a rule for a source. -/
def ruleBindings (x : NinjaCtx) (args : List Str) (source : Str) : List (Str × Str) :=
  let source := normpath source
  let base := basename source
  (neededVariables args).map fun v =>
    (v, if v = c!"root" then (splitext base).1
      else if v = c!"dirname" then expandSpecial x x.baseToBuild (dirname source)
      else if v = c!"source" then expandSpecial x x.baseToBuild source
      else if v = c!"ext" then (splitext base).2
      else base)

/-- ninja.py:759-828 one source of a rule. -/
def ninjaRuleSource (x : NinjaCtx) (r : NRule) (args : List Str) (implicit : List Str) (prebuild : Option Str)
    (source : Str) : Option NSteps :=
  match (ruleOutputsFor r source).mapM (gypPathToNinja x), gypPathToNinja x (normpath source) with
  | some outputs, some input =>
    some ⟨[{ outputs := outputs, command := ninjaRuleName x r.name, inputs := [input], implicit := implicit,
             orderOnly := prebuild.toList, bindings := ruleBindings x args source }],
      outputs, if r.asSources then ruleOutputsFor r source else []⟩
  | _, _ => none

def ninjaRuleSources (x : NinjaCtx) (r : NRule) (args : List Str) (implicit : List Str) (prebuild : Option Str) :
    List Str → Option NSteps
  | [] => some ⟨[], [], []⟩
  | s :: ss =>
    match ninjaRuleSource x r args implicit prebuild s, ninjaRuleSources x r args implicit prebuild ss with
    | some a, some b => some (a.append b)
    | _, _ => none

/-- ninja.py:746-750 whether the inputs of a rule are collapsed. -/
def ruleCollapses (r : NRule) (prebuild : Option Str) : Bool :=
  r.inputs.length + prebuild.toList.length > 2 && r.sources.length > 2

/-- ninja.py:697-828 one rule; the second part is `prebuild` for the rules that follow. -/
def ninjaRule (x : NinjaCtx) (prebuild : Option Str) (r : NRule) : Option (NSteps × Option Str) :=
  if r.action = none ∧ r.sources = [] then some (⟨[], [], []⟩, prebuild)
  else
    match r.action, r.inputs.mapM (gypPathToNinja x) with
    | some action, some inputs =>
      let args := action.map (expandSpecial x x.baseToBuild)
      if ruleCollapses r prebuild then
        match collapsed x r.name inputs prebuild with
        | none => none
        | some (stamp, edges) =>
          match ninjaRuleSources x r args stamp.toList none r.sources with
          | none => none
          | some s => some (NSteps.append ⟨edges, [], []⟩ s, none)
      else
        match ninjaRuleSources x r args inputs prebuild r.sources with
        | none => none
        | some s => some (s, prebuild)
    | _, _ => none

/-- ninja.py:687-830 `WriteRules` -/
def ninjaRules (x : NinjaCtx) (prebuild : Option Str) : List NRule → Option NSteps
  | [] => some ⟨[], [], []⟩
  | r :: rs =>
    match ninjaRule x prebuild r with
    | none => none
    | some (s, prebuild) =>
      match ninjaRules x prebuild rs with
      | none => none
      | some t => some (s.append t)

/-- ninja.py:841-848 one file of a copy. -/
def ninjaCopy (x : NinjaCtx) (prebuild : Option Str) (destination file : Str) : Option NSteps :=
  let path := normpath file
  match gypPathToNinja x path, gypPathToNinja x (pathJoin destination (basename path)) with
  | some src, some dst =>
    some ⟨[{ outputs := [dst], command := c!"copy", inputs := [src], orderOnly := prebuild.toList }], [dst], []⟩
  | _, _ => none

/-- ninja.py:832-862 `WriteCopies`, for pairs of a destination and a file. -/
def ninjaCopies (x : NinjaCtx) (prebuild : Option Str) : List (Str × Str) → Option NSteps
  | [] => some ⟨[], [], []⟩
  | (d, f) :: rest =>
    match ninjaCopy x prebuild d f, ninjaCopies x prebuild rest with
    | some s, some t => some (s.append t)
    | _, _ => none

/-- Each file of each copy with its destination. -/
def copyPairs (copies : List NCopy) : List (Str × Str) := copies.flatMap fun c => c.files.map fun f => (c.destination, f)

/-- ninja.py:588-631 the steps of `WriteActionsRulesCopies`. -/
def ninjaSteps (x : NinjaCtx) (prebuild : Option Str) (s : NSpec) : Option NSteps :=
  match ninjaActions x prebuild s.actions, ninjaRules x prebuild s.rules, ninjaCopies x prebuild (copyPairs s.copies) with
  | some a, some r, some c => some ((a.append r).append c)
  | _, _, _ => none

/-- ninja.py:1213-1243 the command for a source, by its extension. -/
def ninjaCommand (source : Str) : Option Str :=
  let ext := (splitext source).2.drop 1
  if ext ∈ [c!"cc", c!"cpp", c!"cxx"] then some c!"cxx"
  else if ext = c!"c" ∨ ext = c!"S" then some c!"cc"
  else if ext = c!"s" then some c!"cc_s"
  else none

/-- ninja.py:1212-1268 the statements for the sources; the objects are their outputs. -/
def ninjaCompiles (x : NinjaCtx) (predepends : Option Str) : List Str → Option (List NEdge)
  | [] => some []
  | s :: ss =>
    match ninjaCommand s with
    | none => ninjaCompiles x predepends ss
    | some command =>
      match gypPathToNinja x s, gypPathToUniqueOutput x ((splitext s).1 ++ c!".o") true, ninjaCompiles x predepends ss with
      | some input, some output, some rest =>
        some ({ outputs := [output], command := command, inputs := [input], orderOnly := predepends.toList } :: rest)
      | _, _, _ => none

/-- ninja.py:1361-1408 what the dependencies add to a link: libraries for the command line, shared libraries, and
other files that are needed; `none` is an exception. -/
structure NLinkDeps where
  libraries : List Str
  solibs : List Str
  implicit : List Str

/-- ninja.py:1380-1408 one dependency that is written. -/
def ninjaLinkDep (acc : NLinkDeps) (t : NTarget) : NLinkDeps :=
  let binary := t.binary.getD []
  let acc :=
    if t.linkable then
      if t.usesToc then
        { acc with solibs := listAdd acc.solibs binary, implicit := listAdd acc.implicit (binary ++ c!".TOC") }
      else { acc with libraries := listAdd acc.libraries binary }
    else acc
  if t.linkable = false ∨ t.finalOutput ≠ t.binary then
    { acc with implicit := listAdd acc.implicit (t.finalOutput.getD []) }
  else acc

/-- ninja.py:1373-1408 all dependencies. -/
def linkDepsOf (outs : List (Str × NTarget)) (dependencies : List Str) : NLinkDeps :=
  (dependencies.filterMap (aget outs)).foldl ninjaLinkDep ⟨[], [], []⟩

/-- ninja.py:1354-1358 the command of a link. -/
def ninjaLinkCommand (type : Str) : Option Str :=
  if type = c!"executable" then some c!"link"
  else if type = c!"loadable_module" then some c!"solink_module"
  else if type = c!"shared_library" then some c!"solink"
  else none

/-- ninja.py:1350-1571 `WriteLinkForArch`: the output and the statement. -/
def ninjaLink (x : NinjaCtx) (s : NSpec) (outs : List (Str × NTarget)) (usesCpp : Bool) (linkDeps : List Str)
    (compileDeps : Option Str) : Option (Str × NEdge) :=
  match ninjaLinkCommand s.product.type, ninjaComputeOutput x s.product with
  | some command, some output =>
    let d := linkDepsOf outs s.dependencies
    let shared := command ≠ c!"link"
    let file := replaceChar ' ' c!"_" (output ++ c!".rsp")
    some (output,
      { outputs := if shared then [output, output ++ c!".TOC"] else [output]
        command := command
        inputs := linkDeps ++ d.libraries
        implicit := pySorted strLe d.implicit
        orderOnly := compileDeps.toList
        bindings :=
          (if usesCpp then [(c!"ld", c!"$ldxx")] else []) ++
          (if shared then
            [(c!"soname", basename output), (c!"lib", EncodePOSIXShellArgument output),
              (c!"link_file_list", EncodePOSIXShellArgument file)]
           else []) ++
          (if d.solibs = [] then [] else [(c!"solibs", EncodePOSIXShellList (pySorted strLe d.solibs))]) })
  | _, _ => none

/-- What is written for a target, in order, and the target when it has an output. -/
structure NWritten where
  before : List NEdge
  steps : NSteps
  stamp : List NEdge
  compiles : List NEdge
  link : List NEdge
  target : Option NTarget

def NWritten.edges (w : NWritten) : List NEdge := w.before ++ w.steps.edges ++ w.stamp ++ w.compiles ++ w.link

/-- ninja.py:1573-1646 `WriteTarget`: the type and the binary of the target, and what is written. -/
def ninjaWriteTarget (x : NinjaCtx) (s : NSpec) (outs : List (Str × NTarget)) (usesCpp : Bool) (linkDeps : List Str)
    (compileDeps : Option Str) : Option (Str × Option Str × List NEdge) :=
  let extra := (s.dependencies.filterMap (aget outs)).any NTarget.linkable
  if s.product.type = c!"none" ∨ (linkDeps = [] ∧ extra = false) then some (c!"none", compileDeps, [])
  else if s.product.type = c!"static_library" then
    match ninjaComputeOutput x s.product with
    | none => none
    | some output =>
      some (s.product.type, some output,
        [{ outputs := [output], command := if s.product.standalone then c!"alink" else c!"alink_thin"
           inputs := linkDeps, orderOnly := compileDeps.toList }])
  else
    match ninjaLink x s outs usesCpp linkDeps compileDeps with
    | none => none
    | some (output, e) => some (s.product.type, some output, [e])

/-- ninja.py:379-551 `WriteSpec`; `none` is an exception. -/
def ninjaSpec (x : NinjaCtx) (outs : List (Str × NTarget)) (s : NSpec) : Option NWritten :=
  let deps := s.dependencies.filterMap (aget outs)
  match collapsed x c!"actions_depends" (deps.filterMap NTarget.preActionInput) none,
      collapsed x c!"compile_depends" (deps.filterMap NTarget.preCompileInput) none with
  | some (actionsDepends, e1), some (compileDepends, e2) =>
    match ninjaSteps x actionsDepends s with
    | none => none
    | some steps =>
      match collapsed x c!"actions_rules_copies" steps.outputs none with
      | none => none
      | some (actionsStamp, e3) =>
        let sources := steps.sources ++ s.sources
        match ninjaCompiles x (actionsStamp.or compileDepends) sources,
            (sources.filter (endsWith · c!".o")).mapM (gypPathToNinja x) with
        | some compiles, some objects =>
          let linkDeps := compiles.flatMap NEdge.outputs ++ objects
          let usesCpp := deps.any NTarget.usesCpp || compiles.any (·.command = c!"cxx")
          let compileDeps := actionsStamp.or actionsDepends
          if linkDeps = [] ∧ actionsStamp = none ∧ actionsDepends = none then
            some ⟨e1 ++ e2, steps, e3, compiles, [], none⟩
          else
            match ninjaWriteTarget x s outs usesCpp linkDeps compileDeps with
            | none => none
            | some (type, binary, e4) =>
              let target : NTarget := ⟨type, actionsDepends, compileDepends, actionsStamp, binary, usesCpp⟩
              some ⟨e1 ++ e2, steps, e3, compiles, e4, if binary = none then none else some target⟩
        | _, _ => none
  | _, _ => none

/-- ninja.py:2793-2852 the targets, in the order of the list; what was written and the targets with outputs. -/
def ninjaTargets (ctx : Str → NinjaCtx) : List (Str × NSpec) → List (Str × NTarget) →
    Option (List (Str × NWritten) × List (Str × NTarget))
  | [], outs => some ([], outs)
  | (q, s) :: rest, outs =>
    match ninjaSpec (ctx q) outs s with
    | none => none
    | some w =>
      let outs := match w.target with
        | some t => aset outs q t
        | none => outs
      match ninjaTargets ctx rest outs with
      | none => none
      | some (ws, outs) => some ((q, w) :: ws, outs)

/-- All statements for targets. -/
def ninjaEdges (ws : List (Str × NWritten)) : List NEdge := ws.flatMap fun w => w.2.edges

/-- ninja.py:2879-2881 the statement for `all`. -/
def ninjaAll (outs : List (Str × NTarget)) (wanted : List Str) : List NEdge :=
  let finals := (outs.filter (·.1 ∈ wanted)).filterMap fun o => o.2.finalOutput
  if finals = [] then []
  else [{ outputs := [c!"all"], command := c!"phony", inputs := pySorted strLe (finals.foldl listAdd []) }]

/-- ninja.py:2846-2848 the short names, in order, each with the final outputs of its targets. -/
def ninjaShort (ctx : Str → NinjaCtx) : List (Str × NWritten) → List (Str × List Str) → List (Str × List Str)
  | [], acc => acc
  | (q, w) :: ws, acc =>
    match w.target.bind NTarget.finalOutput with
    | none => ninjaShort ctx ws acc
    | some f =>
      if (ctx q).name ≠ f ∧ (ctx q).toolset = c!"target" then
        ninjaShort ctx ws (aset acc (ctx q).name ((aget acc (ctx q).name).getD [] ++ [f]))
      else ninjaShort ctx ws acc

/-- ninja.py:2856-2867 the statements for short names. -/
def ninjaShortEdges (ctx : Str → NinjaCtx) (ws : List (Str × NWritten)) : List NEdge :=
  (pySorted (fun a b : Str × List Str => strLe a.1 b.1) (ninjaShort ctx ws [])).map fun s =>
    { outputs := [s.1], command := c!"phony", inputs := s.2 }

/-- ninja.py:2852-2854 and 2869-2877 the statements for names of targets with nothing to build. -/
def ninjaEmptyEdges (ctx : Str → NinjaCtx) (ws : List (Str × NWritten)) : List NEdge :=
  let full := (ws.filter fun w => w.2.target.isSome).map fun w => (ctx w.1).name
  let empty := ((ws.filter fun w => w.2.target.isNone).map fun w => (ctx w.1).name).filter (· ∉ full)
  (pySorted strLe (empty.foldl listAdd [])).map fun n => { outputs := [n], command := c!"phony", inputs := [] }

end Gyp
