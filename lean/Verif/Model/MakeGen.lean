import Verif.Model.MakeRule
import Verif.Model.Path
import Verif.Model.Splitext
import Verif.Model.Toposort
import Verif.Model.Assoc
import Verif.Model.Build
import Verif.Model.Version
/-
The makefile of one target: `gyp/pylib/gyp/generator/make.py` `MakefileWriter.Write` and what it
calls, for platforms other than macOS and Windows.

Simplifications: the dictionaries of targets, actions, rules, copies and configurations are
structures with the fields that are read (absent lists are empty).  What is written is a list
of statements; `render` gives the lines of a statement.  An exception is `none`.  The set of
directories of outputs (`dirs`, of unspecified order) is a list in order of occurrence.  On
these platforms there are no bundles, no postbuilds, no Xcode environment and no precompiled
headers (`MacPrefixHeader` without settings gives none).  The definitions for the Android NDK
(make.py:977-978) are left out.
-/
namespace Gyp

/-- An entry of `actions`. -/
structure MkAction where
  name : Str
  inputs : List Str
  outputs : List Str
  action : List Str
  asSources : Bool := false
  message : Option Str := none

/-- An entry of `rules`. -/
structure MkRule where
  name : Str
  sources : List Str
  inputs : List Str := []
  outputs : List Str
  action : List Str
  asSources : Bool := false

/-- An entry of `copies`. -/
structure MkCopy where
  destination : Str
  files : List Str

/-- An entry of `configurations`. -/
structure MkConfig where
  name : Str
  defines : List Str := []
  cflags : List Str := []
  cflagsC : List Str := []
  cflagsCC : List Str := []
  includeDirs : List Str := []
  ldflags : List Str := []
  libraryDirs : List Str := []

/-- A target. -/
structure MkSpec where
  targetName : Str
  type : Str
  toolset : Str
  dependencies : List Str := []
  sources : List Str := []
  actions : List MkAction := []
  rules : List MkRule := []
  copies : List MkCopy := []
  productDir : Option Str := none
  productPrefix : Option Str := none
  productName : Option Str := none
  productExtension : Str := []
  libraries : List Str := []
  standalone : Bool := false
  configs : List MkConfig := []

/-- A statement of a makefile. -/
inductive MkLine where
  /-- a comment or an empty line -/
  | text (s : Str)
  /-- `name := value` -/
  | set (name value : Str)
  /-- `name = value` -/
  | setLater (name value : Str)
  /-- the result of `WriteList`: `name := value value ...` -/
  | list (name : Str) (values : List Str)
  /-- `name += value ...` -/
  | add (name : Str) (values : List Str)
  /-- `target: name := value` -/
  | setFor (target name value : Str)
  /-- the result of `WriteMakeRule` -/
  | rule (a : RuleArgs)
  /-- a pattern rule `target%.o: source%ext FORCE_DO_CMD` that runs `cmd` -/
  | pattern (target source ext cmd : Str)

/-- The text of a statement (`WriteLn`, `WriteList`, `WriteMakeRule`). -/
def render : MkLine → Option (List Str)
  | .text s => some [s]
  | .set name value => some [name ++ c!" := " ++ value]
  | .setLater name value => some [name ++ c!" = " ++ value]
  | .list name values =>
    some [name ++ c!" :=" ++ (if values = [] then [] else
      c!" \\\n\t" ++ joinWith c!" \\\n\t" values), []]
  | .add name values => some [name ++ c!" += " ++ joinWith [' '] values]
  | .setFor target name value => some [target ++ c!": " ++ name ++ c!" := " ++ value]
  | .rule a => WriteMakeRule a
  | .pattern target source ext cmd =>
    some [target ++ c!"%.o: " ++ source ++ c!"%" ++ ext ++ c!" FORCE_DO_CMD",
      c!"\t@$(call do_cmd," ++ cmd ++ c!",1)"]

/-- What the writer knows: `self` and the module's globals.  `sha1` is the digest in
hexadecimal. -/
structure MkSelf where
  flavor : Str
  srcdirPrefix : Str
  sha1 : Str → Str
  qualified : Str
  path : Str
  spec : MkSpec
  output : Str := []
  aliasName : Str := []
  partOfAll : Bool := true

/-- make.py:681-688 (and 105 for z/OS) `COMPILABLE_EXTENSIONS`. -/
def compilableExtensions (flavor : Str) : List (Str × Str) :=
  [(c!".c", c!"cc"), (c!".cc", c!"cxx"), (c!".cpp", c!"cxx"), (c!".cxx", c!"cxx"),
   (c!".s", c!"cc"), (c!".S", c!"cc")] ++ (if flavor = c!"zos" then [(c!".pli", c!"pli")] else [])

/-- make.py:691-693 `Compilable(filename)`. -/
def Compilable (flavor : Str) (filename : Str) : Bool :=
  (compilableExtensions flavor).any fun e => endsWith filename e.1

/-- make.py:696-698 `Linkable(filename)`. -/
def Linkable (filename : Str) : Bool := endsWith filename c!".o"

/-- make.py:701-703 `Target(filename)`. -/
def objTarget (filename : Str) : Str := (splitext filename).1 ++ c!".o"

/-- make.py:749-755 `Sourceify(path)`. -/
def Sourceify (m : MkSelf) (path : Str) : Str :=
  if hasSub c!"$(" path then path
  else if isAbs path then path
  else m.srcdirPrefix ++ path

/-- `path.rstrip("/")`. -/
def rstripSlash (path : Str) : Str := (path.reverse.dropWhile (· = '/')).reverse

/-- make.py:2327-2335 `Absolutify(path)`. -/
def Absolutify (m : MkSelf) (path : Str) : Str :=
  if hasSub c!"$(" path then rstripSlash path
  else normpath (pathJoin m.path path)

/-- make.py:2309-2315 `Objectify(path)`. -/
def Objectify (m : MkSelf) (path : Str) : Str :=
  let path := if hasSub c!"$(" path then
      replaceStr c!"$(obj)/" (c!"$(obj)." ++ m.spec.toolset ++ c!"/$(TARGET)/") path
    else path
  if hasSub c!"$(obj)" path then path
  else c!"$(obj)." ++ m.spec.toolset ++ c!"/$(TARGET)/" ++ path

/-- make.py:2337-2344 `ExpandInputRoot(template, expansion, dirname)`: Python's `%` with the two
names (and `%%`); everything else after a `%` raises. -/
def formatRoot (root dir : Str) : Str → Option Str
  | [] => some []
  | '%' :: rest =>
    if startsWith rest c!"(INPUT_ROOT)s" then
      (formatRoot root dir (rest.drop 13)).map (root ++ ·)
    else if startsWith rest c!"(INPUT_DIRNAME)s" then
      (formatRoot root dir (rest.drop 16)).map (dir ++ ·)
    else
      match rest with
      | '%' :: rest' => (formatRoot root dir rest').map ('%' :: ·)
      | _ => none
  | c :: rest => (formatRoot root dir rest).map (c :: ·)
termination_by s => s.length
decreasing_by all_goals simp_wf; try omega

def ExpandInputRoot (template root dir : Str) : Option Str :=
  if hasSub c!"%(INPUT_ROOT)s" template ∨ hasSub c!"%(INPUT_DIRNAME)s" template then
    formatRoot root dir template
  else some template

/-- A rule, if `WriteMakeRule` does not raise. -/
def makeRule (a : RuleArgs) : Option (List MkLine) :=
  match WriteMakeRule a with
  | some _ => some [.rule a]
  | none => none

/-- make.py:2083-2108 `WriteDoCmd(outputs, inputs, command, part_of_all, comment)`. -/
def WriteDoCmd (m : MkSelf) (outputs inputs : List Str) (command : Str)
    (comment : Option Str := none) : Option (List MkLine) :=
  match makeRule { outputs, inputs, comment, force := true, digest := m.sha1 command
                   actions := some [c!"$(call do_cmd," ++ command ++ c!")"] } with
  | none => none
  | some l => some (l ++ [.add c!"all_deps" (outputs.map (QuoteSpaces · c!"?"))])

/-- Statements of a list of things, one after the other. -/
def eachDo {α : Type} (f : α → Option (List MkLine)) : List α → Option (List MkLine)
  | [] => some []
  | x :: rest =>
    match f x, eachDo f rest with
    | some a, some b => some (a ++ b)
    | _, _ => none

/-- make.py:1038-1042, 1173-1176 the directories of some outputs. -/
def outputDirs (outputs : List Str) : List Str :=
  Unify ((outputs.map dirname).filter (· ≠ []))

/-- make.py:1029-1031, 1153-1155 the name of the command of an action or a rule. -/
def commandName (m : MkSelf) (name : Str) : Str :=
  StringToMakefileVariable (m.qualified ++ c!"_" ++ name)

/-- make.py:1062-1063, 1226-1228 `mkdir -p`. -/
def mkdirs (dirs : List Str) : Str :=
  if dirs = [] then [] else c!"mkdir -p " ++ joinWith [' '] dirs ++ c!"; "

/-- make.py:1067-1071 `$(TARGET)` written out. -/
def hardTarget (m : MkSelf) (s : Str) : Str := replaceStr c!"$(TARGET)" m.spec.targetName s

/-- make.py:1065 `cd_action`. -/
def cdAction (m : MkSelf) : Str :=
  hardTarget m (c!"cd " ++ Sourceify m (if m.path = [] then c!"." else m.path) ++ c!"; ")

/-- make.py:1048-1092 the command of an action. -/
def actionCommand (m : MkSelf) (a : MkAction) : Str :=
  let lib := if m.flavor = c!"zos" ∨ m.flavor = c!"aix" then c!"LIBPATH" else c!"LD_LIBRARY_PATH"
  lib ++ c!"=$(builddir)/lib.host:$(builddir)/lib.target:$$" ++ lib ++ c!"; export " ++ lib ++
    c!"; " ++ cdAction m ++
    hardTarget m (mkdirs (outputDirs a.outputs) ++ EncodePOSIXShellList a.action)

/-- The variable with the outputs of an action. -/
def actionOutputs (m : MkSelf) (a : MkAction) : Str :=
  c!"action_" ++ commandName m a.name ++ c!"_outputs"

/-- make.py:1028-1131 one action. -/
def writeAction (m : MkSelf) (a : MkAction) : Option (List MkLine) :=
  let name := commandName m a.name
  let outputs := a.outputs.map (Absolutify m)
  let inputs := a.inputs.map fun i => Sourceify m (Absolutify m i)
  match outputs.head? with
  | none => none
  | some first =>
    if a.inputs.any (' ' ∈ ·) ∨ outputs.any (' ' ∈ ·) then none
    else
      match WriteDoCmd m outputs inputs name with
      | none => none
      | some cmd =>
        some ([.text (c!"### Rules for action \"" ++ a.name ++ c!"\":"),
          .setLater (c!"quiet_cmd_" ++ name) (c!"ACTION " ++ a.message.getD name ++ c!" $@"),
          .setLater (c!"cmd_" ++ name) (actionCommand m a), .text [],
          .setFor (QuoteSpaces first) c!"obj" c!"$(abs_obj)",
          .setFor (QuoteSpaces first) c!"builddir" c!"$(abs_builddir)"] ++ cmd ++
          [.set (actionOutputs m a) (joinWith [' '] outputs), .text []])

/-- make.py:1010-1133 `WriteActions`. -/
def WriteActions (m : MkSelf) (actions : List MkAction) : Option (List MkLine) :=
  match eachDo (writeAction m) actions with
  | none => none
  | some l => some (l ++ [.text []])

/-- make.py:1163-1166 `os.path.split` and `os.path.splitext` of a source: root and directory. -/
def ruleRoot (source : Str) : Str × Str := ((splitext (basename source)).1, dirname source)

/-- make.py:1168-1171, 1222-1225 texts with the name of the source filled in. -/
def expandAll (source : Str) : List Str → Option (List Str)
  | [] => some []
  | t :: rest =>
    match ExpandInputRoot t (ruleRoot source).1 (ruleRoot source).2, expandAll source rest with
    | some x, some l => some (x :: l)
    | _, _ => none

/-- make.py:1214-1216 `re.sub(r"\$\([^ ]* \$<\)", "", output)` takes away one such variable reference,
if it begins here: the rest after it.  (The expression is greedy: `[^ ]*` ends before the first
blank.) -/
def afterRuleVar (s : Str) : Option Str :=
  match s with
  | '$' :: '(' :: rest =>
    match rest.dropWhile (· ≠ ' ') with
    | ' ' :: '$' :: '<' :: ')' :: r => some r
    | _ => none
  | _ => none

/-- make.py:1214-1219 a blank outside such variables. -/
def ruleBlank (fuel : Nat) (s : Str) : Bool :=
  match fuel, s with
  | 0, _ => false
  | _, [] => false
  | n + 1, c :: rest =>
    match afterRuleVar (c :: rest) with
    | some r => ruleBlank n r
    | none => c = ' ' || ruleBlank n rest

/-- make.py:1226-1262 the command of a rule for one source. -/
def ruleCommand (m : MkSelf) (outputs action : List Str) : Str :=
  c!"LD_LIBRARY_PATH=$(builddir)/lib.host:$(builddir)/lib.target:$$LD_LIBRARY_PATH; " ++
    c!"export LD_LIBRARY_PATH; " ++ cdAction m ++ hardTarget m (mkdirs (outputDirs outputs)) ++
    hardTarget m (EncodePOSIXShellList action)

/-- The outputs of a rule for one source, before and after `Absolutify`. -/
def ruleOutputs (r : MkRule) (source : Str) : Option (List Str) := expandAll source r.outputs

/-- make.py:1161-1268 one source of a rule. -/
def writeRuleSource (m : MkSelf) (r : MkRule) (count : Nat) (source : Str) :
    Option (List MkLine × List Str) :=
  let name := commandName m r.name ++ c!"_" ++ natStr count
  match ruleOutputs r source, expandAll source r.action with
  | some outs, some action =>
    let outputs := outs.map (Absolutify m)
    let inputs := (source :: r.inputs).map fun i => Sourceify m (Absolutify m i)
    match outputs.head? with
    | none => none
    | some first =>
      if outputs.any (fun o => ruleBlank (o.length + 1) o) then none
      else
        match makeRule { outputs, inputs, digest := m.sha1 name
                         actions := some ([c!"$(call do_cmd," ++ name ++ c!")"] ++
                           if commandName m r.name = c!"resources_grit" then
                             [c!"@touch --no-create $@"] else []) } with
        | none => none
        | some rule =>
          some ([.setFor first c!"obj" c!"$(abs_obj)",
            .setFor first c!"builddir" c!"$(abs_builddir)"] ++ rule ++
            [.add c!"all_deps" outputs,
             .setLater (c!"cmd_" ++ name) (ruleCommand m outs action),
             .setLater (c!"quiet_cmd_" ++ name) (c!"RULE " ++ name ++ c!" $@"), .text []], outputs)
  | _, _ => none

/-- make.py:1161-1268 the sources of a rule. -/
def writeRuleSources (m : MkSelf) (r : MkRule) :
    Nat → List Str → Option (List MkLine × List Str)
  | _, [] => some ([], [])
  | count, s :: rest =>
    match writeRuleSource m r count s, writeRuleSources m r (count + 1) rest with
    | some (a, o), some (b, p) => some (a ++ b, o ++ p)
    | _, _ => none

/-- The variable with the outputs of a rule. -/
def ruleOutputsVar (m : MkSelf) (r : MkRule) : Str := c!"rule_" ++ commandName m r.name ++ c!"_outputs"

/-- make.py:1152-1275 one rule. -/
def writeRule (m : MkSelf) (r : MkRule) : Option (List MkLine) :=
  match writeRuleSources m r 0 r.sources with
  | none => none
  | some (l, outputs) =>
    some ([.text (c!"### Generated for rule " ++ commandName m r.name ++ c!":")] ++ l ++
      [.list (ruleOutputsVar m r) (outputs.map QuoteIfNecessary),
       .text (c!"### Finished generating for rule: " ++ commandName m r.name), .text []])

/-- make.py:1135-1277 `WriteRules`. -/
def WriteRules (m : MkSelf) (rules : List MkRule) : Option (List MkLine) :=
  match eachDo (writeRule m) rules with
  | none => none
  | some l => some (l ++ [.text c!"### Finished generating for all rules", .text []])

/-- make.py:1293-1297 the two ends of a copy. -/
def copyPaths (m : MkSelf) (destination file : Str) : Str × Str :=
  let path := Sourceify m (Absolutify m file)
  (path, Sourceify m (Absolutify m (pathJoin destination (basename path))))

/-- make.py:1290-1312 all copies: source and destination. -/
def allCopies (m : MkSelf) (copies : List MkCopy) : List (Str × Str) :=
  copies.flatMap fun c => c.files.map (copyPaths m c.destination)

/-- The variable with the copies. -/
def copiesVar (m : MkSelf) : Str := StringToMakefileVariable (m.qualified ++ c!"_copies")

/-- make.py:1279-1317 `WriteCopies`. -/
def WriteCopies (m : MkSelf) (copies : List MkCopy) : Option (List MkLine) :=
  match eachDo (fun e => WriteDoCmd m [e.2] [e.1] c!"copy") (allCopies m copies) with
  | none => none
  | some l =>
    some ([.text c!"### Generated for copy rule."] ++ l ++
      [.setLater (copiesVar m)
        (joinWith [' '] ((allCopies m copies).map fun e => QuoteSpaces e.2)), .text []])

/-- make.py:1398-1434 the variables of one configuration. -/
def configVars (m : MkSelf) (c : MkConfig) : List MkLine :=
  [.list (c!"DEFS_" ++ c.name) (c.defines.map fun d => EscapeCppDefine (c!"-D" ++ d)),
   .text c!"# Flags passed to all source files.",
   .list (c!"CFLAGS_" ++ c.name) (c.cflags.map QuoteIfNecessary),
   .text c!"# Flags passed to only C files.",
   .list (c!"CFLAGS_C_" ++ c.name) (c.cflagsC.map QuoteIfNecessary),
   .text c!"# Flags passed to only C++ files.",
   .list (c!"CFLAGS_CC_" ++ c.name) (c.cflagsCC.map QuoteIfNecessary),
   .list (c!"INCS_" ++ c.name)
     (c.includeDirs.map fun i => QuoteIfNecessary (c!"-I" ++ Sourceify m (Absolutify m i)))]

/-- make.py:1437 the object of a source. -/
def objectOf (m : MkSelf) (source : Str) : Str := Objectify m (Absolutify m (objTarget source))

/-- make.py:1436-1437 the objects of some sources. -/
def objectsOf (m : MkSelf) (sources : List Str) : List Str :=
  (sources.filter (Compilable m.flavor)).map (objectOf m)

/-- A rule that only gives an order, if there is something to wait for. -/
def orderRule (outputs inputs : List Str) (comment : Str) : Option (List MkLine) :=
  if inputs = [] then some []
  else makeRule { outputs, inputs, comment := some comment, orderOnly := true }

/-- make.py:1477-1496 the variables local to the objects. -/
def objectVars : List MkLine :=
  [.text (c!"# CFLAGS et al overrides must be target-local.\n" ++
     c!"# See \"Target-specific Variable Values\" in the GNU Make manual."),
   .setFor c!"$(OBJS)" c!"TOOLSET" c!"$(TOOLSET)",
   .setFor c!"$(OBJS)" c!"GYP_CFLAGS" (c!"$(DEFS_$(BUILDTYPE)) $(INCS_$(BUILDTYPE))  " ++
     c!"$(CFLAGS_$(BUILDTYPE)) $(CFLAGS_C_$(BUILDTYPE))"),
   .setFor c!"$(OBJS)" c!"GYP_CXXFLAGS" (c!"$(DEFS_$(BUILDTYPE)) $(INCS_$(BUILDTYPE))  " ++
     c!"$(CFLAGS_$(BUILDTYPE)) $(CFLAGS_CC_$(BUILDTYPE))")]

/-- make.py:1376-1523 `WriteSources`; the configurations are in the order of their names. -/
def WriteSources (m : MkSelf) (deps sources extraOutputs : List Str) : Option (List MkLine) :=
  let objs := objectsOf m sources
  if objs.any (' ' ∈ ·) then none
  else
    match orderRule [c!"$(OBJS)"] deps c!"Make sure our dependencies are built before any of us.",
      orderRule [c!"$(OBJS)"] extraOutputs c!"Make sure our actions/rules run before any of us."
    with
    | some r1, some r2 =>
      some (m.spec.configs.flatMap (configVars m) ++
        [.list c!"OBJS" (objs.map QuoteIfNecessary),
         .text c!"# Add to the list of files we specially track dependencies for.",
         .add c!"all_deps" [c!"$(OBJS)"], .text []] ++ r1 ++ r2 ++
        (if objs = [] then [] else objectVars) ++ [.text []])
    | _, _ => none

/-- make.py:1475-1476, 1519-1521 what the compilation adds to the link inputs. -/
def extraLinkDeps (m : MkSelf) (sources : List Str) : List Str :=
  (if objectsOf m sources = [] then [] else [c!"$(OBJS)"]) ++ sources.filter Linkable

/-- make.py:790-827 the suffix rules for an extension, from the three directories. -/
def suffixRules (m : MkSelf) (dir : Str) (exts : List Str) : List MkLine :=
  exts.flatMap fun ext =>
    match aget (compilableExtensions m.flavor) ext with
    | some cmd => [.pattern c!"$(obj).$(TOOLSET)/$(TARGET)/" dir ext cmd, .text []]
    | none => []

/-- make.py:938-952 the suffix rules of a target.  (The set of extensions, of unspecified
order, is a list.) -/
def targetSuffixRules (m : MkSelf) (sources : List Str) : List MkLine :=
  let compilable := sources.filter (Compilable m.flavor)
  let exts := Unify (compilable.map fun s => (splitext s).2)
  if compilable = [] then []
  else [.text c!"# Suffix rules, putting all outputs into $(obj).\n"] ++
    suffixRules m c!"$(srcdir)/" exts ++
    [.text c!"# Try building from generated source, too.\n"] ++
    suffixRules m c!"$(obj).$(TOOLSET)/" exts ++ suffixRules m c!"$(obj)/" exts ++
    [.text c!"# End of this set of suffix rules"]

/-- make.py:622-640 `WriteRootHeaderSuffixRules`, for a toolset (the order of the rules for the
different extensions is not kept). -/
def rootSuffixRules (flavor : Str) : List MkLine :=
  [c!"$(srcdir)/", c!"$(obj).$(TOOLSET)/", c!"$(obj)/"].flatMap fun dir =>
    (compilableExtensions flavor).map fun e => .pattern c!"$(obj).$(TOOLSET)/" dir e.1 e.2

/-- `target[3:] if target[:3] == "lib"`. -/
def dropLib (target : Str) : Str := if startsWith target c!"lib" then target.drop 3 else target

/-- make.py:1556-1607 `ComputeOutputBasename(spec)`. -/
def ComputeOutputBasename (m : MkSelf) : Str :=
  let s := m.spec
  let (pre, target, ext) : Str × Str × Str :=
    if s.type = c!"static_library" then (c!"lib", dropLib s.targetName, c!".a")
    else if s.type = c!"loadable_module" ∨ s.type = c!"shared_library" then
      (c!"lib", dropLib s.targetName,
        if m.flavor = c!"aix" then c!".a" else if m.flavor = c!"zos" then c!".x" else c!".so")
    else if s.type = c!"none" then ([], s.targetName ++ c!".stamp", [])
    else ([], s.targetName, [])
  let ext := if s.productExtension = [] then ext else c!"." ++ s.productExtension
  s.productPrefix.getD pre ++ s.productName.getD target ++ ext

/-- make.py:1617-1629 `ComputeOutput(spec)`. -/
def ComputeOutput (m : MkSelf) : Str :=
  let path := if m.spec.type = c!"executable" then c!"$(builddir)"
    else pathJoin (c!"$(obj)." ++ m.spec.toolset) m.path
  pathJoin (m.spec.productDir.getD path) (ComputeOutputBasename m)

/-- make.py:880 -/
def installableTypes : List Str := [c!"executable", c!"loadable_module", c!"shared_library"]

/-- make.py:881 is the target installed? -/
def installed (s : MkSpec) : Bool := s.standalone || s.type ∈ installableTypes

/-- make.py:2346-2361 `_InstallableTargetInstallPath()`. -/
def InstallPath (m : MkSelf) : Str :=
  if m.flavor = c!"zos" ∧ m.spec.type = c!"shared_library" then
    c!"$(builddir)/lib." ++ m.spec.toolset ++ c!"/" ++ m.aliasName
  else c!"$(builddir)/" ++ m.aliasName

/-- The tables of outputs of the targets written so far. -/
structure MkOutputs where
  outputs : List (Str × Str)
  linkDeps : List (Str × Str)

/-- `[target_outputs[dep] for dep in deps if target_outputs[dep]]`; `none`: `KeyError`. -/
def depOutputs (t : MkOutputs) : List Str → Option (List Str)
  | [] => some []
  | d :: rest =>
    match aget t.outputs d, depOutputs t rest with
    | some o, some l => some (if o = [] then l else o :: l)
    | _, _ => none

/-- make.py:1642-1666 `ComputeDeps(spec)`. -/
def ComputeDeps (t : MkOutputs) (s : MkSpec) : Option (List Str × List Str) :=
  match depOutputs t s.dependencies with
  | none => none
  | some deps =>
    let link := s.dependencies.filterMap (aget t.linkDeps)
    some (uniquer id (deps ++ link), uniquer id link)

/-- make.py:1668-1670 `re.sub(r"\.x$", ".so", sidedeck)` (for names without line ends). -/
def SharedObjectFromSidedeck (s : Str) : Str :=
  if endsWith s c!".x" then s.take (s.length - 2) ++ c!".so" else s

/-- make.py:1672-1674 `re.sub(r"\.\d+\.x$", ".x", sidedeck)` (for ASCII digits). -/
def UnversionedSidedeck (s : Str) : Str :=
  if endsWith s c!".x" then
    let base := s.take (s.length - 2)
    match rsplit1 '.' base with
    | some (a, b) => if b ≠ [] ∧ b.all Char.isDigit then a ++ c!".x" else s
    | none => s
  else s

/-- make.py:1736 -/
def hasShared (deps : List Str) : Bool :=
  deps.any fun d => endsWith d c!".so" || hasSub c!".so." d

/-- make.py:1734-1742 the flags for the linker. -/
def ldflagsOf (deps : List Str) (c : MkConfig) : List Str :=
  c.ldflags ++
    (if hasShared deps then [c!"-Wl,-rpath=\\$$ORIGIN/", c!"-Wl,-rpath-link=\\$(builddir)/"]
     else []) ++ c.libraryDirs.map (c!"-L" ++ ·)

/-- make.py:1707-1760 the variables of the final target. -/
def targetVars (m : MkSelf) (deps : List Str) : List MkLine :=
  if m.spec.type = c!"none" then []
  else m.spec.configs.map (fun c =>
      .list (c!"LDFLAGS_" ++ c.name) ((ldflagsOf deps c).map QuoteIfNecessary)) ++
    [.list c!"LIBS" ((uniquer id m.spec.libraries).map QuoteIfNecessary),
     .setFor (QuoteSpaces m.output) c!"GYP_LDFLAGS" c!"$(LDFLAGS_$(BUILDTYPE))",
     .setFor (QuoteSpaces m.output) c!"LIBS" c!"$(LIBS)"]

/-- make.py:1851-1857, 1914-1920 the inputs of the linker. -/
def ldInputs (m : MkSelf) (linkDeps : List Str) : MkLine :=
  .setFor (QuoteSpaces m.output) c!"LD_INPUTS"
    (joinWith [' '] (linkDeps.map fun d => QuoteSpaces d))

/-- make.py:1850-1966 the rule for the final target.  (The line make.py:1930-1938 for z/OS is
written here as a rule without a recipe, with an empty line after it.) -/
def finalRule (m : MkSelf) (deps linkDeps : List Str) : Option (List MkLine) :=
  let host := m.spec.toolset = c!"host" ∧ m.flavor = c!"android"
  if m.spec.type = c!"executable" then
    match WriteDoCmd m [m.output] linkDeps (if host then c!"link_host" else c!"link") with
    | none => none
    | some l => some (ldInputs m linkDeps :: l)
  else if m.spec.type = c!"static_library" then
    if linkDeps.any (' ' ∈ ·) then none
    else
      let thin := m.flavor ∉ [c!"mac", c!"openbsd", c!"netbsd", c!"win"] ∧
        m.spec.standalone = false
      if m.flavor = c!"linux" ∨ m.flavor = c!"android" then
        makeRule { outputs := [m.output], inputs := linkDeps, digest := m.sha1 m.spec.targetName
                   actions := some [if thin then c!"$(call create_thin_archive,$@,$^)"
                     else c!"$(call create_archive,$@,$^)"] }
      else WriteDoCmd m [m.output] linkDeps (if thin then c!"alink_thin" else c!"alink")
  else if m.spec.type = c!"shared_library" then
    match WriteDoCmd m [m.output] linkDeps c!"solink" with
    | none => none
    | some l =>
      some (ldInputs m linkDeps :: l ++
        (if m.flavor = c!"zos" then
          [.rule { outputs := [SharedObjectFromSidedeck m.output], inputs := [m.output] }]
         else []))
  else if m.spec.type = c!"loadable_module" then
    if linkDeps.any (' ' ∈ ·) then none
    else WriteDoCmd m [m.output] linkDeps
      (if host then c!"solink_module_host" else c!"solink_module")
  else if m.spec.type = c!"none" then WriteDoCmd m [m.output] deps c!"touch"
  else some []

/-- A phony rule. -/
def phonyRule (m : MkSelf) (output : Str) (inputs : List Str) (comment : Str) :
    Option (List MkLine) :=
  makeRule { outputs := [output], inputs, comment := some comment, phony := true
             digest := m.sha1 m.spec.targetName }

/-- make.py:1968-1982 the alias of a target that is not installed. -/
def aliasRules (m : MkSelf) : Option (List MkLine) :=
  if (m.output ≠ [] ∧ m.output ≠ m.spec.targetName) ∧ m.spec.type ∉ installableTypes then
    match phonyRule m m.spec.targetName [m.output] c!"Add target alias",
      phonyRule m c!"all" [m.spec.targetName] c!"Add target alias to \"all\" target." with
    | some a, some b => some (if m.partOfAll then a ++ b else a)
    | _, _ => none
  else some []

/-- make.py:1989-1994 -/
def fileDesc (m : MkSelf) : Str :=
  if m.spec.type = c!"shared_library" then c!"shared library"
  else if m.spec.type = c!"static_library" then c!"static library"
  else c!"executable"

/-- Several optional groups of statements. -/
def groups : List (Option (List MkLine)) → Option (List MkLine)
  | [] => some []
  | none :: _ => none
  | some a :: rest =>
    match groups rest with
    | some b => some (a ++ b)
    | none => none

/-- make.py:1988-2068 the rules for an installed target. -/
def installRules (m : MkSelf) : Option (List MkLine) :=
  if installed m.spec then
    let path := InstallPath m
    let zosLib := m.flavor = c!"zos" ∧ m.spec.type = c!"shared_library"
    let copyTo := c!"Copy this to the " ++ fileDesc m ++ c!" output path."
    let deps :=
      (if m.flavor ≠ c!"zos" then [m.output] else []) ++
      (if path ≠ m.output ∧ m.flavor ≠ c!"zos" then [path] else []) ++
      (if zosLib then [SharedObjectFromSidedeck path, UnversionedSidedeck path] else [])
    groups [
      phonyRule m m.spec.targetName [path] c!"Add target alias",
      if path ≠ m.output then WriteDoCmd m [path] [m.output] c!"copy" (some copyTo) else some [],
      if zosLib then
        groups [
          WriteDoCmd m [SharedObjectFromSidedeck path] [SharedObjectFromSidedeck m.output]
            c!"copy" (some copyTo),
          WriteDoCmd m [UnversionedSidedeck path] [path] c!"symlink"
            (some (c!"Symlnk this to the " ++ fileDesc m ++ c!" output path."))]
      else some [],
      if m.aliasName ≠ m.output ∧ m.aliasName ≠ m.spec.targetName then
        phonyRule m m.aliasName deps (c!"Short alias for building this " ++ fileDesc m ++ c!".")
      else some [],
      if zosLib then
        phonyRule m c!"all" [UnversionedSidedeck path, SharedObjectFromSidedeck path]
          (c!"Add " ++ fileDesc m ++ c!" to \"all\" target.")
      else if m.partOfAll then
        phonyRule m c!"all" [path] (c!"Add " ++ fileDesc m ++ c!" to \"all\" target.")
      else some []]
  else some []

/-- make.py:1684-2068 `WriteTarget`. -/
def WriteTarget (m : MkSelf) (deps linkDeps extraOutputs : List Str) : Option (List MkLine) :=
  groups [
    some [.text c!"### Rules for final target."],
    if extraOutputs = [] then some []
    else groups [
      makeRule { outputs := [m.output], inputs := extraOutputs, orderOnly := true
                 comment := some c!"Build our special outputs first." },
      makeRule { outputs := extraOutputs, inputs := deps, orderOnly := true
                 comment := some c!"Preserve order dependency of special output on deps." }],
    some (targetVars m deps),
    finalRule m deps linkDeps,
    aliasRules m,
    installRules m]

/-- make.py:1043-1044, 1177-1178 the outputs of actions and rules that are sources. -/
def extraSources (s : MkSpec) : List Str :=
  (s.actions.filter (·.asSources)).flatMap (·.outputs) ++
    (s.rules.filter (·.asSources)).flatMap fun r =>
      r.sources.flatMap fun src => (ruleOutputs r src).getD []

/-- make.py:1128-1130, 1270-1272, 1316 the variables with the outputs of actions, rules and copies. -/
def extraOutputs (m : MkSelf) : List Str :=
  (m.spec.actions.map fun a => c!"$(" ++ actionOutputs m a ++ c!")") ++
    (m.spec.rules.map fun r => c!"$(" ++ ruleOutputsVar m r ++ c!")") ++
    (if m.spec.copies = [] then [] else [c!"$(" ++ copiesVar m ++ c!")"])

/-- The target with its output and its alias, make.py:875-886. -/
def withOutput (m : MkSelf) : MkSelf :=
  let m := { m with output := ComputeOutput m }
  { m with aliasName := if installed m.spec then basename m.output else m.output }

/-- make.py:829-973 `Write`: the statements of the makefile of a target.  (`actions`, `rules`
and `copies` count as absent when they are empty, which changes comments only.) -/
def writeMakefile (m0 : MkSelf) (t : MkOutputs) : Option (List MkLine × MkOutputs) :=
  let m := withOutput m0
  let s := m.spec
  match ComputeDeps t s with
  | none => none
  | some (deps, linkDeps) =>
    let sources := s.sources ++ extraSources s
    match groups [
      some [.set c!"TOOLSET" s.toolset, .set c!"TARGET" s.targetName],
      if s.actions = [] then some [] else WriteActions m s.actions,
      if s.rules = [] then some [] else WriteRules m s.rules,
      if s.copies = [] then some [] else WriteCopies m s.copies,
      if sources = [] then some []
      else groups [WriteSources m deps sources (extraOutputs m),
        some (targetSuffixRules m sources)],
      WriteTarget m deps ((if sources = [] then [] else extraLinkDeps m sources) ++ linkDeps)
        (extraOutputs m)] with
    | none => none
    | some lines =>
      some (lines,
        { outputs := aset t.outputs m.qualified (if installed s then InstallPath m else m.output)
          linkDeps := if s.type = c!"static_library" ∨ s.type = c!"shared_library" then
              aset t.linkDeps m.qualified m.output
            else t.linkDeps })

end Gyp
