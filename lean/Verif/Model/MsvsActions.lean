import Verif.Model.MsvsSources
import Verif.Model.MsvsEscape
import Verif.Model.Build
import Verif.Model.Splitext
import Verif.Model.Path
/-
The actions and copies of a target in a Visual Studio project: gyp/generator/msvs.py:362-490,
1706-1731, 1755-1800 and 3885-4010.

Modelled for MSBuild projects.  `os.path` is `ntpath`, as in Model/MsvsSources.lean.  Keys with
numbers (`msvs_cygwin_shell`, `msvs_quote_cmd`) reach the model as truth values.
-/
namespace Gyp

/-- An action of a target.  `inputs` and `outputs` are empty when missing, `cygwin` is
`msvs_cygwin_shell` of the action or of the target (msvs.py:443-451), `quote` is
`msvs_quote_cmd`. -/
structure WinActionSpec where
  name : Str
  message : Option Str := none
  inputs : List Str := []
  outputs : List Str := []
  action : List Str
  cygwin : Bool := true
  quote : Bool := true

/-- A copy of a target. -/
structure WinCopySpec where
  destination : Str
  files : List Str

/-- msvs.py:472-477: what is kept of an action or a copy. -/
structure WinStep where
  inputs : List Str
  outputs : List Str
  description : Str
  command : Str
deriving DecidableEq

/-- msvs.py:366-373. -/
def inputDirPreamble (cmd : List Str) : Str :=
  if cmd.any (hasSub c!"$(InputDir)") then
    c!"set INPUTDIR=$(InputDir)\nif NOT DEFINED INPUTDIR set INPUTDIR=.\\\nset INPUTDIR=%INPUTDIR:~0,-1%\n"
  else []

/-- msvs.py:379-395: one word of the command for the shell of cygwin. -/
def cygwinWord (hasInput : Bool) (i : Str) : Str :=
  let i := replaceStr c!"$(IntDir)" c!"`cygpath -m \"${INTDIR}\"`" i
  let i := replaceStr c!"$(OutDir)" c!"`cygpath -m \"${OUTDIR}\"`" i
  let i := replaceStr c!"$(InputDir)" c!"`cygpath -m \"${INPUTDIR}\"`" i
  let i := if hasInput then replaceStr c!"$(InputPath)" c!"`cygpath -m \"${INPUTPATH}\"`" i else i
  c!"\\\"" ++ replaceChar '"' c!"\\\\\\\"" i ++ c!"\\\""

/-- msvs.py:375-413: the command run by the shell of cygwin.  `cygwinDir` is the first of
`msvs_cygwin_dirs`. -/
def cygwinCommand (w : WinPaths) (cygwinDir : Str) (cmd : List Str) (hasInput setup : Bool) : Str :=
  let direct := joinWith c!" " (cmd.map (cygwinWord hasInput))
  (if setup then c!"call \"$(ProjectDir)" ++ fixPath w cygwinDir ++ c!"\\setup_env.bat\" && " else [])
    ++ c!"set CYGWIN=nontsec&& "
    ++ (if hasSub c!"NUMBER_OF_PROCESSORS" direct then
          c!"set /a NUMBER_OF_PROCESSORS_PLUS_1=%NUMBER_OF_PROCESSORS%+1&& " else [])
    ++ (if hasSub c!"INTDIR" direct then c!"set INTDIR=$(IntDir)&& " else [])
    ++ (if hasSub c!"OUTDIR" direct then c!"set OUTDIR=$(OutDir)&& " else [])
    ++ (if hasInput && hasSub c!"INPUTPATH" direct then c!"set INPUTPATH=$(InputPath) && " else [])
    ++ c!"bash -c \"" ++ direct ++ c!"\""

/-- msvs.py:416: the program. -/
def winProgram (program : Str) : Str :=
  if program = c!"cat" then c!"type" else replaceChar '/' c!"\\" program

/-- msvs.py:429-434: an argument (an empty one counts as a switch). -/
def winArgument (w : WinPaths) (i : Str) : Str :=
  let i :=
    if i.head? = none ∨ i.head? = some '/' ∨ i.head? = some '-' ∨ '=' ∈ i then i
    else fixPathSlash w i
  FixVCMacroSlashes (replaceStr c!"$(InputDir)" c!"%INPUTDIR%" i)

/-- msvs.py:439-440. -/
def winQuoted (quote : Bool) (i : Str) : Str := if quote then c!"\"" ++ i ++ c!"\"" else i

/-- msvs.py:414-442: the command run by `cmd`. -/
def directCommand (w : WinPaths) (quote : Bool) (program : Str) (arguments : List Str) : Str :=
  joinWith c!" " (c!"call" :: winQuoted quote (winProgram program) ::
    arguments.map fun i => winQuoted quote (winArgument w i))

/-- msvs.py:362-442 `_BuildCommandLineForRuleRaw`; `none` is `IndexError` (an action with no
words). -/
def buildCommandLine (w : WinPaths) (cygwinDir : Str) (cmd : List Str)
    (cygwin hasInput quote setup : Bool) : Option Str :=
  if cygwin then some (inputDirPreamble cmd ++ cygwinCommand w cygwinDir cmd hasInput setup)
  else
    match cmd with
    | [] => none
    | program :: arguments => some (inputDirPreamble cmd ++ directCommand w quote program arguments)

/-- The dictionary `actions_to_add`. -/
abbrev WinSteps := List (Str × List WinStep)

/-- msvs.py:456-488 `_AddActionStep`; with no inputs the assertion fails (`none`). -/
def addActionStep (d : WinSteps) (s : WinStep) : Option WinSteps :=
  match s.inputs with
  | [] => none
  | chosen :: _ => some (aset d chosen ((aget d chosen).getD [] ++ [s]))

/-- msvs.py:1706-1731 `_AddActions`, from some action on; `setup` is `have_setup_env`. -/
def addActions (w : WinPaths) (cygwinDir gypFile : Str) :
    List Str → WinSteps → List WinActionSpec → Option WinSteps
  | _, d, [] => some d
  | setup, d, a :: as => do
    let inputs := if a.inputs = [] then [gypFile] else a.inputs
    let attached := inputs.headD []
    let cmd ← buildCommandLine w cygwinDir a.action a.cygwin false a.quote (attached ∉ setup)
    let d ← addActionStep d ⟨inputs, a.outputs, a.message.getD a.name, cmd⟩
    addActions w cygwinDir gypFile (attached :: setup) d as

/-- `ntpath.basename`: what follows the last separator.  (A path that is a drive and a name
with no separator between them is not modelled.) -/
def winBasename (p : Str) : Str := (p.reverse.takeWhile fun c => c ≠ '/' && c ≠ '\\').reverse

/-- msvs.py:1769-1799: one file of a copy. -/
def copyStep (w : WinPaths) (destination src : Str) : WinStep :=
  let dst := w.join destination (winBasename src)
  if src.getLast? = some '/' then
    let bare := src.dropLast
    let baseDir := dirname bare
    let outerDir := basename bare
    let fixedDst := fixPath w dst
    let fullDst := c!"\"" ++ fixedDst ++ c!"\\" ++ outerDir ++ c!"\\\""
    ⟨[src], [c!"dummy_copies", dst], c!"Copying " ++ src ++ c!" to " ++ fixedDst,
     c!"mkdir " ++ fullDst ++ c!" 2>nul & cd \"" ++ fixPath w baseDir ++
      c!"\" && xcopy /e /f /y \"" ++ outerDir ++ c!"\" " ++ fullDst⟩
  else
    let fixDst := fixPath w destination
    ⟨[src], [dst], c!"Copying " ++ src ++ c!" to " ++ fixDst,
     c!"mkdir \"" ++ fixDst ++ c!"\" 2>nul & set ERRORLEVEL=0 & copy /Y \"" ++ fixPath w src ++
      c!"\" \"" ++ fixPath w dst ++ c!"\""⟩

/-- msvs.py:1766-1800 `_GetCopies`. -/
def getCopies (w : WinPaths) (copies : List WinCopySpec) : List WinStep :=
  copies.flatMap fun c => c.files.map (copyStep w c.destination)

/-- msvs.py:1755-1763 `_AddCopies`. -/
def addCopies (w : WinPaths) (d : WinSteps) (copies : List WinCopySpec) : Option WinSteps :=
  (getCopies w copies).foldlM addActionStep d

/-- A `CustomBuild` item of a project (msvs.py:3996-4010). -/
structure CustomBuild where
  file : Str
  command : Str
  message : Str
  outputs : Str
  additionalInputs : Option Str
deriving DecidableEq

/-- msvs.py:3909-3912 `fixup_host_exe`. -/
def fixupHostExe (i : Str) : Str :=
  if hasSub c!"$(OutDir)" i then replaceStr c!".exe" c!"_host.exe" i else i

/-- msvs.py:3973-4010 `_AddMSBuildAction`: the item. -/
def customBuild (w : WinPaths) (primary : Str) (inputs outputs : List Str) (cmd description : Str) :
    CustomBuild :=
  let additional := joinWith c!";" ((inputs.map (fixPath w)).filter (· ≠ fixPath w primary))
  ⟨fixPath w primary, ConvertVCMacrosToMSBuild cmd, description,
   joinWith c!";" (outputs.map (fixPath w)), if additional = [] then none else some additional⟩

/-- msvs.py:3923-3931: the command of one action in an item.  Nothing sets `msbuild_use_call`. -/
def stepCommand (hosts : Bool) (s : WinStep) : Str :=
  c!"call " ++ if hosts then replaceStr c!".exe" c!"_host.exe" s.command else s.command

/-- msvs.py:3900-3960: the item of one key; `hosts` is `generator_supports_multiple_toolsets`. -/
def actionItem (w : WinPaths) (hosts : Bool) (e : Str × List WinStep) : CustomBuild :=
  let primary := if hosts then replaceStr c!".exe" c!"_host.exe" e.1 else e.1
  let inputs := e.2.foldl (fun acc s =>
    winUpdate acc (if hosts then s.inputs.map fixupHostExe else s.inputs)) []
  let outputs := e.2.foldl (fun acc s => winUpdate acc s.outputs) []
  let command := joinWith c!"\r\n" (e.2.map fun s =>
    stepCommand hosts s ++ c!"\r\nif %errorlevel% neq 0 exit /b %errorlevel%")
  customBuild w primary inputs outputs command
    (joinWith c!", and also " (e.2.map (·.description)))

/-- msvs.py:3887-3961 `_GenerateActionsForMSBuild`: the items, and the sources they handle. -/
def generateActions (w : WinPaths) (hosts : Bool) (d : WinSteps) : List CustomBuild × List Str :=
  let items := d.map (actionItem w hosts)
  (items, winUpdate [] (items.map (·.file)))

/-- msvs.py:3721-3733: the items for the actions and copies of a target.  `rules` are the steps
that external rules added before. -/
def targetItems (w : WinPaths) (hosts : Bool) (cygwinDir gypFile : Str) (rules : List WinStep)
    (actions : List WinActionSpec) (copies : List WinCopySpec) : Option (List CustomBuild × List Str) := do
  let d ← rules.foldlM addActionStep []
  let d ← addActions w cygwinDir gypFile [] d actions
  let d ← addCopies w d copies
  pure (generateActions w hosts d)

end Gyp
