import Verif.Model.MsvsTable
import Verif.Spec.Options
/-
What the settings of Visual Studio mean to MSBuild (C79).
-/
namespace Gyp.Spec

/-! ### Macros -/

/-- The macros of Visual Studio 2008 that have another name in MSBuild. -/
def renamedMacros : List (Str × Str) :=
  [(c!"$(ConfigurationName)", c!"$(Configuration)"),
   (c!"$(PlatformName)", c!"$(Platform)"),
   (c!"$(ParentName)", c!"$(ProjectFileName)"),
   (c!"$(InputPath)", c!"%(Identity)"),
   (c!"$(InputDir)", c!"%(RelativeDir)"),
   (c!"$(InputName)", c!"%(Filename)"),
   (c!"$(SafeInputName)", c!"%(Filename)"),
   (c!"$(InputExt)", c!"%(Extension)"),
   (c!"$(InputFileName)", c!"%(Filename)%(Extension)")]

/-- The macros whose value ends in a backslash. -/
def slashMacros : List Str := [c!"$(IntDir)", c!"$(OutDir)"]

/-- `out` is the text `s` for MSBuild: macros that were renamed have their new names,
slashes after macros that end in one are dropped, and the rest is the same. -/
inductive MacrosConverted : Str → Str → Prop where
  | nil : MacrosConverted [] []
  | renamed {old new s out : Str} : (old, new) ∈ renamedMacros → MacrosConverted s out →
      MacrosConverted (old ++ s) (new ++ out)
  | slashes {m sl s out : Str} : m ∈ slashMacros → (∀ c ∈ sl, c = '\\' ∨ c = '/') →
      (∀ c, s.head? = some c → c ≠ '\\' ∧ c ≠ '/') → MacrosConverted s out →
      MacrosConverted (m ++ sl ++ s) (m ++ out)
  | char {c : Char} {s out : Str} : (∀ m ∈ renamedMacros, ¬ m.1 <+: c :: s) →
      (∀ m ∈ slashMacros, ¬ m <+: c :: s) → MacrosConverted s out →
      MacrosConverted (c :: s) (c :: out)

/-! ### Values -/

/-- The value `w` for MSBuild means what the value `v` meant. -/
def Converted : MsType → MsVal → MsVal → Prop
  | .string, .str s, w => ∃ t, w = .str t ∧ MacrosConverted s t
  | .string, .list l, w => w = .list l ∧ c!"$" ∉ l
  | .stringList, .str s, w => ∃ t, w = .str t ∧ MacrosConverted s t
  | .stringList, .list l, w => ∃ ts, w = .list ts ∧ List.Forall₂ MacrosConverted l ts
  | .boolean, v, w => w = v ∧ (v = .str c!"true" ∨ v = .str c!"false")
  | .integer hex, v, w => ∃ s i, v = .str s ∧ IntText s i ∧
      w = .str (if hex then hexText i else intStr i)
  | .enumeration labels _, v, w => ∃ s i label, v = .str s ∧ IntText s (Int.ofNat i) ∧
      labels[i]? = some (some label) ∧ w = .str label

/-- Values that no type expects: they end the run. -/
def Unusable : MsType → MsVal → Prop
  | .string, .list l => c!"$" ∈ l
  | .boolean, .list _ => True
  | .integer _, .list _ => True
  | .enumeration _ _, .list _ => True
  | _, _ => False

/-! ### Settings -/

/-- The settings that were given: tool, name, value. -/
def given (l : MsSettings) : List (Str × Str × MsVal) :=
  l.flatMap fun te => te.2.map fun e => (te.1, e.1, e.2)

/-- Tools and names are keys of dictionaries: no key is there twice. -/
def NoRepeats (l : MsSettings) : Prop :=
  (akeys l).Nodup ∧ ∀ te ∈ l, (akeys te.2).Nodup

/-- `Becomes d v tool name w`: the setting declared by `d` with value `v` is the
setting `name` of `tool` with value `w` in MSBuild. -/
inductive Becomes : MsDecl → MsVal → Str → Str → MsVal → Prop where
  | same {t n ty v w} : Converted ty v w → Becomes (.same t n ty) v t.msbuild n w
  | renamed {t n new ty v w} : Converted ty v w → Becomes (.renamed t n new ty) v t.msbuild new w
  | moved {t n tool ty v w} : Converted ty v w → Becomes (.moved t n tool ty) v tool n w
  | movedAndRenamed {t n tool new ty v w} : Converted ty v w →
      Becomes (.movedAndRenamed t n tool new ty) v tool new w
  | msbuildOnly {t n ty v} : Becomes (.msbuildOnly t n ty) v t.msbuild n v
  | toOption {t n flag} :
      Becomes (.toOption t n flag) (.str c!"true") t.msbuild c!"AdditionalOptions" (.str flag)
  | toFile {t n v} : v = c!"0" ∨ v = c!"1" ∨ v = c!"2" →
      Becomes (.preprocessed t n) (.str v) t.msbuild c!"PreprocessToFile"
        (.str (if v = c!"0" then c!"false" else c!"true"))
  | lineNumbers {t n v} : v = c!"0" ∨ v = c!"1" ∨ v = c!"2" →
      Becomes (.preprocessed t n) (.str v) t.msbuild c!"PreprocessSuppressLineNumbers"
        (.str (if v = c!"2" then c!"true" else c!"false"))

/-- The type of the value that is converted, if it is. -/
def convertedType : MsDecl → Option MsType
  | .same _ _ ty => some ty
  | .renamed _ _ _ ty => some ty
  | .moved _ _ _ ty => some ty
  | .movedAndRenamed _ _ _ _ ty => some ty
  | _ => none

/-- A value the declaration does not provide for: there is a warning. -/
def Invalid (d : MsDecl) (v : MsVal) : Prop :=
  match d with
  | .preprocessed _ _ => v ≠ .str c!"0" ∧ v ≠ .str c!"1" ∧ v ≠ .str c!"2"
  | d => ∃ ty, convertedType d = some ty ∧ (¬ ∃ w, Converted ty v w) ∧ ¬ Unusable ty v

/-- Two pairs of settings become the same setting of MSBuild. -/
def rivals : List ((Str × Str) × (Str × Str)) :=
  [((c!"VCCLCompilerTool", c!"AdditionalOptions"),
      (c!"VCCLCompilerTool", c!"DefaultCharIsUnsigned")),
   ((c!"VCCLCompilerTool", c!"DefaultCharIsUnsigned"),
      (c!"VCCLCompilerTool", c!"AdditionalOptions")),
   ((c!"VCLinkerTool", c!"LinkLibraryDependencies"),
      (c!"VCLibrarianTool", c!"LinkLibraryDependencies")),
   ((c!"VCLibrarianTool", c!"LinkLibraryDependencies"),
      (c!"VCLinkerTool", c!"LinkLibraryDependencies"))]

/-- A value MSBuild understands. -/
def MsbuildValue : MsType → MsVal → Prop
  | .string, v => ∃ s, v = .str s
  | .stringList, _ => True
  | .boolean, v => v = .str c!"true" ∨ v = .str c!"false"
  | .integer hex, v => hex = false ∧ ∃ s i, v = .str s ∧ IntText s i
  | .enumeration labels new, v => ∃ s, v = .str s ∧ (some s ∈ labels ∨ s ∈ new)

/-- The values that are not converted to something MSBuild refuses: lists for texts, and
negative numbers in base 16. -/
def Fits : MsType → MsVal → Prop
  | .string, v => ∃ s, v = .str s
  | .integer true, v => ∀ s i, v = .str s → IntText s i → 0 ≤ i
  | _, _ => True

/-- What is copied is a value MSBuild understands, and what is converted fits. -/
def FitsDecl (d : MsDecl) (v : MsVal) : Prop :=
  match d with
  | .msbuildOnly _ _ ty => MsbuildValue ty v
  | d => ∀ ty, convertedType d = some ty → Fits ty v

/-- The settings of MSBuild that have two sources. -/
def sharedPlaces : List (Str × Str) :=
  [(c!"ClCompile", c!"AdditionalOptions"), (c!"ProjectReference", c!"LinkLibraryDependencies")]

/-- The setting was given. -/
def IsGiven (l : MsSettings) (k : Str × Str) : Prop := ∃ v, (k.1, k.2, v) ∈ given l

/-- No two of the settings that were given become the same setting of MSBuild. -/
def NoRivals (l : MsSettings) : Prop := ∀ r ∈ rivals, ¬ (IsGiven l r.1 ∧ IsGiven l r.2)

/-! ### Flags

What the numbers of Visual Studio 2008 and the labels of MSBuild mean, as options of
the compiler and the linker (Microsoft's documentation). -/

/-- Tool, setting, number, option. -/
def numberFlags : List (Str × Str × Str × Str) :=
  let cl := c!"VCCLCompilerTool"
  let ln := c!"VCLinkerTool"
  [(cl, c!"Optimization", c!"0", c!"/Od"), (cl, c!"Optimization", c!"1", c!"/O1"),
   (cl, c!"Optimization", c!"2", c!"/O2"), (cl, c!"Optimization", c!"3", c!"/Ox"),
   (cl, c!"RuntimeLibrary", c!"0", c!"/MT"), (cl, c!"RuntimeLibrary", c!"1", c!"/MTd"),
   (cl, c!"RuntimeLibrary", c!"2", c!"/MD"), (cl, c!"RuntimeLibrary", c!"3", c!"/MDd"),
   (cl, c!"ExceptionHandling", c!"0", c!""), (cl, c!"ExceptionHandling", c!"1", c!"/EHsc"),
   (cl, c!"ExceptionHandling", c!"2", c!"/EHa"),
   (cl, c!"WarningLevel", c!"0", c!"/W0"), (cl, c!"WarningLevel", c!"1", c!"/W1"),
   (cl, c!"WarningLevel", c!"2", c!"/W2"), (cl, c!"WarningLevel", c!"3", c!"/W3"),
   (cl, c!"WarningLevel", c!"4", c!"/W4"),
   (cl, c!"DebugInformationFormat", c!"0", c!""),
   (cl, c!"DebugInformationFormat", c!"1", c!"/Z7"),
   (cl, c!"DebugInformationFormat", c!"3", c!"/Zi"),
   (cl, c!"DebugInformationFormat", c!"4", c!"/ZI"),
   (cl, c!"BasicRuntimeChecks", c!"0", c!""), (cl, c!"BasicRuntimeChecks", c!"1", c!"/RTCs"),
   (cl, c!"BasicRuntimeChecks", c!"2", c!"/RTCu"), (cl, c!"BasicRuntimeChecks", c!"3", c!"/RTC1"),
   (cl, c!"CallingConvention", c!"0", c!"/Gd"), (cl, c!"CallingConvention", c!"1", c!"/Gr"),
   (cl, c!"CallingConvention", c!"2", c!"/Gz"), (cl, c!"CallingConvention", c!"3", c!"/Gv"),
   (cl, c!"CompileAs", c!"0", c!""), (cl, c!"CompileAs", c!"1", c!"/TC"),
   (cl, c!"CompileAs", c!"2", c!"/TP"),
   (cl, c!"EnableEnhancedInstructionSet", c!"0", c!""),
   (cl, c!"EnableEnhancedInstructionSet", c!"1", c!"/arch:SSE"),
   (cl, c!"EnableEnhancedInstructionSet", c!"2", c!"/arch:SSE2"),
   (cl, c!"EnableEnhancedInstructionSet", c!"3", c!"/arch:AVX"),
   (cl, c!"EnableEnhancedInstructionSet", c!"4", c!"/arch:IA32"),
   (cl, c!"EnableEnhancedInstructionSet", c!"5", c!"/arch:AVX2"),
   (cl, c!"FavorSizeOrSpeed", c!"0", c!""), (cl, c!"FavorSizeOrSpeed", c!"1", c!"/Ot"),
   (cl, c!"FavorSizeOrSpeed", c!"2", c!"/Os"),
   (cl, c!"FloatingPointModel", c!"0", c!"/fp:precise"),
   (cl, c!"FloatingPointModel", c!"1", c!"/fp:strict"),
   (cl, c!"FloatingPointModel", c!"2", c!"/fp:fast"),
   (cl, c!"InlineFunctionExpansion", c!"0", c!""),
   (cl, c!"InlineFunctionExpansion", c!"1", c!"/Ob1"),
   (cl, c!"InlineFunctionExpansion", c!"2", c!"/Ob2"),
   (cl, c!"StructMemberAlignment", c!"0", c!""), (cl, c!"StructMemberAlignment", c!"1", c!"/Zp1"),
   (cl, c!"StructMemberAlignment", c!"2", c!"/Zp2"),
   (cl, c!"StructMemberAlignment", c!"3", c!"/Zp4"),
   (cl, c!"StructMemberAlignment", c!"4", c!"/Zp8"),
   (cl, c!"StructMemberAlignment", c!"5", c!"/Zp16"),
   (cl, c!"UsePrecompiledHeader", c!"0", c!""), (cl, c!"UsePrecompiledHeader", c!"1", c!"/Yc"),
   (cl, c!"UsePrecompiledHeader", c!"2", c!"/Yu"),
   (cl, c!"AssemblerOutput", c!"0", c!""), (cl, c!"AssemblerOutput", c!"1", c!"/FA"),
   (cl, c!"AssemblerOutput", c!"2", c!"/FAcs"), (cl, c!"AssemblerOutput", c!"3", c!"/FAc"),
   (cl, c!"AssemblerOutput", c!"4", c!"/FAs"),
   (ln, c!"SubSystem", c!"0", c!""), (ln, c!"SubSystem", c!"1", c!"/SUBSYSTEM:CONSOLE"),
   (ln, c!"SubSystem", c!"2", c!"/SUBSYSTEM:WINDOWS"),
   (ln, c!"SubSystem", c!"3", c!"/SUBSYSTEM:NATIVE"),
   (ln, c!"SubSystem", c!"4", c!"/SUBSYSTEM:EFI_APPLICATION"),
   (ln, c!"SubSystem", c!"5", c!"/SUBSYSTEM:EFI_BOOT_SERVICE_DRIVER"),
   (ln, c!"SubSystem", c!"6", c!"/SUBSYSTEM:EFI_ROM"),
   (ln, c!"SubSystem", c!"7", c!"/SUBSYSTEM:EFI_RUNTIME_DRIVER"),
   (ln, c!"SubSystem", c!"8", c!"/SUBSYSTEM:WINDOWSCE"),
   (ln, c!"TargetMachine", c!"0", c!""), (ln, c!"TargetMachine", c!"1", c!"/MACHINE:X86"),
   (ln, c!"TargetMachine", c!"3", c!"/MACHINE:ARM"), (ln, c!"TargetMachine", c!"4", c!"/MACHINE:EBC"),
   (ln, c!"TargetMachine", c!"5", c!"/MACHINE:IA64"),
   (ln, c!"TargetMachine", c!"17", c!"/MACHINE:X64"),
   (ln, c!"OptimizeReferences", c!"0", c!""), (ln, c!"OptimizeReferences", c!"1", c!"/OPT:NOREF"),
   (ln, c!"OptimizeReferences", c!"2", c!"/OPT:REF"),
   (ln, c!"EnableCOMDATFolding", c!"0", c!""), (ln, c!"EnableCOMDATFolding", c!"1", c!"/OPT:NOICF"),
   (ln, c!"EnableCOMDATFolding", c!"2", c!"/OPT:ICF"),
   (ln, c!"LinkIncremental", c!"0", c!""), (ln, c!"LinkIncremental", c!"1", c!"/INCREMENTAL:NO"),
   (ln, c!"LinkIncremental", c!"2", c!"/INCREMENTAL"),
   (ln, c!"FixedBaseAddress", c!"0", c!""), (ln, c!"FixedBaseAddress", c!"1", c!"/FIXED:NO"),
   (ln, c!"FixedBaseAddress", c!"2", c!"/FIXED"),
   (ln, c!"LargeAddressAware", c!"0", c!""),
   (ln, c!"LargeAddressAware", c!"1", c!"/LARGEADDRESSAWARE:NO"),
   (ln, c!"LargeAddressAware", c!"2", c!"/LARGEADDRESSAWARE"),
   (ln, c!"TerminalServerAware", c!"0", c!""), (ln, c!"TerminalServerAware", c!"1", c!"/TSAWARE:NO"),
   (ln, c!"TerminalServerAware", c!"2", c!"/TSAWARE"),
   (ln, c!"RandomizedBaseAddress", c!"0", c!""),
   (ln, c!"RandomizedBaseAddress", c!"1", c!"/DYNAMICBASE:NO"),
   (ln, c!"RandomizedBaseAddress", c!"2", c!"/DYNAMICBASE"),
   (ln, c!"DataExecutionPrevention", c!"0", c!""),
   (ln, c!"DataExecutionPrevention", c!"1", c!"/NXCOMPAT:NO"),
   (ln, c!"DataExecutionPrevention", c!"2", c!"/NXCOMPAT"),
   (ln, c!"AssemblyDebug", c!"0", c!""), (ln, c!"AssemblyDebug", c!"1", c!"/ASSEMBLYDEBUG"),
   (ln, c!"AssemblyDebug", c!"2", c!"/ASSEMBLYDEBUG:DISABLE"),
   (ln, c!"Driver", c!"0", c!""), (ln, c!"Driver", c!"1", c!"/DRIVER"),
   (ln, c!"Driver", c!"2", c!"/DRIVER:UPONLY"), (ln, c!"Driver", c!"3", c!"/DRIVER:WDM"),
   (ln, c!"LinkTimeCodeGeneration", c!"0", c!""), (ln, c!"LinkTimeCodeGeneration", c!"1", c!"/LTCG"),
   (ln, c!"LinkTimeCodeGeneration", c!"2", c!"/LTCG:PGINSTRUMENT"),
   (ln, c!"LinkTimeCodeGeneration", c!"3", c!"/LTCG:PGOPTIMIZE"),
   (ln, c!"LinkTimeCodeGeneration", c!"4", c!"/LTCG:PGUPDATE"),
   (ln, c!"ShowProgress", c!"0", c!""), (ln, c!"ShowProgress", c!"1", c!"/VERBOSE"),
   (ln, c!"ShowProgress", c!"2", c!"/VERBOSE:LIB"),
   (ln, c!"UACExecutionLevel", c!"0", c!"/level='asInvoker'"),
   (ln, c!"UACExecutionLevel", c!"1", c!"/level='highestAvailable'"),
   (ln, c!"UACExecutionLevel", c!"2", c!"/level='requireAdministrator'")]

/-- Tool of MSBuild, setting, label, option. -/
def labelFlags : List (Str × Str × Str × Str) :=
  let cl := c!"ClCompile"
  let ln := c!"Link"
  [(cl, c!"Optimization", c!"Disabled", c!"/Od"), (cl, c!"Optimization", c!"MinSpace", c!"/O1"),
   (cl, c!"Optimization", c!"MaxSpeed", c!"/O2"), (cl, c!"Optimization", c!"Full", c!"/Ox"),
   (cl, c!"RuntimeLibrary", c!"MultiThreaded", c!"/MT"),
   (cl, c!"RuntimeLibrary", c!"MultiThreadedDebug", c!"/MTd"),
   (cl, c!"RuntimeLibrary", c!"MultiThreadedDLL", c!"/MD"),
   (cl, c!"RuntimeLibrary", c!"MultiThreadedDebugDLL", c!"/MDd"),
   (cl, c!"ExceptionHandling", c!"false", c!""), (cl, c!"ExceptionHandling", c!"Sync", c!"/EHsc"),
   (cl, c!"ExceptionHandling", c!"Async", c!"/EHa"),
   (cl, c!"ExceptionHandling", c!"SyncCThrow", c!"/EHs"),
   (cl, c!"WarningLevel", c!"TurnOffAllWarnings", c!"/W0"),
   (cl, c!"WarningLevel", c!"Level1", c!"/W1"), (cl, c!"WarningLevel", c!"Level2", c!"/W2"),
   (cl, c!"WarningLevel", c!"Level3", c!"/W3"), (cl, c!"WarningLevel", c!"Level4", c!"/W4"),
   (cl, c!"WarningLevel", c!"EnableAllWarnings", c!"/Wall"),
   (cl, c!"DebugInformationFormat", c!"", c!""),
   (cl, c!"DebugInformationFormat", c!"OldStyle", c!"/Z7"),
   (cl, c!"DebugInformationFormat", c!"ProgramDatabase", c!"/Zi"),
   (cl, c!"DebugInformationFormat", c!"EditAndContinue", c!"/ZI"),
   (cl, c!"BasicRuntimeChecks", c!"Default", c!""),
   (cl, c!"BasicRuntimeChecks", c!"StackFrameRuntimeCheck", c!"/RTCs"),
   (cl, c!"BasicRuntimeChecks", c!"UninitializedLocalUsageCheck", c!"/RTCu"),
   (cl, c!"BasicRuntimeChecks", c!"EnableFastChecks", c!"/RTC1"),
   (cl, c!"CallingConvention", c!"Cdecl", c!"/Gd"),
   (cl, c!"CallingConvention", c!"FastCall", c!"/Gr"),
   (cl, c!"CallingConvention", c!"StdCall", c!"/Gz"),
   (cl, c!"CallingConvention", c!"VectorCall", c!"/Gv"),
   (cl, c!"CompileAs", c!"Default", c!""), (cl, c!"CompileAs", c!"CompileAsC", c!"/TC"),
   (cl, c!"CompileAs", c!"CompileAsCpp", c!"/TP"),
   (cl, c!"EnableEnhancedInstructionSet", c!"NotSet", c!""),
   (cl, c!"EnableEnhancedInstructionSet", c!"StreamingSIMDExtensions", c!"/arch:SSE"),
   (cl, c!"EnableEnhancedInstructionSet", c!"StreamingSIMDExtensions2", c!"/arch:SSE2"),
   (cl, c!"EnableEnhancedInstructionSet", c!"AdvancedVectorExtensions", c!"/arch:AVX"),
   (cl, c!"EnableEnhancedInstructionSet", c!"NoExtensions", c!"/arch:IA32"),
   (cl, c!"EnableEnhancedInstructionSet", c!"AdvancedVectorExtensions2", c!"/arch:AVX2"),
   (cl, c!"FavorSizeOrSpeed", c!"Neither", c!""), (cl, c!"FavorSizeOrSpeed", c!"Speed", c!"/Ot"),
   (cl, c!"FavorSizeOrSpeed", c!"Size", c!"/Os"),
   (cl, c!"FloatingPointModel", c!"Precise", c!"/fp:precise"),
   (cl, c!"FloatingPointModel", c!"Strict", c!"/fp:strict"),
   (cl, c!"FloatingPointModel", c!"Fast", c!"/fp:fast"),
   (cl, c!"InlineFunctionExpansion", c!"Default", c!""),
   (cl, c!"InlineFunctionExpansion", c!"Disabled", c!"/Ob0"),
   (cl, c!"InlineFunctionExpansion", c!"OnlyExplicitInline", c!"/Ob1"),
   (cl, c!"InlineFunctionExpansion", c!"AnySuitable", c!"/Ob2"),
   (cl, c!"StructMemberAlignment", c!"Default", c!""),
   (cl, c!"StructMemberAlignment", c!"1Byte", c!"/Zp1"),
   (cl, c!"StructMemberAlignment", c!"2Bytes", c!"/Zp2"),
   (cl, c!"StructMemberAlignment", c!"4Bytes", c!"/Zp4"),
   (cl, c!"StructMemberAlignment", c!"8Bytes", c!"/Zp8"),
   (cl, c!"StructMemberAlignment", c!"16Bytes", c!"/Zp16"),
   (cl, c!"PrecompiledHeader", c!"NotUsing", c!""), (cl, c!"PrecompiledHeader", c!"Create", c!"/Yc"),
   (cl, c!"PrecompiledHeader", c!"Use", c!"/Yu"),
   (cl, c!"AssemblerOutput", c!"NoListing", c!""), (cl, c!"AssemblerOutput", c!"AssemblyCode", c!"/FA"),
   (cl, c!"AssemblerOutput", c!"All", c!"/FAcs"),
   (cl, c!"AssemblerOutput", c!"AssemblyAndMachineCode", c!"/FAc"),
   (cl, c!"AssemblerOutput", c!"AssemblyAndSourceCode", c!"/FAs"),
   (ln, c!"SubSystem", c!"NotSet", c!""), (ln, c!"SubSystem", c!"Console", c!"/SUBSYSTEM:CONSOLE"),
   (ln, c!"SubSystem", c!"Windows", c!"/SUBSYSTEM:WINDOWS"),
   (ln, c!"SubSystem", c!"Native", c!"/SUBSYSTEM:NATIVE"),
   (ln, c!"SubSystem", c!"EFI Application", c!"/SUBSYSTEM:EFI_APPLICATION"),
   (ln, c!"SubSystem", c!"EFI Boot Service Driver", c!"/SUBSYSTEM:EFI_BOOT_SERVICE_DRIVER"),
   (ln, c!"SubSystem", c!"EFI ROM", c!"/SUBSYSTEM:EFI_ROM"),
   (ln, c!"SubSystem", c!"EFI Runtime", c!"/SUBSYSTEM:EFI_RUNTIME_DRIVER"),
   (ln, c!"SubSystem", c!"WindowsCE", c!"/SUBSYSTEM:WINDOWSCE"),
   (ln, c!"SubSystem", c!"POSIX", c!"/SUBSYSTEM:POSIX"),
   (ln, c!"TargetMachine", c!"NotSet", c!""), (ln, c!"TargetMachine", c!"MachineX86", c!"/MACHINE:X86"),
   (ln, c!"TargetMachine", c!"MachineARM", c!"/MACHINE:ARM"),
   (ln, c!"TargetMachine", c!"MachineEBC", c!"/MACHINE:EBC"),
   (ln, c!"TargetMachine", c!"MachineIA64", c!"/MACHINE:IA64"),
   (ln, c!"TargetMachine", c!"MachineX64", c!"/MACHINE:X64"),
   (ln, c!"OptimizeReferences", c!"", c!""), (ln, c!"OptimizeReferences", c!"false", c!"/OPT:NOREF"),
   (ln, c!"OptimizeReferences", c!"true", c!"/OPT:REF"),
   (ln, c!"EnableCOMDATFolding", c!"", c!""), (ln, c!"EnableCOMDATFolding", c!"false", c!"/OPT:NOICF"),
   (ln, c!"EnableCOMDATFolding", c!"true", c!"/OPT:ICF"),
   (c!"", c!"LinkIncremental", c!"", c!""), (c!"", c!"LinkIncremental", c!"false", c!"/INCREMENTAL:NO"),
   (c!"", c!"LinkIncremental", c!"true", c!"/INCREMENTAL"),
   (ln, c!"FixedBaseAddress", c!"", c!""), (ln, c!"FixedBaseAddress", c!"false", c!"/FIXED:NO"),
   (ln, c!"FixedBaseAddress", c!"true", c!"/FIXED"),
   (ln, c!"LargeAddressAware", c!"", c!""),
   (ln, c!"LargeAddressAware", c!"false", c!"/LARGEADDRESSAWARE:NO"),
   (ln, c!"LargeAddressAware", c!"true", c!"/LARGEADDRESSAWARE"),
   (ln, c!"TerminalServerAware", c!"", c!""), (ln, c!"TerminalServerAware", c!"false", c!"/TSAWARE:NO"),
   (ln, c!"TerminalServerAware", c!"true", c!"/TSAWARE"),
   (ln, c!"RandomizedBaseAddress", c!"", c!""),
   (ln, c!"RandomizedBaseAddress", c!"false", c!"/DYNAMICBASE:NO"),
   (ln, c!"RandomizedBaseAddress", c!"true", c!"/DYNAMICBASE"),
   (ln, c!"DataExecutionPrevention", c!"", c!""),
   (ln, c!"DataExecutionPrevention", c!"false", c!"/NXCOMPAT:NO"),
   (ln, c!"DataExecutionPrevention", c!"true", c!"/NXCOMPAT"),
   (ln, c!"AssemblyDebug", c!"", c!""), (ln, c!"AssemblyDebug", c!"true", c!"/ASSEMBLYDEBUG"),
   (ln, c!"AssemblyDebug", c!"false", c!"/ASSEMBLYDEBUG:DISABLE"),
   (ln, c!"Driver", c!"NotSet", c!""), (ln, c!"Driver", c!"Driver", c!"/DRIVER"),
   (ln, c!"Driver", c!"UpOnly", c!"/DRIVER:UPONLY"), (ln, c!"Driver", c!"WDM", c!"/DRIVER:WDM"),
   (ln, c!"LinkTimeCodeGeneration", c!"Default", c!""),
   (ln, c!"LinkTimeCodeGeneration", c!"UseLinkTimeCodeGeneration", c!"/LTCG"),
   (ln, c!"LinkTimeCodeGeneration", c!"PGInstrument", c!"/LTCG:PGINSTRUMENT"),
   (ln, c!"LinkTimeCodeGeneration", c!"PGOptimization", c!"/LTCG:PGOPTIMIZE"),
   (ln, c!"LinkTimeCodeGeneration", c!"PGUpdate", c!"/LTCG:PGUPDATE"),
   (ln, c!"ShowProgress", c!"NotSet", c!""), (ln, c!"ShowProgress", c!"LinkVerbose", c!"/VERBOSE"),
   (ln, c!"ShowProgress", c!"LinkVerboseLib", c!"/VERBOSE:LIB"),
   (ln, c!"UACExecutionLevel", c!"AsInvoker", c!"/level='asInvoker'"),
   (ln, c!"UACExecutionLevel", c!"HighestAvailable", c!"/level='highestAvailable'"),
   (ln, c!"UACExecutionLevel", c!"RequireAdministrator", c!"/level='requireAdministrator'")]

end Gyp.Spec
