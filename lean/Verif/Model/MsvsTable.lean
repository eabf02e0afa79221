import Verif.Model.MsvsSettings
/-
The settings of the Microsoft build tools: every declaration of
gyp/MSVSSettings.py:548-1272, in order.
-/
namespace Gyp

/-- MSVSSettings.py:551 `_compile`. -/
def toolCompile : MsTool := ⟨c!"VCCLCompilerTool", c!"ClCompile"⟩

/-- MSVSSettings.py:552 `_link`. -/
def toolLink : MsTool := ⟨c!"VCLinkerTool", c!"Link"⟩

/-- MSVSSettings.py:553 `_midl`. -/
def toolMidl : MsTool := ⟨c!"VCMIDLTool", c!"Midl"⟩

/-- MSVSSettings.py:554 `_rc`. -/
def toolRc : MsTool := ⟨c!"VCResourceCompilerTool", c!"ResourceCompile"⟩

/-- MSVSSettings.py:555 `_lib`. -/
def toolLib : MsTool := ⟨c!"VCLibrarianTool", c!"Lib"⟩

/-- MSVSSettings.py:556 `_manifest`. -/
def toolManifest : MsTool := ⟨c!"VCManifestTool", c!"Manifest"⟩

/-- MSVSSettings.py:557 `_masm`. -/
def toolMasm : MsTool := ⟨c!"MASM", c!"MASM"⟩

/-- MSVSSettings.py:558 `_armasm`. -/
def toolArmasm : MsTool := ⟨c!"ARMASM", c!"ARMASM"⟩

/-- MSVSSettings.py:231 `_newly_boolean`. -/
def newlyBoolean : MsType :=
  .enumeration [some c!"", some c!"false", some c!"true"] []

/-- MSVSSettings.py:873 `_subsystem_enumeration`. -/
def subsystemEnumeration : MsType :=
  .enumeration [some c!"NotSet", some c!"Console", some c!"Windows", some c!"Native", some
    c!"EFI Application", some c!"EFI Boot Service Driver", some c!"EFI ROM", some c!"EFI Runtime",
    some c!"WindowsCE"] [c!"POSIX"]

/-- MSVSSettings.py:888 `_target_machine_enumeration`. -/
def targetMachineEnumeration : MsType :=
  .enumeration [some c!"NotSet", some c!"MachineX86", none, some c!"MachineARM", some
    c!"MachineEBC", some c!"MachineIA64", none, some c!"MachineMIPS", some c!"MachineMIPS16", some
    c!"MachineMIPSFPU", some c!"MachineMIPSFPU16", none, none, none, some c!"MachineSH4", none,
    some c!"MachineTHUMB", some c!"MachineX64"] []

/-- MSVSSettings.py:580-806 the declarations for `_compile`. -/
def declsCompile : List MsDecl :=
  [.same toolCompile c!"AdditionalIncludeDirectories" .stringList,
   .same toolCompile c!"AdditionalOptions" .stringList,
   .same toolCompile c!"AdditionalUsingDirectories" .stringList,
   .same toolCompile c!"AssemblerListingLocation" .string,
   .same toolCompile c!"BrowseInformationFile" .string,
   .same toolCompile c!"BufferSecurityCheck" .boolean,
   .same toolCompile c!"DisableLanguageExtensions" .boolean,
   .same toolCompile c!"DisableSpecificWarnings" .stringList,
   .same toolCompile c!"EnableFiberSafeOptimizations" .boolean,
   .same toolCompile c!"EnablePREfast" .boolean,
   .same toolCompile c!"ExpandAttributedSource" .boolean,
   .same toolCompile c!"FloatingPointExceptions" .boolean,
   .same toolCompile c!"ForceConformanceInForLoopScope" .boolean,
   .same toolCompile c!"ForcedIncludeFiles" .stringList,
   .same toolCompile c!"ForcedUsingFiles" .stringList,
   .same toolCompile c!"GenerateXMLDocumentationFiles" .boolean,
   .same toolCompile c!"IgnoreStandardIncludePath" .boolean,
   .same toolCompile c!"MinimalRebuild" .boolean,
   .same toolCompile c!"OmitDefaultLibName" .boolean,
   .same toolCompile c!"OmitFramePointers" .boolean,
   .same toolCompile c!"PreprocessorDefinitions" .stringList,
   .same toolCompile c!"ProgramDataBaseFileName" .string,
   .same toolCompile c!"RuntimeTypeInfo" .boolean,
   .same toolCompile c!"ShowIncludes" .boolean,
   .same toolCompile c!"SmallerTypeCheck" .boolean,
   .same toolCompile c!"StringPooling" .boolean,
   .same toolCompile c!"SuppressStartupBanner" .boolean,
   .same toolCompile c!"TreatWChar_tAsBuiltInType" .boolean,
   .same toolCompile c!"UndefineAllPreprocessorDefinitions" .boolean,
   .same toolCompile c!"UndefinePreprocessorDefinitions" .stringList,
   .same toolCompile c!"UseFullPaths" .boolean,
   .same toolCompile c!"WholeProgramOptimization" .boolean,
   .same toolCompile c!"XMLDocumentationFileName" .string,
   .same toolCompile c!"CompileAsWinRT" .boolean,
   .same toolCompile c!"AssemblerOutput" (.enumeration [some c!"NoListing", some c!"AssemblyCode",
      some c!"All", some c!"AssemblyAndMachineCode", some c!"AssemblyAndSourceCode"] []),
   .same toolCompile c!"BasicRuntimeChecks" (.enumeration [some c!"Default", some
      c!"StackFrameRuntimeCheck", some c!"UninitializedLocalUsageCheck", some c!"EnableFastChecks"
      ] []),
   .same toolCompile c!"BrowseInformation" (.enumeration [some c!"false", some c!"true", some
      c!"true"] []),
   .same toolCompile c!"CallingConvention" (.enumeration [some c!"Cdecl", some c!"FastCall", some
      c!"StdCall", some c!"VectorCall"] []),
   .same toolCompile c!"CompileAs" (.enumeration [some c!"Default", some c!"CompileAsC", some
      c!"CompileAsCpp"] []),
   .same toolCompile c!"DebugInformationFormat" (.enumeration [some c!"", some c!"OldStyle", none,
      some c!"ProgramDatabase", some c!"EditAndContinue"] []),
   .same toolCompile c!"EnableEnhancedInstructionSet" (.enumeration [some c!"NotSet", some
      c!"StreamingSIMDExtensions", some c!"StreamingSIMDExtensions2", some
      c!"AdvancedVectorExtensions", some c!"NoExtensions", some c!"AdvancedVectorExtensions2"] []),
   .same toolCompile c!"ErrorReporting" (.enumeration [some c!"None", some c!"Prompt", some
      c!"Queue"] [c!"Send"]),
   .same toolCompile c!"ExceptionHandling" (.enumeration [some c!"false", some c!"Sync", some
      c!"Async"] [c!"SyncCThrow"]),
   .same toolCompile c!"FavorSizeOrSpeed" (.enumeration [some c!"Neither", some c!"Speed", some
      c!"Size"] []),
   .same toolCompile c!"FloatingPointModel" (.enumeration [some c!"Precise", some c!"Strict", some
      c!"Fast"] []),
   .same toolCompile c!"InlineFunctionExpansion" (.enumeration [some c!"Default", some
      c!"OnlyExplicitInline", some c!"AnySuitable"] [c!"Disabled"]),
   .same toolCompile c!"Optimization" (.enumeration [some c!"Disabled", some c!"MinSpace", some
      c!"MaxSpeed", some c!"Full"] []),
   .same toolCompile c!"RuntimeLibrary" (.enumeration [some c!"MultiThreaded", some
      c!"MultiThreadedDebug", some c!"MultiThreadedDLL", some c!"MultiThreadedDebugDLL"] []),
   .same toolCompile c!"StructMemberAlignment" (.enumeration [some c!"Default", some c!"1Byte",
      some c!"2Bytes", some c!"4Bytes", some c!"8Bytes", some c!"16Bytes"] []),
   .same toolCompile c!"WarningLevel" (.enumeration [some c!"TurnOffAllWarnings", some c!"Level1",
      some c!"Level2", some c!"Level3", some c!"Level4"] [c!"EnableAllWarnings"]),
   .renamed toolCompile c!"EnableFunctionLevelLinking" c!"FunctionLevelLinking" .boolean,
   .renamed toolCompile c!"EnableIntrinsicFunctions" c!"IntrinsicFunctions" .boolean,
   .renamed toolCompile c!"KeepComments" c!"PreprocessKeepComments" .boolean,
   .renamed toolCompile c!"ObjectFile" c!"ObjectFileName" .string,
   .renamed toolCompile c!"OpenMP" c!"OpenMPSupport" .boolean,
   .renamed toolCompile c!"PrecompiledHeaderThrough" c!"PrecompiledHeaderFile" .string,
   .renamed toolCompile c!"PrecompiledHeaderFile" c!"PrecompiledHeaderOutputFile" .string,
   .renamed toolCompile c!"UsePrecompiledHeader" c!"PrecompiledHeader" (.enumeration [some
      c!"NotUsing", some c!"Create", some c!"Use"] []),
   .renamed toolCompile c!"WarnAsError" c!"TreatWarningAsError" .boolean,
   .toOption toolCompile c!"DefaultCharIsUnsigned" c!"/J",
   .msvsOnly toolCompile c!"Detect64BitPortabilityProblems" .boolean,
   .msvsOnly toolCompile c!"UseUnicodeResponseFiles" .boolean,
   .msbuildOnly toolCompile c!"BuildingInIDE" .boolean,
   .msbuildOnly toolCompile c!"CompileAsManaged" (.enumeration [] [c!"false", c!"true"]),
   .msbuildOnly toolCompile c!"CreateHotpatchableImage" .boolean,
   .msbuildOnly toolCompile c!"LanguageStandard" .string,
   .msbuildOnly toolCompile c!"LanguageStandard_C" .string,
   .msbuildOnly toolCompile c!"MultiProcessorCompilation" .boolean,
   .msbuildOnly toolCompile c!"PreprocessOutputPath" .string,
   .msbuildOnly toolCompile c!"ProcessorNumber" (.integer false),
   .msbuildOnly toolCompile c!"TrackerLogDirectory" .string,
   .msbuildOnly toolCompile c!"TreatSpecificWarningsAsErrors" .stringList,
   .msbuildOnly toolCompile c!"UseUnicodeForAssemblerListing" .boolean,
   .preprocessed toolCompile c!"GeneratePreprocessedFile"]

/-- MSVSSettings.py:814-1057 the declarations for `_link`. -/
def declsLink : List MsDecl :=
  [.same toolLink c!"AdditionalDependencies" .stringList,
   .same toolLink c!"AdditionalLibraryDirectories" .stringList,
   .same toolLink c!"AdditionalManifestDependencies" .stringList,
   .same toolLink c!"AdditionalOptions" .stringList,
   .same toolLink c!"AddModuleNamesToAssembly" .stringList,
   .same toolLink c!"AllowIsolation" .boolean,
   .same toolLink c!"AssemblyLinkResource" .stringList,
   .same toolLink c!"BaseAddress" .string,
   .same toolLink c!"CLRUnmanagedCodeCheck" .boolean,
   .same toolLink c!"DelayLoadDLLs" .stringList,
   .same toolLink c!"DelaySign" .boolean,
   .same toolLink c!"EmbedManagedResourceFile" .stringList,
   .same toolLink c!"EnableUAC" .boolean,
   .same toolLink c!"EntryPointSymbol" .string,
   .same toolLink c!"ForceSymbolReferences" .stringList,
   .same toolLink c!"FunctionOrder" .string,
   .same toolLink c!"GenerateDebugInformation" .boolean,
   .same toolLink c!"GenerateMapFile" .boolean,
   .same toolLink c!"HeapCommitSize" .string,
   .same toolLink c!"HeapReserveSize" .string,
   .same toolLink c!"IgnoreAllDefaultLibraries" .boolean,
   .same toolLink c!"IgnoreEmbeddedIDL" .boolean,
   .same toolLink c!"ImportLibrary" .string,
   .same toolLink c!"KeyContainer" .string,
   .same toolLink c!"KeyFile" .string,
   .same toolLink c!"ManifestFile" .string,
   .same toolLink c!"MapExports" .boolean,
   .same toolLink c!"MapFileName" .string,
   .same toolLink c!"MergedIDLBaseFileName" .string,
   .same toolLink c!"MergeSections" .string,
   .same toolLink c!"MidlCommandFile" .string,
   .same toolLink c!"ModuleDefinitionFile" .string,
   .same toolLink c!"OutputFile" .string,
   .same toolLink c!"PerUserRedirection" .boolean,
   .same toolLink c!"Profile" .boolean,
   .same toolLink c!"ProfileGuidedDatabase" .string,
   .same toolLink c!"ProgramDatabaseFile" .string,
   .same toolLink c!"RegisterOutput" .boolean,
   .same toolLink c!"SetChecksum" .boolean,
   .same toolLink c!"StackCommitSize" .string,
   .same toolLink c!"StackReserveSize" .string,
   .same toolLink c!"StripPrivateSymbols" .string,
   .same toolLink c!"SupportUnloadOfDelayLoadedDLL" .boolean,
   .same toolLink c!"SuppressStartupBanner" .boolean,
   .same toolLink c!"SwapRunFromCD" .boolean,
   .same toolLink c!"TurnOffAssemblyGeneration" .boolean,
   .same toolLink c!"TypeLibraryFile" .string,
   .same toolLink c!"TypeLibraryResourceID" (.integer false),
   .same toolLink c!"UACUIAccess" .boolean,
   .same toolLink c!"Version" .string,
   .same toolLink c!"EnableCOMDATFolding" newlyBoolean,
   .same toolLink c!"FixedBaseAddress" newlyBoolean,
   .same toolLink c!"LargeAddressAware" newlyBoolean,
   .same toolLink c!"OptimizeReferences" newlyBoolean,
   .same toolLink c!"RandomizedBaseAddress" newlyBoolean,
   .same toolLink c!"TerminalServerAware" newlyBoolean,
   .same toolLink c!"AssemblyDebug" (.enumeration [some c!"", some c!"true", some c!"false"] []),
   .same toolLink c!"CLRImageType" (.enumeration [some c!"Default", some c!"ForceIJWImage", some
      c!"ForcePureILImage", some c!"ForceSafeILImage"] []),
   .same toolLink c!"CLRThreadAttribute" (.enumeration [some c!"DefaultThreadingAttribute", some
      c!"MTAThreadingAttribute", some c!"STAThreadingAttribute"] []),
   .same toolLink c!"DataExecutionPrevention" (.enumeration [some c!"", some c!"false", some
      c!"true"] []),
   .same toolLink c!"Driver" (.enumeration [some c!"NotSet", some c!"Driver", some c!"UpOnly",
      some c!"WDM"] []),
   .same toolLink c!"LinkTimeCodeGeneration" (.enumeration [some c!"Default", some
      c!"UseLinkTimeCodeGeneration", some c!"PGInstrument", some c!"PGOptimization", some
      c!"PGUpdate"] []),
   .same toolLink c!"ShowProgress" (.enumeration [some c!"NotSet", some c!"LinkVerbose", some
      c!"LinkVerboseLib"] [c!"LinkVerboseICF", c!"LinkVerboseREF", c!"LinkVerboseSAFESEH",
      c!"LinkVerboseCLR"]),
   .same toolLink c!"SubSystem" subsystemEnumeration,
   .same toolLink c!"TargetMachine" targetMachineEnumeration,
   .same toolLink c!"UACExecutionLevel" (.enumeration [some c!"AsInvoker", some
      c!"HighestAvailable", some c!"RequireAdministrator"] []),
   .same toolLink c!"MinimumRequiredVersion" .string,
   .same toolLink c!"TreatLinkerWarningAsErrors" .boolean,
   .renamed toolLink c!"ErrorReporting" c!"LinkErrorReporting" (.enumeration [some
      c!"NoErrorReport", some c!"PromptImmediately", some c!"QueueForNextLogin"]
      [c!"SendErrorReport"]),
   .renamed toolLink c!"IgnoreDefaultLibraryNames" c!"IgnoreSpecificDefaultLibraries" .stringList,
   .renamed toolLink c!"ResourceOnlyDLL" c!"NoEntryPoint" .boolean,
   .renamed toolLink c!"SwapRunFromNet" c!"SwapRunFromNET" .boolean,
   .moved toolLink c!"GenerateManifest" c!"" .boolean,
   .moved toolLink c!"IgnoreImportLibrary" c!"" .boolean,
   .moved toolLink c!"LinkIncremental" c!"" newlyBoolean,
   .moved toolLink c!"LinkLibraryDependencies" c!"ProjectReference" .boolean,
   .moved toolLink c!"UseLibraryDependencyInputs" c!"ProjectReference" .boolean,
   .msvsOnly toolLink c!"OptimizeForWindows98" newlyBoolean,
   .msvsOnly toolLink c!"UseUnicodeResponseFiles" .boolean,
   .msbuildOnly toolLink c!"BuildingInIDE" .boolean,
   .msbuildOnly toolLink c!"ImageHasSafeExceptionHandlers" .boolean,
   .msbuildOnly toolLink c!"LinkDLL" .boolean,
   .msbuildOnly toolLink c!"LinkStatus" .boolean,
   .msbuildOnly toolLink c!"PreventDllBinding" .boolean,
   .msbuildOnly toolLink c!"SupportNobindOfDelayLoadedDLL" .boolean,
   .msbuildOnly toolLink c!"TrackerLogDirectory" .string,
   .msbuildOnly toolLink c!"MSDOSStubFileName" .string,
   .msbuildOnly toolLink c!"SectionAlignment" (.integer false),
   .msbuildOnly toolLink c!"SpecifySectionAttributes" .string,
   .msbuildOnly toolLink c!"ForceFileOutput" (.enumeration [] [c!"Enabled",
      c!"MultiplyDefinedSymbolOnly", c!"UndefinedSymbolOnly"]),
   .msbuildOnly toolLink c!"CreateHotPatchableImage" (.enumeration [] [c!"Enabled", c!"X86Image",
      c!"X64Image", c!"ItaniumImage"]),
   .msbuildOnly toolLink c!"CLRSupportLastError" (.enumeration [] [c!"Enabled", c!"Disabled",
      c!"SystemDlls"])]

/-- MSVSSettings.py:1076-1091 the declarations for `_rc`. -/
def declsRc : List MsDecl :=
  [.same toolRc c!"AdditionalOptions" .stringList,
   .same toolRc c!"AdditionalIncludeDirectories" .stringList,
   .same toolRc c!"Culture" (.integer true),
   .same toolRc c!"IgnoreStandardIncludePath" .boolean,
   .same toolRc c!"PreprocessorDefinitions" .stringList,
   .same toolRc c!"ResourceOutputFileName" .string,
   .same toolRc c!"ShowProgress" .boolean,
   .same toolRc c!"SuppressStartupBanner" .boolean,
   .same toolRc c!"UndefinePreprocessorDefinitions" .stringList,
   .msbuildOnly toolRc c!"NullTerminateStrings" .boolean,
   .msbuildOnly toolRc c!"TrackerLogDirectory" .string]

/-- MSVSSettings.py:1098-1171 the declarations for `_midl`. -/
def declsMidl : List MsDecl :=
  [.same toolMidl c!"AdditionalIncludeDirectories" .stringList,
   .same toolMidl c!"AdditionalOptions" .stringList,
   .same toolMidl c!"CPreprocessOptions" .string,
   .same toolMidl c!"ErrorCheckAllocations" .boolean,
   .same toolMidl c!"ErrorCheckBounds" .boolean,
   .same toolMidl c!"ErrorCheckEnumRange" .boolean,
   .same toolMidl c!"ErrorCheckRefPointers" .boolean,
   .same toolMidl c!"ErrorCheckStubData" .boolean,
   .same toolMidl c!"GenerateStublessProxies" .boolean,
   .same toolMidl c!"GenerateTypeLibrary" .boolean,
   .same toolMidl c!"HeaderFileName" .string,
   .same toolMidl c!"IgnoreStandardIncludePath" .boolean,
   .same toolMidl c!"InterfaceIdentifierFileName" .string,
   .same toolMidl c!"MkTypLibCompatible" .boolean,
   .same toolMidl c!"OutputDirectory" .string,
   .same toolMidl c!"PreprocessorDefinitions" .stringList,
   .same toolMidl c!"ProxyFileName" .string,
   .same toolMidl c!"RedirectOutputAndErrors" .string,
   .same toolMidl c!"SuppressStartupBanner" .boolean,
   .same toolMidl c!"TypeLibraryName" .string,
   .same toolMidl c!"UndefinePreprocessorDefinitions" .stringList,
   .same toolMidl c!"WarnAsError" .boolean,
   .same toolMidl c!"DefaultCharType" (.enumeration [some c!"Unsigned", some c!"Signed", some
      c!"Ascii"] []),
   .same toolMidl c!"TargetEnvironment" (.enumeration [some c!"NotSet", some c!"Win32", some
      c!"Itanium", some c!"X64", some c!"ARM64"] []),
   .same toolMidl c!"EnableErrorChecks" (.enumeration [some c!"EnableCustom", some c!"None", some
      c!"All"] []),
   .same toolMidl c!"StructMemberAlignment" (.enumeration [some c!"NotSet", some c!"1", some c!"2"
      , some c!"4", some c!"8"] []),
   .same toolMidl c!"WarningLevel" (.enumeration [some c!"0", some c!"1", some c!"2", some c!"3",
      some c!"4"] []),
   .renamed toolMidl c!"DLLDataFileName" c!"DllDataFileName" .string,
   .renamed toolMidl c!"ValidateParameters" c!"ValidateAllParameters" .boolean,
   .msbuildOnly toolMidl c!"ApplicationConfigurationMode" .boolean,
   .msbuildOnly toolMidl c!"ClientStubFile" .string,
   .msbuildOnly toolMidl c!"GenerateClientFiles" (.enumeration [] [c!"Stub", c!"None"]),
   .msbuildOnly toolMidl c!"GenerateServerFiles" (.enumeration [] [c!"Stub", c!"None"]),
   .msbuildOnly toolMidl c!"LocaleID" (.integer false),
   .msbuildOnly toolMidl c!"ServerStubFile" .string,
   .msbuildOnly toolMidl c!"SuppressCompilerWarnings" .boolean,
   .msbuildOnly toolMidl c!"TrackerLogDirectory" .string,
   .msbuildOnly toolMidl c!"TypeLibFormat" (.enumeration [] [c!"NewFormat", c!"OldFormat"])]

/-- MSVSSettings.py:1180-1218 the declarations for `_lib`. -/
def declsLib : List MsDecl :=
  [.same toolLib c!"AdditionalDependencies" .stringList,
   .same toolLib c!"AdditionalLibraryDirectories" .stringList,
   .same toolLib c!"AdditionalOptions" .stringList,
   .same toolLib c!"ExportNamedFunctions" .stringList,
   .same toolLib c!"ForceSymbolReferences" .string,
   .same toolLib c!"IgnoreAllDefaultLibraries" .boolean,
   .same toolLib c!"IgnoreSpecificDefaultLibraries" .stringList,
   .same toolLib c!"ModuleDefinitionFile" .string,
   .same toolLib c!"OutputFile" .string,
   .same toolLib c!"SuppressStartupBanner" .boolean,
   .same toolLib c!"UseUnicodeResponseFiles" .boolean,
   .same toolLib c!"LinkTimeCodeGeneration" .boolean,
   .same toolLib c!"TargetMachine" targetMachineEnumeration,
   .moved toolLib c!"LinkLibraryDependencies" c!"ProjectReference" .boolean,
   .msbuildOnly toolLib c!"DisplayLibrary" .string,
   .msbuildOnly toolLib c!"ErrorReporting" (.enumeration [] [c!"PromptImmediately",
      c!"QueueForNextLogin", c!"SendErrorReport", c!"NoErrorReport"]),
   .msbuildOnly toolLib c!"MinimumRequiredVersion" .string,
   .msbuildOnly toolLib c!"Name" .string,
   .msbuildOnly toolLib c!"RemoveObjects" .stringList,
   .msbuildOnly toolLib c!"SubSystem" subsystemEnumeration,
   .msbuildOnly toolLib c!"TrackerLogDirectory" .string,
   .msbuildOnly toolLib c!"TreatLibWarningAsErrors" .boolean,
   .msbuildOnly toolLib c!"Verbose" .boolean]

/-- MSVSSettings.py:1226-1264 the declarations for `_manifest`. -/
def declsManifest : List MsDecl :=
  [.same toolManifest c!"AdditionalManifestFiles" .stringList,
   .same toolManifest c!"AdditionalOptions" .stringList,
   .same toolManifest c!"AssemblyIdentity" .string,
   .same toolManifest c!"ComponentFileName" .string,
   .same toolManifest c!"GenerateCatalogFiles" .boolean,
   .same toolManifest c!"InputResourceManifests" .string,
   .same toolManifest c!"OutputManifestFile" .string,
   .same toolManifest c!"RegistrarScriptFile" .string,
   .same toolManifest c!"ReplacementsFile" .string,
   .same toolManifest c!"SuppressStartupBanner" .boolean,
   .same toolManifest c!"TypeLibraryFile" .string,
   .same toolManifest c!"UpdateFileHashes" .boolean,
   .same toolManifest c!"UpdateFileHashesSearchPath" .string,
   .same toolManifest c!"VerboseOutput" .boolean,
   .movedAndRenamed toolManifest c!"ManifestResourceFile" c!"ManifestResourceCompile"
      c!"ResourceOutputFileName" .string,
   .moved toolManifest c!"EmbedManifest" c!"" .boolean,
   .msvsOnly toolManifest c!"DependencyInformationFile" .string,
   .msvsOnly toolManifest c!"UseFAT32Workaround" .boolean,
   .msvsOnly toolManifest c!"UseUnicodeResponseFiles" .boolean,
   .msbuildOnly toolManifest c!"EnableDPIAwareness" .boolean,
   .msbuildOnly toolManifest c!"GenerateCategoryTags" .boolean,
   .msbuildOnly toolManifest c!"ManifestFromManagedAssembly" .string,
   .msbuildOnly toolManifest c!"OutputResourceManifests" .string,
   .msbuildOnly toolManifest c!"SuppressDependencyElement" .boolean,
   .msbuildOnly toolManifest c!"TrackerLogDirectory" .string]

/-- MSVSSettings.py:1272-1272 the declarations for `_masm`. -/
def declsMasm : List MsDecl :=
  [.same toolMasm c!"UseSafeExceptionHandlers" .boolean]

/-- MSVSSettings.py:548-1272 all declarations, in order. -/
def msDecls : List MsDecl :=
  declsCompile ++ declsLink ++ declsRc ++ declsMidl ++ declsLib ++ declsManifest ++ declsMasm

/-- MSVSSettings.py:559-571 the tools, in the order of `_AddTool`. -/
def msTools : List MsTool :=
  [toolCompile, toolLink, toolMidl, toolRc, toolLib, toolManifest, toolMasm, toolArmasm]

end Gyp
