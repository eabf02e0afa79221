import Verif.Model.MsvsFinal
import Verif.Spec.MsvsSources
import Mathlib.Data.List.Dedup
/-
The settings the tools of a Visual Studio project get, in words of the documentation: what a
target asks for is added to what is given for the tool, and nothing that is given is lost.
How a path is written is C80's, how a definition is escaped is C78's.
-/
namespace Gyp.Spec

/-- The setting has no value. -/
def Unset (old : Option GVal) : Prop := old = none ∨ old = some (.text []) ∨ old = some (.list [])

/-- A list goes to the end of the list that is given, if any.  With nothing to add nothing changes. -/
inductive Appended (added : List Str) : Option GVal → Option GVal → Prop
  | nothing (old) : added = [] → Appended added old old
  | onto (l) : Appended added (some (.list l)) (some (.list (l ++ added)))
  | set (old) : added ≠ [] → Unset old → Appended added old (some (.list added))

/-- The same, but the setting has a value even when there is nothing to add. -/
inductive AlwaysAppended (added : List Str) : Option GVal → Option GVal → Prop
  | onto (l) : AlwaysAppended added (some (.list l)) (some (.list (l ++ added)))
  | set (old) : Unset old → AlwaysAppended added old (some (.list added))

/-- A text, if it is not empty, is the value; nothing may be given. -/
inductive TextSet (text : Str) : Option GVal → Option GVal → Prop
  | nothing (old) : text = [] → TextSet text old old
  | set (old) : text ≠ [] → Unset old → TextSet text old (some (.text text))

/-- A text, if it is not empty, is the value unless one is given. -/
inductive TextDefault (text : Str) : Option GVal → Option GVal → Prop
  | nothing (old) : text = [] → TextDefault text old old
  | given (old) : ¬ Unset old → TextDefault text old old
  | set (old) : text ≠ [] → Unset old → TextDefault text old (some (.text text))

/-- The file of a library: `-lfoo` and `foo` are `foo.lib`, `foo.a` stays. -/
def LibraryName (entry name : Str) : Prop :=
  ∃ base, (entry = c!"-l" ++ base ∨ ¬ c!"-l" <+: entry ∧ base = entry) ∧
    ((∃ ext, HasExtension base ext) ∧ name = base ∨ (¬ ∃ ext, HasExtension base ext) ∧ name = base ++ c!".lib")

/-- Kinds of targets that are linked. -/
def linkedKinds : List Str := [c!"executable", c!"shared_library", c!"loadable_module", c!"windows_driver"]

/-- The tool that makes the product and the file it makes; both are empty when the generator does
not say. -/
def Product (w : WinPaths) (t : WinLinked) (tool file : Str) : Prop :=
  (t.autoOutput = false ∨ t.type ∉ c!"static_library" :: linkedKinds) ∧ tool = [] ∧ file = [] ∨
  t.autoOutput = true ∧ ∃ dir,
    (t.type ∈ linkedKinds ∧ tool = c!"Link" ∧ dir = c!"$(OutDir)" ∨
      t.type = c!"static_library" ∧ tool = c!"Lib" ∧
        dir = if t.standalone then c!"$(OutDir)" else c!"$(OutDir)lib\\") ∧
    file = w.join (t.productDir.getD dir) (t.productPrefix ++ t.productName.getD c!"$(ProjectName)" ++
      if t.productExtension = [] then c!"$(TargetExt)" else c!"." ++ t.productExtension)

/-- The module definition file: the only source ending in `.def` of a target that is linked. -/
def DefinitionFile (w : WinPaths) (t : WinLinked) (file : Str) : Prop :=
  file = [] ∧ (t.type ∉ linkedKinds ∨ ∀ s ∈ t.sources, ¬ c!".def" <:+ s) ∨
  t.type ∈ linkedKinds ∧ ∃ pre f post, t.sources = pre ++ f :: post ∧ c!".def" <:+ f ∧
    (∀ s ∈ pre ++ post, ¬ c!".def" <:+ s) ∧ file = fixPath w f

/-- The precompiled header, as the compiler is told: without its directory, but for ClangCL. -/
def HeaderName (c : WinSettings) (header : Str) : Prop :=
  if c.precompiledHeader = [] then header = []
  else if c.clang then header = c.precompiledHeader
  else ∃ dir, c.precompiledHeader = dir ++ header ∧ '/' ∉ header ∧ '\\' ∉ header ∧
    (dir = [] ∨ dir.getLast? = some '\\' ∨ dir.getLast? = some '/')

/-- A directory as it is written: relative to the project, with backslashes. -/
def settingDir (w : WinPaths) (p : Str) : Str := replaceChar '/' c!"\\" (fixPath w p)

/-- The settings the generator may give a value, besides those of the product. -/
def generatedSettings : List (Str × Str) :=
  [(c!"ClCompile", c!"AdditionalIncludeDirectories"), (c!"Midl", c!"AdditionalIncludeDirectories"),
   (c!"ResourceCompile", c!"AdditionalIncludeDirectories"), (c!"Link", c!"AdditionalDependencies"),
   (c!"Link", c!"AdditionalLibraryDirectories"), (c!"ClCompile", c!"PreprocessorDefinitions"),
   (c!"ResourceCompile", c!"PreprocessorDefinitions"), (c!"ClCompile", c!"DisableSpecificWarnings"),
   (c!"ClCompile", c!"PrecompiledHeader"), (c!"ClCompile", c!"PrecompiledHeaderFile"),
   (c!"ClCompile", c!"ForcedIncludeFiles"), ([], c!"IgnoreImportLibrary"), (c!"Link", c!"ModuleDefinitionFile"),
   (c!"PreBuildEvent", c!"Command"), (c!"PostBuildEvent", c!"Command")]

/-- What the tools get: `given tool setting` is the value that is given, `got tool setting` the
value in the end. -/
structure SettingsOf (w : WinPaths) (t : WinLinked) (c : WinSettings) (given got : Str → Str → Option GVal) : Prop where
  /-- the compiler looks in the include directories and in those of the system -/
  includes : Appended ((c.includeDirs ++ c.systemDirs).map (settingDir w))
    (given c!"ClCompile" c!"AdditionalIncludeDirectories") (got c!"ClCompile" c!"AdditionalIncludeDirectories")
  midl : Appended ((c.midlDirs ++ c.systemDirs).map (settingDir w))
    (given c!"Midl" c!"AdditionalIncludeDirectories") (got c!"Midl" c!"AdditionalIncludeDirectories")
  /-- the resource compiler looks where it is told, or else where the compiler looks -/
  resource : Appended ((c.resourceDirs.getD (c.includeDirs ++ c.systemDirs)).map (settingDir w))
    (given c!"ResourceCompile" c!"AdditionalIncludeDirectories")
    (got c!"ResourceCompile" c!"AdditionalIncludeDirectories")
  /-- the libraries, each once, at the last place where it is named -/
  libraries : ∃ names, List.Forall₂ LibraryName t.libraries names ∧
    AlwaysAppended (names.dedup.map (replaceChar '/' c!"\\"))
      (given c!"Link" c!"AdditionalDependencies") (got c!"Link" c!"AdditionalDependencies")
  libraryDirs : Appended (c.libraryDirs.map (settingDir w))
    (given c!"Link" c!"AdditionalLibraryDirectories") (got c!"Link" c!"AdditionalLibraryDirectories")
  /-- the definitions, escaped, for the compiler and for the resource compiler; `_HAS_TR1=0` is
  left out of settings made for older versions of Visual Studio -/
  defines : ∃ defs, List.Forall₂ (fun d e => EscapeCppDefineForMSBuild d = some e)
      (c.defines.filter fun d => decide (¬ (c.converted = true ∧ d = c!"_HAS_TR1=0"))) defs ∧
    Appended defs (given c!"ClCompile" c!"PreprocessorDefinitions") (got c!"ClCompile" c!"PreprocessorDefinitions") ∧
    Appended defs (given c!"ResourceCompile" c!"PreprocessorDefinitions")
      (got c!"ResourceCompile" c!"PreprocessorDefinitions")
  warnings : Appended c.disabledWarnings
    (given c!"ClCompile" c!"DisableSpecificWarnings") (got c!"ClCompile" c!"DisableSpecificWarnings")
  pch : TextSet (if c.precompiledHeader = [] then c!"NotUsing" else c!"Use")
    (given c!"ClCompile" c!"PrecompiledHeader") (got c!"ClCompile" c!"PrecompiledHeader")
  /-- the precompiled header is included first -/
  header : ∃ h, HeaderName c h ∧
    TextSet h (given c!"ClCompile" c!"PrecompiledHeaderFile") (got c!"ClCompile" c!"PrecompiledHeaderFile") ∧
    Appended (if c.precompiledHeader = [] then [] else [h])
      (given c!"ClCompile" c!"ForcedIncludeFiles") (got c!"ClCompile" c!"ForcedIncludeFiles")
  required : t.requiresImportLibrary = true →
    TextSet c!"false" (given [] c!"IgnoreImportLibrary") (got [] c!"IgnoreImportLibrary")
  loadable : t.type = c!"loadable_module" →
    TextSet c!"true" (given [] c!"IgnoreImportLibrary") (got [] c!"IgnoreImportLibrary")
  otherwise : t.requiresImportLibrary = false → t.type ≠ c!"loadable_module" →
    got [] c!"IgnoreImportLibrary" = given [] c!"IgnoreImportLibrary"
  definition : ∃ file, DefinitionFile w t file ∧
    TextSet file (given c!"Link" c!"ModuleDefinitionFile") (got c!"Link" c!"ModuleDefinitionFile")
  before : TextSet c.prebuild (given c!"PreBuildEvent" c!"Command") (got c!"PreBuildEvent" c!"Command")
  after : TextSet c.postbuild (given c!"PostBuildEvent" c!"Command") (got c!"PostBuildEvent" c!"Command")
  /-- the file of the product and its extension, unless they are given; everything else is as it
  was given -/
  product : ∃ tool file, Product w t tool file ∧
    TextDefault file (given tool c!"OutputFile") (got tool c!"OutputFile") ∧
    TextDefault (if t.productExtension = [] then [] else c!"." ++ t.productExtension)
      (given tool c!"TargetExt") (got tool c!"TargetExt") ∧
    ∀ T N, (T, N) ∉ (tool, c!"OutputFile") :: (tool, c!"TargetExt") :: generatedSettings → got T N = given T N

end Gyp.Spec
