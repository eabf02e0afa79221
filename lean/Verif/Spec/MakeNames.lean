import Verif.Spec.MakeGraph
import Verif.Spec.Path
import Verif.Spec.Validate
import Mathlib.Logic.Relation
/-
Which names the claims about makefiles are about, and which files they stand for.
-/
namespace Gyp.Spec

/-- Variables of the common header of the makefile. -/
def headerVars : List Str := [c!"obj", c!"builddir", c!"srcdir"]

/-- ... and those that every makefile of a target begins with. -/
def localVars : List Str := c!"TOOLSET" :: c!"TARGET" :: headerVars

/-- The variables of the header are not set. -/
def Fresh (v : MakeVars) : Prop := ∀ n ∈ headerVars, aget v n = none

/-- A text whose only dollar signs are those of references to the given variables. -/
inductive RefText (R : List Str) : Str → Prop
  | nil : RefText R []
  | char {c s} : c ≠ '$' → RefText R s → RefText R (c :: s)
  | ref {n s} : n ∈ R → ')' ∉ n → RefText R s → RefText R (c!"$(" ++ n ++ c!")" ++ s)

/-- Characters that have a meaning in makefiles. -/
def specialChars : List Char := [' ', ':', '|', '#', '\\', '\t', '\n', '"']

/-- A text without them. -/
def MkClean (s : Str) : Prop := ∀ c ∈ s, c ∉ specialChars

/-- A word that make does not interpret. -/
def MkWord (s : Str) : Prop := s ≠ [] ∧ MkClean s ∧ '$' ∉ s

/-- The name of a file in the dictionary of a target. -/
def FileText (s : Str) : Prop := s ≠ [] ∧ MkClean s ∧ RefText localVars s

/-- The name of the product of another target. -/
def DepText (s : Str) : Prop := s ≠ [] ∧ MkClean s ∧ RefText headerVars s

/-- The values of the variables that a makefile of a target begins with. -/
def ownVars (s : MkSpec) : MakeVars := [(c!"TARGET", s.targetName), (c!"TOOLSET", s.toolset)]

/-- The file that a name in a target stands for: with variables, those replaced; otherwise the
file relative to the directory of the target. -/
def fileName (m : MkSelf) (s : Str) : Str :=
  if '$' ∈ s then expand (ownVars m.spec) (rstripSlash s) else normpath (pathJoin m.path s)

/-- ... and for a name that is not something made: with the directory of the sources before it. -/
def inputName (m : MkSelf) (s : Str) : Str :=
  if '$' ∈ s ∨ isAbs (fileName m s) then fileName m s else m.srcdirPrefix ++ fileName m s

/-- Where a file is copied to. -/
def copiedName (m : MkSelf) (c : MkCopy) (file : Str) : Str :=
  inputName m (pathJoin c.destination (basename (if '$' ∈ file then rstripSlash file
    else normpath (pathJoin m.path file))))

/-- The files that the actions, rules and copies of a target make. -/
def specialFiles (m : MkSelf) : List Str :=
  (m.spec.actions.flatMap fun a => a.outputs.map (fileName m)) ++
  (m.spec.rules.flatMap fun r => r.sources.flatMap fun s =>
    ((ruleOutputs r s).getD []).map (fileName m)) ++
  m.spec.copies.flatMap fun c => c.files.map (copiedName m c)

/-- The sources of a target: its own and the generated ones. -/
def allSources (s : MkSpec) : List Str :=
  s.sources ++ (s.actions.filter (·.asSources)).flatMap (·.outputs) ++
    (s.rules.filter (·.asSources)).flatMap fun r =>
      r.sources.flatMap fun src => (ruleOutputs r src).getD []

/-- A file that the targets before have made for a dependency of this one: its product, or the
library to link. -/
def DependencyFile (t : MkOutputs) (s : MkSpec) (f : Str) : Prop :=
  ∃ d ∈ s.dependencies, (f ≠ [] ∧ aget t.outputs d = some f) ∨ aget t.linkDeps d = some f

/-- The product of a target. -/
def productFile (m : MkSelf) : Str := expand (ownVars m.spec) (ComputeOutput m)

/-- What is assumed about a target, the names of files and the products of other targets. -/
structure TargetOk (m : MkSelf) (t : MkOutputs) : Prop where
  path_rel : isAbs m.path = false
  path : MkClean m.path ∧ '$' ∉ m.path
  srcdir : m.srcdirPrefix = [] ∨ m.srcdirPrefix = c!"$(srcdir)/"
  toolset : MkWord m.spec.toolset
  name : MkWord m.spec.targetName
  digest : ∀ s, MkWord (m.sha1 s)
  sources : ∀ s ∈ m.spec.sources, FileText s
  actions : ∀ a ∈ m.spec.actions, ∀ f ∈ a.inputs ++ a.outputs, FileText f
  rules : ∀ r ∈ m.spec.rules, (∀ f ∈ r.sources ++ r.inputs, FileText f) ∧
    ∀ s ∈ r.sources, ∀ outs, ruleOutputs r s = some outs → ∀ f ∈ outs, FileText f
  copies : ∀ c ∈ m.spec.copies, ∀ f ∈ c.destination :: c.files, FileText f
  product : ∀ x ∈ m.spec.productDir.toList ++ m.spec.productPrefix.toList ++
      m.spec.productName.toList ++ [m.spec.productExtension],
    MkClean x ∧ RefText localVars x
  productDir : m.spec.productDir ≠ some []
  outputs : ∀ e ∈ t.outputs, e.2 = [] ∨ DepText e.2
  linkDeps : ∀ e ∈ t.linkDeps, DepText e.2
  actionNames : (m.spec.actions.map fun a => commandName m a.name).Nodup
  ruleNames : (m.spec.rules.map fun r => commandName m r.name).Nodup
  configNames : ∀ c ∈ m.spec.configs, ∀ pre ∈ [c!"DEFS_", c!"CFLAGS_", c!"CFLAGS_C_", c!"CFLAGS_CC_",
    c!"INCS_", c!"LDFLAGS_"], pre ++ c.name ≠ copiesVar m

/-- Before making `x`, make has `y` made, directly or through other files. -/
def Reaches (rules : List MakeItem) : Str → Str → Prop := Relation.TransGen (WaitsFor rules)

/-- `x` is made again when `y` is newer, directly or through other files. -/
def MadeWith (rules : List MakeItem) : Str → Str → Prop := Relation.TransGen (MadeFrom rules)

/-- The command is run to make `x`, or to make an intermediate file that `x` is made from. -/
def RunsFor (rules : List MakeItem) (x cmd : Str) : Prop :=
  ∃ y recipe, (y = x ∨ MadeFrom rules x y) ∧ HasRecipe rules y recipe ∧
    c!"$(call do_cmd," ++ cmd ++ c!")" ∈ recipe

/-- The line of the makefile that makes the product of a target, by the type of the target. -/
inductive LinkedBy (m : MkSelf) : Str → Prop
  | program : m.spec.type = c!"executable" →
      ¬ (m.spec.toolset = c!"host" ∧ m.flavor = c!"android") → LinkedBy m c!"$(call do_cmd,link)"
  | hostProgram : m.spec.type = c!"executable" → m.spec.toolset = c!"host" → m.flavor = c!"android" →
      LinkedBy m c!"$(call do_cmd,link_host)"
  | thin : m.spec.type = c!"static_library" → m.flavor = c!"linux" ∨ m.flavor = c!"android" →
      m.spec.standalone = false → LinkedBy m c!"$(call create_thin_archive,$@,$^)"
  | archive : m.spec.type = c!"static_library" → m.flavor = c!"linux" ∨ m.flavor = c!"android" →
      m.spec.standalone = true → LinkedBy m c!"$(call create_archive,$@,$^)"
  | thinCmd : m.spec.type = c!"static_library" → ¬ (m.flavor = c!"linux" ∨ m.flavor = c!"android") →
      m.flavor ∉ [c!"mac", c!"openbsd", c!"netbsd", c!"win"] → m.spec.standalone = false →
      LinkedBy m c!"$(call do_cmd,alink_thin)"
  | archiveCmd : m.spec.type = c!"static_library" →
      ¬ (m.flavor = c!"linux" ∨ m.flavor = c!"android") →
      m.flavor ∈ [c!"mac", c!"openbsd", c!"netbsd", c!"win"] ∨ m.spec.standalone = true →
      LinkedBy m c!"$(call do_cmd,alink)"
  | library : m.spec.type = c!"shared_library" → LinkedBy m c!"$(call do_cmd,solink)"
  | addon : m.spec.type = c!"loadable_module" →
      ¬ (m.spec.toolset = c!"host" ∧ m.flavor = c!"android") →
      LinkedBy m c!"$(call do_cmd,solink_module)"
  | hostAddon : m.spec.type = c!"loadable_module" → m.spec.toolset = c!"host" →
      m.flavor = c!"android" → LinkedBy m c!"$(call do_cmd,solink_module_host)"

/-- The directory of the objects of a target. -/
def objectDir (m : MkSelf) : Str :=
  c!"$(obj)." ++ m.spec.toolset ++ c!"/" ++ m.spec.targetName ++ c!"/"

/-- The object that belongs to a source: for a file in the source tree, a file of another target's
or the shared generated sources, and a file of the generated sources of the target. -/
inductive ObjectOf (m : MkSelf) : Str → Str → Prop
  | plain {s stem ext} : Dotted s ext → '$' ∉ s → isAbs s = false →
      fileName m s = stem ++ c!"." ++ ext → ObjectOf m s (objectDir m ++ stem ++ c!".o")
  | shared {stem ext} : Dotted (stem ++ c!"." ++ ext) ext → '$' ∉ stem ++ ext →
      ObjectOf m (c!"$(obj)/" ++ stem ++ c!"." ++ ext) (objectDir m ++ stem ++ c!".o")
  | own {stem ext} : Dotted (stem ++ c!"." ++ ext) ext → '$' ∉ stem ++ ext →
      ObjectOf m (c!"$(obj).$(TOOLSET)/$(TARGET)/" ++ stem ++ c!"." ++ ext)
        (objectDir m ++ stem ++ c!".o")

/-- The file that is compiled. -/
def sourceFile (m : MkSelf) (s : Str) : Str :=
  if '$' ∈ s then fileName m s else c!"$(srcdir)/" ++ fileName m s

/-- Extensions of files that are compiled. -/
def compiledExts (flavor : Str) : List Str :=
  [c!"c", c!"cc", c!"cpp", c!"cxx", c!"s", c!"S"] ++ (if flavor = c!"zos" then [c!"pli"] else [])

/-- The sources that are compiled. -/
def compiledSources (m : MkSelf) : List Str :=
  (allSources m.spec).filter fun s =>
    (compiledExts m.flavor).any fun e => (c!"." ++ e).isSuffixOf s

/-- The variables of the root makefile where its pattern rules for a toolset are. -/
def rootVars (toolset : Str) : MakeVars := [(c!"TOOLSET", toolset)]

/-- The pattern rules that apply to the objects of a target. -/
def allPatterns (m : MkSelf) (v0 : MakeVars) (lines : List MkLine) : List PatternRule :=
  patternsFrom v0 lines ++ patternsFrom (rootVars m.spec.toolset) (rootSuffixRules m.flavor)

end Gyp.Spec
