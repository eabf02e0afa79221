import Verif.Model.MakeBuild
import Verif.Model.Load
import Verif.Spec.MakeNames
/-
The makefiles of a whole build: what is assumed about the targets, and which files their products
are.
-/
namespace Gyp.Spec

/-- Types of targets whose product is put into the directory of the build. -/
def installedTypes : List Str := [c!"executable", c!"loadable_module", c!"shared_library"]

/-- The file that those who depend on a target, and `all`, ask for: the product, or its copy in the
directory of the build. -/
def installedFile (m : MkSelf) : Str :=
  if m.spec.standalone = true ∨ m.spec.type ∈ installedTypes then
    (if m.flavor = c!"zos" ∧ m.spec.type = c!"shared_library" then
      c!"$(builddir)/lib." ++ m.spec.toolset ++ c!"/" else c!"$(builddir)/") ++
      basename (productFile m)
  else productFile m

/-- The product is not named by variables that have another value in other makefiles. -/
def ProductPlain (m : MkSelf) : Prop :=
  ∀ x ∈ m.spec.productDir.toList ++ m.spec.productPrefix.toList ++
    m.spec.productName.toList ++ [m.spec.productExtension], RefText headerVars x

/-- What is assumed about a target by itself. -/
structure SelfOk (m : MkSelf) : Prop where
  target : TargetOk m ⟨[], []⟩
  product : ProductPlain m
  name : '/' ∉ m.spec.targetName
  actions : ∀ a ∈ m.spec.actions, a.outputs ≠ []
  rules : ∀ r ∈ m.spec.rules, ∀ s ∈ r.sources,
    (∃ o os, ruleOutputs r s = some (o :: os)) ∧ expandAll s r.action ≠ none

/-- The target with a qualified name: it lies in the directory of its build file, seen from the top
directory, and its sources are named from there, or from `$(srcdir)` if the output goes elsewhere. -/
def Described (r : MakeRun) (needed : List Str) (dicts : List (Str × MkSpec)) (q : Str)
    (m : MkSelf) : Prop :=
  ∃ buildFile target toolset spec, ParseQualifiedTarget q = (some buildFile, target, some toolset) ∧
    aget dicts q = some spec ∧
    m = { flavor := r.flavor, sha1 := r.sha1, qualified := q, spec
          srcdirPrefix := if r.generatorOutput = [] then [] else c!"$(srcdir)/"
          path := RelativePath r.cwd (dirname buildFile) r.toplevel
          partOfAll := decide (q ∈ needed) }

/-- What is assumed about all targets: each is described, and stands after those that it depends
on. -/
structure BuildOk (r : MakeRun) (needed : List Str) (dicts : List (Str × MkSpec))
    (list : List Str) : Prop where
  each : ∀ q ∈ list, ∃ m, Described r needed dicts q m ∧ SelfOk m
  order : ∀ pre q post, list = pre ++ q :: post → ∀ m, Described r needed dicts q m →
    ∀ d ∈ m.spec.dependencies, d ∈ pre

/-- The rules of the makefiles, included in some order after a header with the given variables. -/
def RulesOf (v0 : MakeVars) (files : List (Str × List MkLine)) (rules : List MakeItem) : Prop :=
  ∃ order : List (Str × List MkLine), order.Perm files ∧
    rules = rulesFrom v0 (order.flatMap (·.2))

end Gyp.Spec
