import Verif.Spec.Graph
import Verif.Model.Analyzer
/-
What the answers of the change analyzer should be, in terms of the dependency graph.
-/
namespace Gyp.Spec

/-- The direct dependencies of a target. -/
def depEdges (inp : AInput) (t : Str) : List Str :=
  match inp.dicts t with
  | none => []
  | some d => d.dependencies

/-- A target of the build: it is listed, or a listed target depends on it. -/
def InBuild (inp : AInput) (t : Str) : Prop := ∃ r ∈ inp.targetList, Reach (depEdges inp) r t

/-- A target that contains a changed file (what that means for paths is
`C46_changed_file`). -/
def ChangedTarget (inp : AInput) (t : Str) : Prop :=
  ∃ d, inp.dicts t = some d ∧ touched inp t d = .ok true

/-- A target whose build is affected: it is, or depends on, one with a changed file. -/
def Affected (inp : AInput) (t : Str) : Prop :=
  ∃ c, ChangedTarget inp c ∧ Reach (depEdges inp) t c

/-- The targets that make up `all`: those in the build files of the command line on which
nothing depends. -/
def PartOfAll (inp : AInput) (t : Str) : Prop :=
  InBuild inp t ∧ (∀ u, InBuild inp u → t ∉ depEdges inp u) ∧
    ∃ f ∈ inp.buildFiles, (ParseQualifiedTarget t).1 = some f

/-- The loader's guarantees: the targets of the build have dictionaries and build files,
no target depends on itself, and there are finitely many. -/
structure WellLoaded (inp : AInput) : Prop where
  known : ∀ t, InBuild inp t → ∃ d f included, inp.dicts t = some d ∧
    (ParseQualifiedTarget t).1 = some f ∧ inp.data f = some included
  acyclic : ∀ t, InBuild inp t → ¬ OnCycle (depEdges inp) t
  finite : ∃ U : List Str, ∀ t, InBuild inp t → t ∈ U

/-- Some order of enumerating sets. -/
def Permutes (ord : SetOrder) : Prop := ∀ site l, (ord site l).Perm l

/-- A choice of the target meant by each unqualified name: one with that name, if there
is one. -/
structure Resolves (inp : AInput) (pick : Str → Option Str) : Prop where
  named : ∀ n t, pick n = some t → InBuild inp t ∧ (ParseQualifiedTarget t).2.1 = n
  missing : ∀ n, pick n = none → ∀ t, InBuild inp t → (ParseQualifiedTarget t).2.1 ≠ n

/-- `x` is the first of the targets `ms` below itself: no earlier one is reached from it. -/
def FirstBelow (inp : AInput) (ms : List Str) (x : Str) : Prop :=
  ∃ p q, ms = p ++ x :: q ∧ ∀ m ∈ p, ¬ Reach (depEdges inp) x m

/-- The type of a target. -/
def hasType (inp : AInput) (ty : Str) (t : Str) : Prop :=
  ∃ d, inp.dicts t = some d ∧ d.type = ty

/-- Building the target does something: it is not of type `none`, or it has actions or
rules. -/
def DoesSomething (inp : AInput) (t : Str) : Prop :=
  ∃ d, inp.dicts t = some d ∧ (d.type ≠ c!"none" ∨ d.actions ≠ [] ∨ d.rules ≠ [])

/-- The rule for the set `C` of targets to compile, given the changed targets in the order
`ms` in which they are found and the supplied targets `S`: of the targets above a changed
one that are supplied or below a supplied one,
* every executable,
* what does something (or is the first changed target below itself) unless something to
  be compiled is above it already,
* every static library that is the first changed target below itself and is linked into
  nothing. -/
def CompileRule (inp : AInput) (ms : List Str) (S C : Str → Prop) : Prop :=
  ∀ t, C t ↔ InBuild inp t ∧ (∃ m ∈ ms, Reach (depEdges inp) t m) ∧
    (∃ r, InBuild inp r ∧ S r ∧ Reach (depEdges inp) r t) ∧
    (hasType inp c!"executable" t ∨
      ((¬ ∃ u, C u ∧ Reach1 (depEdges inp) u t) ∧
        (FirstBelow inp ms t ∨ DoesSomething inp t)) ∨
      (hasType inp c!"static_library" t ∧ FirstBelow inp ms t ∧
        ¬ ∃ u, InBuild inp u ∧ Reach (depEdges inp) u t ∧
          (hasType inp c!"executable" u ∨ hasType inp c!"shared_library" u)))

/-- The supplied targets: those meant by a supplied name other than `all`, and with `all`
those that make it up. -/
def Supplied (inp : AInput) (pick : Str → Option Str) (t : Str) : Prop :=
  (∃ n, (n ∈ inp.additional ∨ n ∈ inp.tests) ∧ n ≠ c!"all" ∧ pick n = some t) ∨
    ((c!"all" ∈ inp.additional ∨ c!"all" ∈ inp.tests) ∧ PartOfAll inp t)

end Gyp.Spec
