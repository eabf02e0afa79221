import Verif.Model.MsvsSolution
import Verif.Spec.MsvsSolution
import Mathlib.Logic.Relation
/-
What is assumed of the targets a solution is made of, and what is expected of it.
-/
namespace Gyp.Spec

/-- The build file of a qualified name: what stands before the last colon. -/
def fileOf (q : Str) : Str := ((q.reverse.dropWhile (· ≠ ':')).drop 1).reverse

/-- The directories leading to a file. -/
def dirNames (file : Str) : List Str := ((splitOn '/' file).filter (· ≠ [])).dropLast

/-- The name a project is shown with. -/
def projectTitle (t : SlnTarget) : Str := if t.toolset = c!"host" then t.name ++ c!"_host" else t.name

/-- Targets have distinct qualified names, made of their build file, name and toolset, and all they
depend on are targets. -/
structure SlnNamed (targets : List (Str × SlnTarget)) : Prop where
  keys : (targets.map (·.1)).Nodup
  named : ∀ x ∈ targets, x.1 = fileOf x.1 ++ c!":" ++ x.2.name ++ c!"#" ++ x.2.toolset ∧
    ':' ∉ x.2.name ∧ ':' ∉ x.2.toolset ∧ '#' ∉ x.2.toolset ∧ validName (basename (fileOf x.1))
  known : ∀ x ∈ targets, ∀ d, d ∈ x.2.spec.deps ∨ d ∈ x.2.spec.original.getD [] → d ∈ targets.map (·.1)

/-- The texts can stand in a solution file. -/
structure SlnFine (env : SlnEnv) (targets : List (Str × SlnTarget)) : Prop where
  cwd : ∀ c ∈ env.cwd, validName c ∧ slnText c
  opts : slnText env.suffix ∧ slnText env.output ∧ slnText env.ext ∧ slnText env.version ∧
    slnText env.description ∧ '/' ∉ env.suffix
  names : ∀ x ∈ targets, slnText x.1 ∧ slnText x.2.name ∧ slnText x.2.existing ∧ slnText x.2.guid
  configs : ∀ x ∈ targets, ∀ c ∈ x.2.configurations, slnText c.1 ∧ '=' ∉ c.1 ∧ slnText c.2.platform ∧
    '=' ∉ c.2.platform ∧ ∀ p, c.2.target = some p → slnText p
  guids : ∀ s n, guidText (env.makeGuid s n)

/-- Projects have names and places of their own, and no directory is named like a project file. -/
structure SlnPlaces (targets : List (Str × SlnTarget)) : Prop where
  dirs : ∀ x ∈ targets, ∀ f ∈ dirNames (fileOf x.1), ∀ b, f ≠ b ++ c!".vcproj"
  names : ∀ x ∈ targets, x.2.name ≠ []
  apart : (targets.map fun x => (dirNames (fileOf x.1), projectTitle x.2)).Nodup

/-- A target needs another: it lists it, or listed it before the dependencies of static libraries
were adjusted. -/
def SlnNeeds (targets : List (Str × SlnTarget)) (a b : Str) : Prop :=
  ∃ t, (a, t) ∈ targets ∧ (b ∈ t.spec.deps ∨ b ∈ t.spec.original.getD [])

/-- A target belongs to the solution of a build file: it is defined there, or needed. -/
def InSolution (targets : List (Str × SlnTarget)) (file q : Str) : Prop :=
  ∃ r ∈ targets, fileOf r.1 = file ∧ Relation.ReflTransGen (SlnNeeds targets) r.1 q

/-- The directory of the projects and the solution of a build file: that of the build file, below
`--generator-output` when given. -/
def slnDir (env : SlnEnv) (file : Str) : Loc := (walk (walk env.cwd.reverse env.output) file).tail

/-- The file of a project: the existing one that was named, or one of the name of the project. -/
def projectFileName (env : SlnEnv) (t : SlnTarget) : Str :=
  if t.existing ≠ [] then t.existing else projectTitle t ++ env.suffix ++ env.ext

/-- Where the project file of a target is. -/
def projectFile (env : SlnEnv) (x : Str × SlnTarget) : Loc :=
  walk (slnDir env (fileOf x.1)) (projectFileName env x.2)

/-- A configuration is shown as `v`: its name without platform, a bar and its platform. -/
def FullName (c : Str × SlnConfig) (v : Str) : Prop :=
  ∃ b, ConfigBase c.1 c.2.platform b ∧ v = b ++ c!"|" ++ c.2.platform

/-- The configurations a solution offers: those of the targets, and `Release|x64` beside
`Release|arm64`; with several toolsets only those for `arm64`. -/
def Offered (env : SlnEnv) (targets : List (Str × SlnTarget)) (v : Str) : Prop :=
  (∃ x ∈ targets, ∃ c ∈ x.2.configurations,
    FullName c v ∨ (FullName c c!"Release|arm64" ∧ v = c!"Release|x64")) ∧
  (env.multi = true → ∃ b, v = b ++ c!"arm64")

/-- What a project builds for a configuration of its own. -/
def Builds (env : SlnEnv) (t : SlnTarget) (c : Str × SlnConfig) (w : Str) : Prop :=
  if t.toolset = c!"host" ∧ env.multi = true then w = c.1 ++ c!"|x64"
  else ∃ b, ConfigBase c.1 c.2.platform b ∧ w = b ++ c!"|" ++ c.2.target.getD c.2.platform

/-- What a project builds when the solution builds `v`: what its last configuration shown as `v`
builds, and `v` when it has none. -/
def MapsTo (env : SlnEnv) (t : SlnTarget) (v w : Str) : Prop :=
  (∃ pre c post, t.configurations = pre ++ c :: post ∧ FullName c v ∧ (∀ c' ∈ post, ¬ FullName c' v) ∧
    Builds env t c w) ∨
  ((∀ c ∈ t.configurations, ¬ FullName c v) ∧ w = v)

/-- A target is the only one of the solution below its directory, and the directory has its name. -/
def OnlyInFolder (targets : List (Str × SlnTarget)) (file : Str) (x : Str × SlnTarget) : Prop :=
  (∃ pre, dirNames (fileOf x.1) = pre ++ [projectTitle x.2]) ∧
  ∀ y ∈ targets, InSolution targets file y.1 → dirNames (fileOf x.1) <+: dirNames (fileOf y.1) → y = x

/-- A reference from the project of a target that is left out: to a static library for the host, from
a project for the target, unless the project is named `run_...`. -/
def LeftOut (t d : SlnTarget) : Prop :=
  t.toolset = c!"target" ∧ d.toolset = c!"host" ∧ d.spec.type = c!"static_library" ∧
    ¬ c!"run_" <+: projectTitle d

instance (t d : SlnTarget) : Decidable (LeftOut t d) := by unfold LeftOut; infer_instance

end Gyp.Spec
