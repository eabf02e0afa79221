import Verif.Basic
import Verif.Spec.Path
/-
How a Visual Studio solution file is read, and what its parts mean.

A solution is a text of lines.  `Project("KIND") = "NAME", "PATH", "GUID"` up to `EndProject`
is an entry; inside it the section `ProjectDependencies` lists the entries to be built first.  The
sections of `Global` are lists of `KEY = VALUE` lines: `SolutionConfigurationPlatforms` the
configurations, `ProjectConfigurationPlatforms` what to build in each, `NestedProjects` which entry
is shown inside which folder.
-/
namespace Gyp.Spec

/-- The kind of an entry that is a project. -/
def projectKind : Str := c!"{8BC9CEB8-8B4A-11D0-8D11-00A0C91BC942}"

/-- The kind of an entry that is a folder. -/
def folderKind : Str := c!"{2150E333-8FDC-42A3-9474-1A3956D46DE8}"

/-- An entry of a solution. -/
structure SlnRecord where
  kind : Str
  name : Str
  path : Str
  guid : Str
  dependencies : List Str
deriving DecidableEq

/-- A section: its name and its lines. -/
structure SlnSection where
  name : Str
  pairs : List (Str × Str)
deriving DecidableEq

/-- What a reader of the lines knows so far: the entries and global sections read, the entry and the
section it is inside of. -/
structure SlnState where
  records : List SlnRecord := []
  sections : List SlnSection := []
  record : Option SlnRecord := none
  inside : Option SlnSection := none
deriving DecidableEq

/-- `KEY = VALUE`: split at the first ` = `. -/
def splitEq : Str → Option (Str × Str)
  | [] => none
  | c :: s =>
    if startsWith (c :: s) c!" = " then some ([], (c :: s).drop 3)
    else (splitEq s).map fun p => (c :: p.1, p.2)

/-- What stands between the parentheses of a section line. -/
def sectionName (line : Str) : Str :=
  ((line.dropWhile (· ≠ '(')).drop 1).takeWhile (· ≠ ')')

/-- Reading one line. -/
def slnLine (st : SlnState) (line : Str) : SlnState :=
  if startsWith line c!"Project(" then
    match splitOn '"' line with
    | [_, kind, _, name, _, path, _, guid, _] => { st with record := some ⟨kind, name, path, guid, []⟩ }
    | _ => st
  else if line = c!"EndProject" then
    { st with records := st.records ++ st.record.toList, record := none }
  else if startsWith line c!"\tProjectSection(" ∨ startsWith line c!"\tGlobalSection(" then
    { st with inside := some ⟨sectionName line, []⟩ }
  else if line = c!"\tEndProjectSection" then
    { st with
      record := st.record.map fun r => match st.inside with
        | some s => if s.name = c!"ProjectDependencies" then { r with dependencies := s.pairs.map (·.1) }
          else r
        | none => r
      inside := none }
  else if line = c!"\tEndGlobalSection" then
    { st with sections := st.sections ++ st.inside.toList, inside := none }
  else if startsWith line c!"\t\t" then
    { st with inside := st.inside.map fun s => { s with pairs := s.pairs ++ (splitEq (line.drop 2)).toList } }
  else st

/-- The lines of a text: up to each newline, without the carriage return. -/
def slnLines (text : Str) : List Str :=
  (splitOn '\n' text).map fun l => if l.getLast? = some '\r' then l.dropLast else l

/-- Reading a solution. -/
def readSln (text : Str) : SlnState := (slnLines text).foldl slnLine {}

/-- The projects of a solution. -/
def SlnState.projects (s : SlnState) : List SlnRecord := s.records.filter fun r => r.kind = projectKind

/-- The lines of the global sections of a name. -/
def SlnState.section_ (s : SlnState) (name : Str) : List (Str × Str) :=
  (s.sections.filter fun x => x.name = name).flatMap (·.pairs)

/-- The place a path in a solution means: backslashes separate names. -/
def slnWalk (at_ : Loc) (path : Str) : Loc :=
  walk at_ (path.map fun c => if c = '\\' then '/' else c)

/-- The folders an entry is shown in, outermost first. -/
inductive ShownIn (s : SlnState) : Str → List Str → Prop where
  | top (g : Str) (h : ∀ p ∈ s.section_ c!"NestedProjects", p.1 ≠ g) : ShownIn s g []
  | inside (g : Str) (r : SlnRecord) (names : List Str)
      (h : (g, r.guid) ∈ s.section_ c!"NestedProjects") (hr : r ∈ s.records)
      (hk : r.kind = folderKind) (hs : ShownIn s r.guid names) : ShownIn s g (names ++ [r.name])

/-- The name of a configuration without its platform: `Debug_x64` for the platform `x64` is
`Debug`. -/
def ConfigBase (name platform base : Str) : Prop :=
  name = base ++ '_' :: platform ∨ (name = base ∧ ¬ ∃ b, name = b ++ '_' :: platform)

/-- A text that can stand in a line of a solution. -/
def slnText (s : Str) : Prop := ∀ c ∈ s, c ≠ '"' ∧ c ≠ '\n' ∧ c ≠ '\r' ∧ c ≠ '\\'

instance (s : Str) : Decidable (slnText s) := by unfold slnText; infer_instance

/-- A GUID: hexadecimal digits and dashes between braces. -/
def guidText (s : Str) : Prop := ∀ c ∈ s, c ∈ c!"{}-0123456789ABCDEF"

instance (s : Str) : Decidable (guidText s) := by unfold guidText; infer_instance

end Gyp.Spec
