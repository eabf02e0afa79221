import Verif.Model.MsvsProps
/-
How MSBuild evaluates a property group: element after element; an element whose condition does
not hold is passed over; a value is taken with the references in it replaced by what the
properties are at that moment.  Names are the same in upper and lower case.
-/
namespace Gyp.Spec

open Gyp

/-- The same name in upper and lower case (ASCII). -/
def foldName (s : Str) : Str := s.map Char.toLower

/-- The characters of the name of a property: letters, digits, underscores and hyphens. -/
def propChar (c : Char) : Bool :=
  ('a' ≤ c && c ≤ 'z') || ('A' ≤ c && c ≤ 'Z') || ('0' ≤ c && c ≤ '9') || c = '_' || c = '-'

/-- A reference `$(name)` at the start of a text. -/
def propRef (s : Str) : Option Str :=
  match s with
  | '$' :: '(' :: rest =>
    if rest.takeWhile propChar ≠ [] ∧ (rest.dropWhile propChar).head? = some ')' then
      some (rest.takeWhile propChar)
    else none
  | _ => none

/-- A text with its references replaced; the number is how many characters of a reference that
was replaced are still to be passed over. -/
def expandPropsFrom (env : Str → Str) : Nat → Str → Str
  | _, [] => []
  | n + 1, _ :: cs => expandPropsFrom env n cs
  | 0, c :: cs =>
    match propRef (c :: cs) with
    | some name => env name ++ expandPropsFrom env (name.length + 2) cs
    | none => c :: expandPropsFrom env 0 cs

/-- A text with its references replaced by the values of the properties. -/
def expandProps (env : Str → Str) (s : Str) : Str := expandPropsFrom env 0 s

/-- The references in a text. -/
def propRefs : Str → List Str
  | [] => []
  | c :: cs => (propRef (c :: cs)).toList ++ propRefs cs

/-- The condition generated for a configuration and a platform, here joined as `Debug|x64`. -/
def conditionFor (active : Str) : Str := c!"'$(Configuration)|$(Platform)'=='" ++ active ++ c!"'"

/-- The properties after an element, when the given configuration and platform are built. -/
def evalElement (active : Str) (env : Str → Str) (e : PropElement) : Str → Str :=
  if e.condition.all (· == conditionFor active) then
    fun name => if foldName name = foldName e.name then expandProps env e.value else env name
  else env

/-- The properties after a group. -/
def evalGroup (active : Str) (env : Str → Str) (group : List PropElement) : Str → Str :=
  group.foldl (evalElement active) env

/-- A name of letters, digits and underscores that does not start with a digit. -/
def PlainName (s : Str) : Prop :=
  (∀ c ∈ s, c ∈ c!"abcdefghijklmnopqrstuvwxyzABCDEFGHIJKLMNOPQRSTUVWXYZ0123456789_") ∧
    ∃ c rest, s = c :: rest ∧ c ∉ c!"0123456789"

instance (s : Str) : Decidable (PlainName s) := by
  unfold PlainName
  cases s with
  | nil => exact isFalse (by rintro ⟨_, _, _, h, _⟩; cases h)
  | cons c cs =>
    refine decidable_of_iff ((∀ x ∈ c :: cs, x ∈ c!"abcdefghijklmnopqrstuvwxyzABCDEFGHIJKLMNOPQRSTUVWXYZ0123456789_") ∧
      c ∉ c!"0123456789") ?_
    constructor
    · rintro ⟨h, h'⟩; exact ⟨h, c, cs, rfl, h'⟩
    · rintro ⟨h, _, _, e, h'⟩
      obtain ⟨rfl, rfl⟩ := List.cons.inj e
      exact ⟨h, h'⟩

/-- What configurations say about properties is clear: for each configuration (of those in
`actives`) a name has one value at most (`once`); a value that is given as often as there are
configurations is given by each of them (`shared`); a value that a configuration gives more
than once does not refer to its own property (`again`); names are plain and always spelled the
same (`plain`, `spelled`, `referred`). -/
structure ClearProps (actives : List Str) (calls : List PropGiven) : Prop where
  known : ∀ g ∈ calls, ∃ a ∈ actives, g.condition = conditionFor a
  once : ∀ g ∈ calls, ∀ h ∈ calls, g.condition = h.condition → g.name = h.name → g.value = h.value
  shared : ∀ g ∈ calls, (calls.filter fun h => h.name = g.name ∧ h.value = g.value).length = actives.length →
    ∀ a ∈ actives, ⟨conditionFor a, g.name, g.value⟩ ∈ calls
  again : ∀ g ∈ calls, 1 < calls.count g → ∀ r ∈ propRefs g.value, foldName r ≠ foldName g.name
  plain : ∀ g ∈ calls, PlainName g.name
  spelled : ∀ g ∈ calls, ∀ h ∈ calls, foldName g.name = foldName h.name → g.name = h.name
  referred : ∀ g ∈ calls, ∀ h ∈ calls, ∀ r ∈ propRefs g.value, foldName r = foldName h.name → r = h.name

end Gyp.Spec

namespace Gyp.Spec

open Gyp

/-- A configuration as MSBuild names it: the name up to its last underscore, and the platform;
host tools of an arm64 build are built for x64. -/
def activeText (toolset name : Str) (c : WinConfig) : Str :=
  (match rsplit1 '_' name with
    | none => name
    | some (front, _) => front) ++ c!"|" ++
  (if toolset = c!"host" ∧ c.platform = c!"arm64" then c!"x64" else c.platform)

/-- The names the generator gives values to by itself, in lower case. -/
def ownNames : List Str :=
  [c!"intdir", c!"outdir", c!"targetname", c!"targetext", c!"targetpath", c!"executablepath"]

/-- A target whose properties are given clearly: its configurations have different names for
MSBuild and do not say attributes for MSBuild directly, the product has the same extension in
all of them, and the settings outside of tools have plain names, each once and spelled the same
everywhere, that are not those the generator uses itself. -/
structure UsualTarget (t : WinProduct) (toolset : Str) (configurations : List (Str × WinConfig × WinProject)) :
    Prop where
  apart : (configurations.map fun c => activeText toolset c.1 c.2.1).Nodup
  converted : ∀ c ∈ configurations, c.2.2.msbuildAttributes = none
  extension : ∃ e, '$' ∉ e ∧ ∀ c ∈ configurations, c.2.2.toolExt = e
  product : ∀ e, t.productExtension = some e → '$' ∉ e
  names : ∀ c ∈ configurations, ∀ s ∈ c.2.2.settings, PlainName s.1 ∧ foldName s.1 ∉ ownNames
  unique : ∀ c ∈ configurations, (c.2.2.settings.map (·.1)).Nodup
  spelled : ∀ c ∈ configurations, ∀ s ∈ c.2.2.settings, ∀ d ∈ configurations, ∀ s' ∈ d.2.2.settings,
    foldName s.1 = foldName s'.1 → s.1 = s'.1

end Gyp.Spec
