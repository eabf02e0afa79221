import Verif.Model.Flavor
/-
The system a build is for, by the documents of gyp.
-/
namespace Gyp.Spec

/-- A variable of the environment that is set, and not to nothing. -/
def IsSet (h : FlavorHost) (k v : Str) : Prop := h.env k = some v ∧ v ≠ []

/-- A variable of the environment that is not set, or set to nothing. -/
def NotSet (h : FlavorHost) (k : Str) : Prop := ∀ v, h.env k = some v → v = []

/-- A line that defines a macro. -/
def DefinesMacro (name line : Str) : Prop :=
  line = c!"#define " ++ name ∨ ∃ text, line = c!"#define " ++ name ++ c!" " ++ text

/-- What a compiler prints with `-dM`: lines, with the ends of lines of the system. -/
def IsPrinted (out : Str) (lines : List Str) : Prop :=
  lines ≠ [] ∧ (∀ l ∈ lines, '\n' ∉ l ∧ '\r' ∉ l) ∧ (out = joinWith c!"\n" lines ∨ out = joinWith c!"\r\n" lines)

/-- No variable of the environment names a compiler. -/
def NoCompiler (h : FlavorHost) : Prop :=
  NotSet h c!"CC_target" ∧ NotSet h c!"CC" ∧ NotSet h c!"CXX_target" ∧ NotSet h c!"CXX"

/-- A variable named in the command line. -/
def Given (i : LoadInput) (k : Str) (v : NvVal) : Prop := aget i.given k = some v

/-- A variable not named in the command line. -/
def NotGiven (i : LoadInput) (k : Str) : Prop := aget i.given k = none

end Gyp.Spec
