import Verif.Model.Value
/-
What a well-formed target is, and what the extension of a file is.
-/
namespace Gyp.Spec

/-- The last component of `source` is a name, a dot and `ext`; the name is not made of dots
only. -/
def Dotted (source ext : Str) : Prop :=
  ∃ dir name, source = dir ++ name ++ c!"." ++ ext ∧ (dir = [] ∨ ∃ d, dir = d ++ c!"/") ∧
    '/' ∉ name ∧ '/' ∉ ext ∧ '.' ∉ ext ∧ ∃ c ∈ name, c ≠ '.'

/-- `ext` is the extension of the file, without its dot; a file without one has the empty
extension. -/
def ExtensionOf (source ext : Str) : Prop :=
  Dotted source ext ∨ ext = [] ∧ ∀ e, ¬ Dotted source e

/-- A value that counts as true in Python. -/
def True_ : Val → Prop
  | .str s => s ≠ []
  | .int i => i ≠ 0
  | .list l => l ≠ []
  | .dict d => d ≠ []
  | .other => False

/-- The setting is there and counts as true. -/
def Says (d : Dict) (key : Str) (v : Val) : Prop := d.get? key = some v ∧ True_ v

/-- The types of targets. -/
inductive KnownType : Str → Prop
  | executable : KnownType c!"executable"
  | loadable : KnownType c!"loadable_module"
  | static : KnownType c!"static_library"
  | shared : KnownType c!"shared_library"
  | kernel : KnownType c!"mac_kernel_extension"
  | none : KnownType c!"none"
  | driver : KnownType c!"windows_driver"

/-- Name and extension (given with or without a dot) of a rule. -/
def RuleInfo (rule : Dict) (name ext : Str) : Prop :=
  rule.get? c!"rule_name" = some (.str name) ∧
    ∃ e, rule.get? c!"extension" = some (.str e) ∧
      (e = c!"." ++ ext ∨ e = ext ∧ ∀ r, e ≠ c!"." ++ r)

/-- The texts of several lists one after the other; absent lists are empty. -/
inductive AllSources (td : Dict) : List Str → List Str → Prop
  | nil : AllSources td [] []
  | absent {key keys l} : td.get? key = none → AllSources td keys l → AllSources td (key :: keys) l
  | list {key keys l} (own : List Str) : td.get? key = some (.list (own.map .str)) →
      AllSources td keys l → AllSources td (key :: keys) (own ++ l)

open Classical in
/-- `rule'` is the rule together with the sources it applies to. -/
def WithSources (all : List Str) (ext : Str) (rule rule' : Dict) : Prop :=
  let mine := all.filter fun s => ExtensionOf s ext
  rule' = if mine = [] then rule else rule.set c!"rule_sources" (.list (mine.map .str))

/-- A correct `run_as`. -/
structure GoodRunAs (r : Dict) : Prop where
  action : ∃ l, Says r c!"action" (.list l)
  directory : ∀ v, Says r c!"working_directory" v → ∃ s, v = .str s
  environment : ∀ v, Says r c!"environment" v → ∃ e, v = .dict e

/-- A correct action: it has a name and inputs, and its command, if any, is a text or a list
that begins with something. -/
structure GoodAction (a : Dict) : Prop where
  name : ∃ v, Says a c!"action_name" v
  inputs : ∃ v, a.get? c!"inputs" = some v ∧ v ≠ .other
  command : ∀ v, Says a c!"action" v →
    (∃ s, v = .str s) ∨ ∃ x l, v = .list (x :: l) ∧ True_ x

mutual

/-- `v'` is `v` with every number written as a text, at any depth. -/
inductive NumbersWritten : Val → Val → Prop
  | int {i} : NumbersWritten (.int i) (.str (toString i).toList)
  | str {s} : NumbersWritten (.str s) (.str s)
  | other : NumbersWritten .other .other
  | list {l l'} : ListWritten l l' → NumbersWritten (.list l) (.list l')
  | dict {d d'} : DictWritten d d' → NumbersWritten (.dict d) (.dict d')

inductive ListWritten : List Val → List Val → Prop
  | nil : ListWritten [] []
  | cons {v v' l l'} : NumbersWritten v v' → ListWritten l l' → ListWritten (v :: l) (v' :: l')

inductive DictWritten : List (Str × Val) → List (Str × Val) → Prop
  | nil : DictWritten [] []
  | cons {k v v' d d'} : NumbersWritten v v' → DictWritten d d' →
      DictWritten ((k, v) :: d) ((k, v') :: d')

end

end Gyp.Spec
