import Verif.Model.LargePdb
/-
Which PDB file a target has in a configuration, and the names of the targets added for it.
-/
namespace Gyp.Spec

/-- Nothing is given, or the empty text. -/
def PdbNotGiven (o : Option Str) : Prop := o = none ∨ o = some []

/-- The extension of the product. -/
inductive ProductExt : Str → Str → Prop
  | exe : ProductExt c!"executable" c!"exe"
  | module : ProductExt c!"loadable_module" c!"dll"
  | shared : ProductExt c!"shared_library" c!"dll"
  | static : ProductExt c!"static_library" c!"lib"
  | driver : ProductExt c!"windows_driver" c!"sys"

/-- The PDB file of a target in a configuration: the one given to the linker, or else the one for
the whole target, or else one named like the product, in the directory of products. -/
inductive PdbOf (v : PdbVars) (d : PdbTarget) (c : PdbConfig) : Str → Prop
  | linker {p : Str} : c.linkerPdb = some p → p ≠ [] → PdbOf v d c p
  | variable {p : Str} : PdbNotGiven c.linkerPdb → d.pdbVar = some p → p ≠ [] → PdbOf v d c p
  | product {base ext : Str} : PdbNotGiven c.linkerPdb → PdbNotGiven d.pdbVar →
      (d.productName = some base ∨ d.productName = none ∧ base = d.name) → ProductExt d.type ext →
      PdbOf v d c (v.productDir ++ '/' :: base ++ '.' :: ext ++ c!".pdb")

/-- The qualified name `full` with `_word` at the end of the name of the target: before the last `#`,
behind which is the toolset, or at the end if there is no `#`. -/
def WithWord (word full new : Str) : Prop :=
  ('#' ∉ full ∧ new = full ++ '_' :: word) ∨
  ∃ a b, full = a ++ '#' :: b ∧ '#' ∉ b ∧ new = a ++ '_' :: word ++ '#' :: b

/-- No two targets have one name, and none has a name that will be given to an added one. -/
def NoPdbClash (dicts : List (Str × PdbTarget)) : Prop :=
  (akeys dicts).Nodup ∧ ∀ t d, (t, d) ∈ dicts → d.large = true → ∀ new ∈ akeys dicts,
    ¬ WithWord c!"large_pdb_copy" t new ∧ ¬ WithWord c!"large_pdb_shim" t new

end Gyp.Spec
