import Verif.Model.MacBundle
/-
How bundles are laid out.  On macOS an application or a plug-in has its parts in `Contents`, a framework
has them in the directory of its version; on iOS a bundle has no such directory.
-/
namespace Gyp.Spec

/-- The kinds of bundles. -/
inductive BundleKind
  | application
  | plugIn
  | framework
  deriving DecidableEq

/-- The type of the targets of a kind. -/
def BundleKind.type : BundleKind → Str
  | .application => c!"executable"
  | .plugIn => c!"loadable_module"
  | .framework => c!"shared_library"

/-- The extension that bundles of a kind have, when the target does not choose one; `plain` is not so for
an extension of an application. -/
def BundleKind.extension (plain : Bool) : BundleKind → Str
  | .application => if plain then c!"app" else c!"appex"
  | .plugIn => c!"bundle"
  | .framework => c!"framework"

/-- The directories on the way from a bundle to its parts. -/
def bundleRoot (ios : Bool) (kind : BundleKind) (version : Str) : List Str :=
  if ios then []
  else match kind with
    | .framework => [c!"Versions", version]
    | _ => [c!"Contents"]

/-- The directories on the way to its resources. -/
def bundleResourcesAt (ios : Bool) (kind : BundleKind) (version : Str) : List Str :=
  bundleRoot ios kind version ++ if ios then [] else [c!"Resources"]

/-- The directories on the way to its program. -/
def bundleProgramsAt (ios : Bool) (kind : BundleKind) (version : Str) : List Str :=
  bundleRoot ios kind version ++ if ios ∨ kind = .framework then [] else [c!"MacOS"]

/-- The directories on the way to its `Info.plist`: with the resources in a framework on macOS. -/
def bundlePlistAt (ios : Bool) (kind : BundleKind) (version : Str) : List Str :=
  if kind = .framework then bundleResourcesAt ios kind version else bundleRoot ios kind version

/-- A path from its names. -/
def bundlePath (names : List Str) : Str := joinWith c!"/" names

/-- A name of a file or a directory, as far as paths are concerned. -/
def FileName (n : Str) : Prop := n ≠ [] ∧ '/' ∉ n

/-- What a resource is called in a bundle: those that are compiled have another extension. -/
def ResourceName (name name' : Str) : Prop :=
  (∃ stem, (∃ c ∈ stem, c ≠ '.') ∧ name = stem ++ c!".xib" ∧ name' = stem ++ c!".nib") ∨
  (∃ stem, (∃ c ∈ stem, c ≠ '.') ∧ name = stem ++ c!".storyboard" ∧ name' = stem ++ c!".storyboardc") ∨
  (¬ c!".xib" <:+ name ∧ ¬ c!".storyboard" <:+ name ∧ name' = name)

end Gyp.Spec
