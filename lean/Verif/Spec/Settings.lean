import Verif.Model.Merge
import Verif.Model.Targets
/-
Passing settings on: a target takes over settings of others, one after the other.
-/
namespace Gyp.Spec

/-- The settings that the given targets have for others, in order. -/
def offered (settings : Str → Option Dict) : List Str → List (Str × Dict)
  | [] => []
  | d :: rest =>
    match settings d with
    | none => offered settings rest
    | some s => (d, s) :: offered settings rest

/-- `TakesOver cwd ps target offers own result`: merging the offers one by one into the
dictionary of `target` (each from the file of the target that offers it) gives `result`. -/
inductive TakesOver (cwd pathSections : List Str) (target : Str) :
    List (Str × Dict) → Dict → Dict → Prop
  | nil {d} : TakesOver cwd pathSections target [] d d
  | cons {from_ s rest d d1 d2} :
      MergeDicts ⟨cwd, pathSections, (BuildFile target).getD [], (BuildFile from_).getD []⟩ d s = .ok d1 →
      TakesOver cwd pathSections target rest d1 d2 →
      TakesOver cwd pathSections target ((from_, s) :: rest) d d2

end Gyp.Spec
