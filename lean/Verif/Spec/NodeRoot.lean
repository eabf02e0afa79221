import Verif.Spec.Path
/-
How Node.js, npm and node-gyp lie to each other.
-/
namespace Gyp.Spec

/-- The absolute path with the given names. -/
def pathOf (names : List Str) : Str := '/' :: joinWith ['/'] names

/-- node-gyp is part of the npm that comes with the Node.js in the directory `root`: in its source
tree, or installed with it (in `lib`, except on Windows). -/
inductive Bundled : Bool → List Str → List Str → Prop where
  | source {win root} : Bundled win root (root ++ [c!"deps", c!"npm", c!"node_modules", c!"node-gyp", c!"lib"])
  | installed {root} :
      Bundled false root (root ++ [c!"lib", c!"node_modules", c!"npm", c!"node_modules", c!"node-gyp", c!"lib"])
  | installedWin {root} :
      Bundled true root (root ++ [c!"node_modules", c!"npm", c!"node_modules", c!"node-gyp", c!"lib"])

/-- The directory four levels above node-gyp's own is neither `deps` nor `node_modules`. -/
def Elsewhere (script : List Str) : Prop :=
  ∀ above a b c d, script = above ++ [a, b, c, d] →
    above.getLast? ≠ some c!"deps" ∧ above.getLast? ≠ some c!"node_modules"

/-- The program `exe` of the Node.js in the directory `root`: installed in `bin`, or built in the source
tree. -/
inductive Program : Bool → List Str → List Str → Prop where
  | installed {win root exe} : Program win root (root ++ [c!"bin", exe])
  | built {root out kind exe} : (kind = c!"Release" ∨ kind = c!"Debug") →
      Program false root (root ++ [out, kind, exe])
  | builtWin {root kind exe} : (kind = c!"Release" ∨ kind = c!"Debug") → Program true root (root ++ [kind, exe])

end Gyp.Spec
