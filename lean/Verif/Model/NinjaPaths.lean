import Verif.Model.Path
import Verif.Model.Splitext
import Verif.Model.Build
/-
Paths and names of the ninja generator: gyp/generator/ninja.py:68-71, 214-357, 1792-1890 and 1925-1929.

Modelled for flavors other than `mac` and `win`, and for targets that are no bundles, so environments are empty
and there are no architectures.  Assertions are `none`.
-/
namespace Gyp

/-- What a writer of a target knows (ninja.py:214-258, 386-388). -/
structure NinjaCtx where
  name : Str
  toolset : Str
  baseDir : Str
  buildToBase : Str
  baseToBuild : Str
  config : Str
  hash : Str

/-- ninja.py:215-258 `NinjaWriter.__init__`; `top` is `toplevel_dir`. -/
def ninjaCtx (cwd : List Str) (top baseDir buildDir name toolset config hash : Str) : NinjaCtx where
  name := name
  toolset := toolset
  baseDir := baseDir
  buildToBase := pathJoin (InvertRelativePath cwd buildDir (some top)) baseDir
  baseToBuild := pathJoin (InvertRelativePath cwd baseDir (some top)) buildDir
  config := config
  hash := hash

/-- ninja.py:344-346 the directory of objects. -/
def ninjaObj (toolset : Str) : Str := if toolset = c!"target" then c!"obj" else c!"obj." ++ toolset

/-- ninja.py:348-357 the rest of `GypPathToUniqueOutput`. -/
def uniquePlace (x : NinjaCtx) (path : Str) (qualified : Bool) : Str :=
  let base := if qualified then x.name ++ '.' :: basename path else basename path
  normpath (pathJoinAll [ninjaObj x.toolset, x.baseDir, dirname path, base])

/-- ninja.py:260-289 `ExpandSpecial`; an empty `productDir` is `None`.  Replacing a text that does not occur
changes nothing, so the tests `in` are left out; the path `gen` has nothing to expand. -/
def expandSpecial (x : NinjaCtx) (productDir path : Str) : Str :=
  let path :=
    if productDir = [] then
      replaceStr c!"$!PRODUCT_DIR" c!"." (replaceStr c!"$!PRODUCT_DIR\\" [] (replaceStr c!"$!PRODUCT_DIR/" [] path))
    else replaceStr c!"$!PRODUCT_DIR" productDir path
  let path := replaceStr c!"$!INTERMEDIATE_DIR" (pathJoin productDir (uniquePlace x c!"gen" true)) path
  replaceStr c!"$|CONFIGURATION_NAME" x.config path

/-- ninja.py:291-299 `ExpandRuleVariables` -/
def expandRuleVariables (path root dir source ext name : Str) : Str :=
  let path := replaceStr c!"${root}" root path
  let path := replaceStr c!"${dirname}" dir path
  let path := replaceStr c!"${source}" source path
  let path := replaceStr c!"${ext}" ext path
  replaceStr c!"${name}" name path

/-- ninja.py:301-319 `GypPathToNinja` -/
def gypPathToNinja (x : NinjaCtx) (path : Str) : Option Str :=
  if startsWith path c!"$!" then some (expandSpecial x [] path)
  else
    let path := if hasSub c!"$|" path then expandSpecial x [] path else path
    if '$' ∈ path then none else some (normpath (pathJoin x.buildToBase path))

/-- ninja.py:321-357 `GypPathToUniqueOutput` -/
def gypPathToUniqueOutput (x : NinjaCtx) (path : Str) (qualified : Bool) : Option Str :=
  let path := expandSpecial x [] path
  if startsWith path c!"$" then none
  else if isAbs (dirname path) then none
  else some (uniquePlace x path qualified)

/-- What a target says about its product (ninja.py:1792-1890). -/
structure NinjaProduct where
  type : Str
  targetName : Str
  productName : Option Str := none
  productPrefix : Option Str := none
  productExtension : Str := []
  productDir : Option Str := none
  standalone : Bool := false

/-- ninja.py:1802-1808 and 28-33 the usual prefix. -/
def ninjaPrefix (type : Str) : Str :=
  if type ∈ [c!"loadable_module", c!"shared_library", c!"static_library"] then c!"lib" else []

/-- ninja.py:1812-1819, 28-33 and 2038 the usual extension. -/
def ninjaExtension (type : Str) : Str :=
  if type ∈ [c!"loadable_module", c!"shared_library"] then c!".so"
  else if type = c!"static_library" then c!".a" else []

/-- ninja.py:1792-1841 `ComputeOutputFileName`; `none` is an exception. -/
def ninjaFileName (p : NinjaProduct) : Option Str :=
  let pre := p.productPrefix.getD (ninjaPrefix p.type)
  let extension := if p.productExtension ≠ [] then '.' :: p.productExtension else ninjaExtension p.type
  let target := match p.productName with
    | some n => n
    | none => if pre = c!"lib" ∧ startsWith p.targetName c!"lib" then p.targetName.drop 3 else p.targetName
  if p.type ∈ [c!"static_library", c!"loadable_module", c!"shared_library", c!"executable"] then
    some (pre ++ target ++ extension)
  else if p.type = c!"none" then some (target ++ c!".stamp")
  else none

/-- ninja.py:1843-1890 `ComputeOutput`; `none` is an exception. -/
def ninjaComputeOutput (x : NinjaCtx) (p : NinjaProduct) : Option Str :=
  match ninjaFileName p with
  | none => none
  | some file =>
    match p.productDir with
    | some dir => some (expandSpecial x [] (pathJoin dir file))
    | none =>
      if p.type ∈ [c!"executable", c!"loadable_module"] ∨ p.standalone then some file
      else if p.type = c!"shared_library" then
        some (pathJoin (if x.toolset = c!"target" then c!"lib" else pathJoin c!"lib" x.toolset) file)
      else gypPathToUniqueOutput x file false

/-- ninja.py:1925-1929 the name of a rule for an action or a rule of the target. -/
def ninjaRuleName (x : NinjaCtx) (name : Str) : Str :=
  (x.name ++ (if x.toolset = c!"target" then '.' :: x.toolset else []) ++ '.' :: (name ++ '_' :: x.hash)).map fun c =>
    if c.isAlphanum || c = '_' then c else '_'

end Gyp
