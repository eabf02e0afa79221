import Verif.Model.Shard
import Verif.Model.Splitext
/-
Targets with large PDB files: `InsertLargePdbShims` of /repo/gyp/pylib/gyp/MSVSUtil.py.
-/
namespace Gyp

/-- A configuration of a target as far as `InsertLargePdbShims` reads and writes it: three keys of
its own, two keys of `msvs_settings.VCCLCompilerTool`, two of `msvs_settings.VCLinkerTool`, and
`rest` for everything else.  A missing tool is one without keys. -/
structure PdbConfig where
  pchHeader : Option Str := none
  pchSource : Option Str := none
  test : Option Str := none
  debugFormat : Option Str := none
  compilerPdb : Option Str := none
  genDebug : Option Str := none
  linkerPdb : Option Str := none
  rest : Str := []
deriving DecidableEq

/-- A target dictionary as far as `InsertLargePdbShims` reads and writes it; `large` is whether
`int(target_dict.get("msvs_large_pdb", 0))` is not 0, `pdbVar` the variable `msvs_large_pdb_path`,
and `rest` everything else.  Simplified: targets share no configurations. -/
structure PdbTarget where
  name : Str
  type : Str
  productName : Option Str := none
  pdbVar : Option Str := none
  large : Bool := false
  configs : List (Str × PdbConfig) := []
  defaultConfig : Option Str := none
  toolset : Option Str := none
  sources : List Str := []
  copies : List (Str × List Str) := []
  deps : List Str := []
  rest : Str := []
deriving DecidableEq

/-- What the generator and the place of gyp decide: `vars["PRODUCT_DIR"]`,
`vars["SHARED_INTERMEDIATE_DIR"]` and MSVSUtil.py:22-28 `_GetLargePdbShimCcPath()`. -/
structure PdbVars where
  productDir : Str
  sharedDir : Str
  shimCc : Str

/-- MSVSUtil.py:12-19 `TARGET_TYPE_EXT`. -/
def targetTypeExt : List (Str × Str) :=
  [(c!"executable", c!"exe"), (c!"loadable_module", c!"dll"), (c!"shared_library", c!"dll"),
   (c!"static_library", c!"lib"), (c!"windows_driver", c!"sys")]

/-- MSVSUtil.py:130-164 `_GetPdbPath`; `none` is a `KeyError`. -/
def getPdbPath (v : PdbVars) (d : PdbTarget) (c : PdbConfig) : Option Str :=
  let path := c.linkerPdb.getD []
  if path ≠ [] then some path
  else
    let path := d.pdbVar.getD []
    if path ≠ [] then some path
    else
      (aget targetTypeExt d.type).map fun ext =>
        v.productDir ++ c!"/" ++ (d.productName.getD d.name ++ c!"." ++ ext ++ c!".pdb")

/-- MSVSUtil.py:234-245 the configuration of the shim. -/
def shimConfig (c : PdbConfig) (path : Str) : PdbConfig :=
  { c with
    pchHeader := none, pchSource := none, test := none
    debugFormat := some c!"3", compilerPdb := some path }

/-- MSVSUtil.py:247-253 the configuration of the target itself. -/
def pdbConfig (c : PdbConfig) (path : Str) : PdbConfig :=
  { c with genDebug := some c!"true", linkerPdb := some path }

/-- MSVSUtil.py:231-232 the paths for all configurations. -/
def pdbPaths (v : PdbVars) (d : PdbTarget) : Option (List Str) :=
  d.configs.mapM fun c => getPdbPath v d c.2

/-- MSVSUtil.py:208, 210. -/
def copySuffix : Str := c!"large_pdb_copy"

/-- MSVSUtil.py:222, 224. -/
def shimSuffix : Str := c!"large_pdb_shim"

/-- MSVSUtil.py:212. -/
def shimCcDir (v : PdbVars) (d : PdbTarget) : Str := v.sharedDir ++ c!"/" ++ (d.name ++ c!"_" ++ copySuffix)

/-- MSVSUtil.py:199-201, 214-219 the target that copies the source. -/
def pdbCopyDict (v : PdbVars) (d : PdbTarget) : PdbTarget :=
  { name := d.name ++ c!"_" ++ copySuffix
    type := c!"none"
    configs := d.configs, defaultConfig := d.defaultConfig, toolset := d.toolset
    sources := [v.shimCc]
    copies := [(shimCcDir v d, [v.shimCc])] }

/-- MSVSUtil.py:199-201, 225-245 the target that makes the PDB file. -/
def pdbShimDict (v : PdbVars) (t : Str) (d : PdbTarget) (paths : List Str) : PdbTarget :=
  { name := d.name ++ c!"_" ++ shimSuffix
    type := c!"static_library"
    configs := (d.configs.zip paths).map fun x => (x.1.1, shimConfig x.1.2 x.2)
    defaultConfig := d.defaultConfig, toolset := d.toolset
    sources := [shimCcDir v d ++ c!"/" ++ basename v.shimCc]
    deps := [suffixName t copySuffix] }

/-- MSVSUtil.py:247-253, 263 the target itself. -/
def pdbOwnDict (t : Str) (d : PdbTarget) (paths : List Str) : PdbTarget :=
  { d with
    configs := (d.configs.zip paths).map fun x => (x.1.1, pdbConfig x.1.2 x.2)
    deps := d.deps ++ [suffixName t shimSuffix] }

/-- MSVSUtil.py:195-263 one target. -/
def insertShim (v : PdbVars) (st : List Str × List (Str × PdbTarget)) (t : Str) :
    Option (List Str × List (Str × PdbTarget)) :=
  match aget st.2 t with
  | none => none
  | some d =>
    match pdbPaths v d with
    | none => none
    | some paths =>
      let dicts := aset st.2 t (pdbOwnDict t d paths)
      let dicts := aset dicts (suffixName t copySuffix) (pdbCopyDict v d)
      let dicts := aset dicts (suffixName t shimSuffix) (pdbShimDict v t d paths)
      some (suffixName t shimSuffix :: suffixName t copySuffix :: st.1, dicts)

/-- MSVSUtil.py:180-191 `targets_to_shim`. -/
def targetsToShim (dicts : List (Str × PdbTarget)) : List Str :=
  (dicts.filter fun p => p.2.large).map Prod.fst

/-- MSVSUtil.py:167-265 `InsertLargePdbShims`. -/
def insertLargePdbShims (v : PdbVars) (list : List Str) (dicts : List (Str × PdbTarget)) :
    Option (List Str × List (Str × PdbTarget)) :=
  (targetsToShim dicts).foldlM (insertShim v) (list, dicts)

end Gyp
