import Verif.Basic
/-
Property lists and signing: `_FindProvisioningProfile`, `_MergePlist`, `_InstallEntitlements` and
`_ExpandVariables` of /repo/gyp/pylib/gyp/mac_tool.py.  Simplified: `fnmatch` is a parameter; the
data of a profile is its pattern and its teams; reading and writing of files is left out.
-/
namespace Gyp

mutual
/-- mac_tool.py:572-583, 681-689 a value of a property list; numbers, dates and the like are `scalar`. -/
inductive Plist where
  | str (s : Str)
  | scalar (n : Int)
  | list (xs : PItems)
  | dict (d : PDict)

/-- mac_tool.py:686 the items of a list. -/
inductive PItems where
  | nil
  | cons (x : Plist) (xs : PItems)

/-- mac_tool.py:574 a dictionary, in its order. -/
inductive PDict where
  | nil
  | cons (k : Str) (v : Plist) (d : PDict)
end

/-- mac_tool.py:576 `d.get(k)` -/
def PDict.get : PDict → Str → Option Plist
  | .nil, _ => none
  | .cons k v d, x => if x = k then some v else d.get x

/-- mac_tool.py:579-583 `d[k] = v` -/
def PDict.put : PDict → Str → Plist → PDict
  | .nil, x, w => .cons x w .nil
  | .cons k v d, x, w => if x = k then .cons k w d else .cons k v (d.put x w)

mutual
/-- mac_tool.py:575-583 the new value for a key with this old value. -/
def mergeValue (old : Option Plist) : Plist → Plist
  | .dict d =>
    match old with
    | none => .dict (mergePlist .nil d)
    | some (.dict m) => .dict (mergePlist m d)
    | some _ => .dict d
  | v => v

/-- mac_tool.py:572-583 `_MergePlist`: the keys one after the other. -/
def mergePlist (m : PDict) : PDict → PDict
  | .nil => m
  | .cons k v d => mergePlist (m.put k (mergeValue (m.get k) v)) d
end

/-- mac_tool.py:434-440 `ExecMergeInfoPlist`. -/
def mergeInfoPlists (files : List PDict) : PDict := files.foldl mergePlist .nil

/-- mac_tool.py:681-684 a text. -/
def expandText (subs : List (Str × Str)) (s : Str) : Str :=
  subs.foldl (fun data kv => replaceStr (c!"$(" ++ kv.1 ++ c!")") kv.2 data) s

mutual
/-- mac_tool.py:669-689 `_ExpandVariables`. -/
def expandPlist (subs : List (Str × Str)) : Plist → Plist
  | .str s => .str (expandText subs s)
  | .scalar n => .scalar n
  | .list xs => .list (expandItems subs xs)
  | .dict d => .dict (expandDict subs d)

/-- mac_tool.py:685-686 -/
def expandItems (subs : List (Str × Str)) : PItems → PItems
  | .nil => .nil
  | .cons x xs => .cons (expandPlist subs x) (expandItems subs xs)

/-- mac_tool.py:687-688 -/
def expandDict (subs : List (Str × Str)) : PDict → PDict
  | .nil => .nil
  | .cons k v d => .cons k (expandPlist subs v) (expandDict subs d)
end

/-- mac_tool.py:662-665 keys of the profile that the entitlements lack. -/
def addMissing (data : PDict) : PDict → PDict
  | .nil => data
  | .cons k v d => addMissing (match data.get k with | none => data.put k v | some _ => data) d

/-- mac_tool.py:610-623 `_GetSubstitutions` with the prefix of line 489. -/
def signSubstitutions (bundle team : Str) : List (Str × Str) :=
  [(c!"CFBundleIdentifier", bundle), (c!"AppIdentifierPrefix", team ++ c!".")]

/-- mac_tool.py:661-666 the entitlements that are written. -/
def installEntitlements (bundle team : Str) (data overrides : PDict) : PDict :=
  addMissing (expandDict (signSubstitutions bundle team) data) overrides

/-- mac_tool.py:533-537 a provisioning profile: its path, the pattern for application identifiers and its teams. -/
structure ProvProfile where
  path : Str
  pattern : Str
  teams : List Str

/-- mac_tool.py:540-544 `d[k] = v` of a dictionary from patterns. -/
def putPattern (k : Str) (v : Str × Str) : List (Str × (Str × Str)) → List (Str × (Str × Str))
  | [] => [(k, v)]
  | (k', v') :: rest => if k = k' then (k, v) :: rest else (k', v') :: putPattern k v rest

/-- mac_tool.py:537-544 the teams of one profile. -/
def addTeams (fnmatch : Str → Str → Bool) (bundle : Str) (p : ProvProfile) :
    List Str → List (Str × (Str × Str)) → List (Str × (Str × Str))
  | [], valid => valid
  | t :: ts, valid =>
    addTeams fnmatch bundle p ts
      (if fnmatch (t ++ c!"." ++ bundle) p.pattern then putPattern p.pattern (p.path, t) valid else valid)

/-- mac_tool.py:531-544 `valid_provisioning_profiles`. -/
def validProfiles (fnmatch : Str → Str → Bool) (bundle : Str) (ps : List ProvProfile) : List (Str × (Str × Str)) :=
  ps.foldl (fun valid p => addTeams fnmatch bundle p p.teams valid) []

/-- mac_tool.py:554 `max` by the length of keys: the first of the longest. -/
def longestPattern : List (Str × (Str × Str)) → Option (Str × (Str × Str))
  | [] => none
  | e :: es =>
    match longestPattern es with
    | none => some e
    | some f => if e.1.length < f.1.length then some f else some e

/-- mac_tool.py:522-530 the profiles that are looked at: the named one if its file is there, else
all. -/
def profilesToTry (named : Option ProvProfile) (all : List ProvProfile) : List ProvProfile :=
  match named with
  | some p => [p]
  | none => all

/-- mac_tool.py:492-555 `_FindProvisioningProfile`: path and team; `none` is the exit with code 1. -/
def findProfile (fnmatch : Str → Str → Bool) (bundle : Str) (named : Option ProvProfile) (all : List ProvProfile) :
    Option (Str × Str) :=
  (longestPattern (validProfiles fnmatch bundle (profilesToTry named all))).map (·.2)

end Gyp
