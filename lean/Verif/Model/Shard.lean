import Verif.Model.Assoc
import Verif.Model.Version
/-
Splitting targets: `gyp/pylib/gyp/MSVSUtil.py`.
-/
namespace Gyp

/-- A target dictionary as far as `ShardTargets` reads and writes it; a missing list is an
empty one, a missing `msvs_shard` is 0 and `rest` stands for all other settings.  `shards` is
the value of `int(target_dicts[t].get("msvs_shard", 0))`; a text that is no number makes
Python raise an exception, which is not modelled. -/
structure ShardTarget where
  name : Str
  shards : Int
  sources : List Str
  deps : List Str
  origDeps : List Str
  rest : Str
deriving DecidableEq

/-- MSVSUtil.py:48-59 `_SuffixName`. -/
def suffixName (name suffix : Str) : Str :=
  match rsplit1 '#' name with
  | none => name ++ c!"_" ++ suffix
  | some (a, b) => joinWith c!"#" [a ++ c!"_" ++ suffix, b]

/-- MSVSUtil.py:62-71 `_ShardName`. -/
def shardName (name : Str) (number : Nat) : Str := suffixName name (natStr number)

/-- Python `range(start, stop, step)` for natural numbers and `step > 0`: its
`⌈(stop - start) / step⌉` elements. -/
def rangeStep (start stop step : Nat) : List Nat :=
  (List.range ((stop - start + step - 1) / step)).map fun k => start + k * step

/-- MSVSUtil.py:85-89 `targets_to_shard`. -/
def toShard (dicts : List (Str × ShardTarget)) : List (Str × Int) :=
  dicts.foldl (fun acc p => if p.2.shards ≠ 0 then aset acc p.1 p.2.shards else acc) []

/-- MSVSUtil.py:91-97 and 119-125: each name, or instead of it the names of its shards. -/
def shardNames (table : List (Str × Int)) (l : List Str) : List Str :=
  l.foldl (fun acc t =>
    match aget table t with
    | some n => acc ++ (List.range n.toNat).map (shardName t)
    | none => acc ++ [t]) []

/-- MSVSUtil.py:104-112: the dictionary of one shard.  (`copy.copy` makes a new dictionary;
every list that is changed is replaced by a new one.) -/
def shardDict (d : ShardTarget) (n i : Nat) : ShardTarget :=
  { d with
    name := shardName d.name i
    sources := (rangeStep i d.sources.length n).filterMap fun pos => d.sources[pos]? }

/-- MSVSUtil.py:99-114 the new `target_dicts` before the dependencies are replaced. -/
def shardDicts (table : List (Str × Int)) (dicts : List (Str × ShardTarget)) :
    List (Str × ShardTarget) :=
  dicts.foldl (fun acc p =>
    match aget table p.1 with
    | some n => (List.range n.toNat).foldl (fun acc i =>
        aset acc (shardName p.1 i) (shardDict p.2 n.toNat i)) acc
    | none => aset acc p.1 p.2) []

/-- MSVSUtil.py:74-127 `ShardTargets`.  The last loop treats the dictionaries one by one, so
the order (`sorted`) does not matter. -/
def shardTargets (list : List Str) (dicts : List (Str × ShardTarget)) :
    List Str × List (Str × ShardTarget) :=
  let table := toShard dicts
  (shardNames table list,
    (shardDicts table dicts).map fun p =>
      (p.1, { p.2 with
        deps := shardNames table p.2.deps
        origDeps := shardNames table p.2.origDeps }))

end Gyp
