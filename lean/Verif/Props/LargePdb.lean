import Verif.Proofs.LargePdb
import Mathlib.Data.List.Forall2
/-
C122: targets with large PDB files get a helper that makes the PDB file first, at the same place.
-/
namespace Gyp
open Spec

/-- A target with a path for the linker in one configuration. -/
def exBig : PdbTarget :=
  { name := c!"app", type := c!"executable", large := true
    configs := [(c!"Debug", { pchHeader := some c!"p.h", rest := c!"x" }),
      (c!"Release", { linkerPdb := some c!"r.pdb", test := some c!"1" })]
    deps := [c!"a.gyp:base#target"], sources := [c!"app.cc"] }

/-- A target that is not marked. -/
def exPdbBase : PdbTarget := { name := c!"base", type := c!"static_library" }

/-- The targets. -/
def exPdbDicts : List (Str × PdbTarget) := [(c!"a.gyp:base#target", exPdbBase), (c!"a.gyp:app#target", exBig)]

/-- Where things are. -/
def exPdbVars : PdbVars := { productDir := c!"out", sharedDir := c!"gen", shimCc := c!"/gyp/large-pdb-shim.cc" }

theorem exPdb_noClash : NoPdbClash exPdbDicts := by
  refine ⟨by decide, ?_⟩
  intro t d h hl new hn
  simp only [exPdbDicts, List.mem_cons, Prod.mk.injEq, List.not_mem_nil, or_false] at h
  rcases h with ⟨rfl, rfl⟩ | ⟨rfl, rfl⟩
  · cases hl
  · simp only [exPdbDicts, akeys, List.map_cons, List.map_nil, List.mem_cons, List.not_mem_nil, or_false] at hn
    constructor <;> intro hw <;> have e := word_suffixName hw <;> rcases hn with rfl | rfl <;>
      exact absurd e (by decide)

example : ((insertLargePdbShims exPdbVars (akeys exPdbDicts) exPdbDicts).map Prod.fst) =
    some [c!"a.gyp:app_large_pdb_shim#target", c!"a.gyp:app_large_pdb_copy#target",
      c!"a.gyp:base#target", c!"a.gyp:app#target"] := by decide +kernel

/-- **C122 (the list of targets).** For each marked target two are put in front of all that was
there, first the shim and then the copy; nothing else is changed in the list. -/
theorem C122_list {v : PdbVars} {list : List Str} {dicts : List (Str × PdbTarget)} (hc : NoPdbClash dicts)
    {list' : List Str} {dicts' : List (Str × PdbTarget)}
    (h : insertLargePdbShims v list dicts = some (list', dicts')) :
    ∃ added, list' = added.flatten ++ list ∧
      List.Forall₂ (fun p l => ∃ shim copy, l = [shim, copy] ∧
          WithWord c!"large_pdb_shim" p.1 shim ∧ WithWord c!"large_pdb_copy" p.1 copy)
        (dicts.filter fun p => p.2.large).reverse added := by
  have hl := (loop_some _ _ _ (clash_loopFree hc) h).1
  refine ⟨((dicts.filter fun p => p.2.large).reverse).map fun p =>
    [suffixName p.1 shimSuffix, suffixName p.1 copySuffix], ?_, ?_⟩
  · simp only at hl
    rw [hl, targetsToShim, ← List.map_reverse, List.flatMap_map, List.flatMap_def]
  · rw [List.forall₂_map_right_iff]
    exact List.forall₂_same.mpr fun p _ => ⟨_, _, rfl, suffixName_word _ _, suffixName_word _ _⟩

/-- **C122 (the target itself).** A marked target depends also on its shim, after all others; in
each configuration its linker makes debug information in the PDB file asked for; all else stays. -/
theorem C122_target {v : PdbVars} {list : List Str} {dicts : List (Str × PdbTarget)} (hc : NoPdbClash dicts)
    {list' : List Str} {dicts' : List (Str × PdbTarget)}
    (h : insertLargePdbShims v list dicts = some (list', dicts'))
    {t : Str} {d : PdbTarget} (ht : (t, d) ∈ dicts) (hm : d.large = true)
    {shim : Str} (hs : WithWord c!"large_pdb_shim" t shim) :
    ∃ d', aget dicts' t = some d' ∧
      d' = { d with configs := d'.configs, deps := d.deps ++ [shim] } ∧
      List.Forall₂ (fun c c' => c'.1 = c.1 ∧ ∃ p, PdbOf v d c.2 p ∧
          c'.2 = { c.2 with genDebug := some c!"true", linkerPdb := some p })
        d.configs d'.configs := by
  obtain ⟨d0, paths, e1, e2, e3, -, -⟩ :=
    (loop_some _ _ _ (clash_loopFree hc) h).2.1 t (mem_targetsToShim.mpr ⟨d, ht, hm⟩)
  simp only at e1
  rw [aget_of_mem hc.1 ht] at e1
  cases e1
  exact ⟨_, e3, by rw [word_suffixName hs]; rfl, zip_configs (f := pdbConfig) (pdbMapM_forall₂ e2)⟩

/-- **C122 (the helpers).** The shim is a static library of one source, in the same configurations,
that writes in each its debug information to the PDB file of the target; it uses no precompiled
header and is no test.  It depends on the copy, which copies this source to where the shim has it,
and does nothing else. -/
theorem C122_helpers {v : PdbVars} {list : List Str} {dicts : List (Str × PdbTarget)} (hc : NoPdbClash dicts)
    {list' : List Str} {dicts' : List (Str × PdbTarget)}
    (h : insertLargePdbShims v list dicts = some (list', dicts'))
    {t : Str} {d : PdbTarget} (ht : (t, d) ∈ dicts) (hm : d.large = true)
    {shim copy : Str} (hs : WithWord c!"large_pdb_shim" t shim) (hk : WithWord c!"large_pdb_copy" t copy) :
    ∃ dir s k, aget dicts' shim = some s ∧ aget dicts' copy = some k ∧
      dir = v.sharedDir ++ '/' :: d.name ++ c!"_large_pdb_copy" ∧
      k = { name := d.name ++ c!"_large_pdb_copy", type := c!"none", sources := [v.shimCc],
            copies := [(dir, [v.shimCc])],
            configs := d.configs, defaultConfig := d.defaultConfig, toolset := d.toolset } ∧
      s = { name := d.name ++ c!"_large_pdb_shim", type := c!"static_library",
            sources := [dir ++ '/' :: basename v.shimCc], deps := [copy],
            configs := s.configs, defaultConfig := d.defaultConfig, toolset := d.toolset } ∧
      List.Forall₂ (fun c c' => c'.1 = c.1 ∧ ∃ p, PdbOf v d c.2 p ∧
          c'.2 = { c.2 with pchHeader := none, pchSource := none, test := none,
                            debugFormat := some c!"3", compilerPdb := some p })
        d.configs s.configs := by
  obtain ⟨d0, paths, e1, e2, -, e4, e5⟩ :=
    (loop_some _ _ _ (clash_loopFree hc) h).2.1 t (mem_targetsToShim.mpr ⟨d, ht, hm⟩)
  simp only at e1
  rw [aget_of_mem hc.1 ht] at e1
  cases e1
  rw [word_suffixName hs, word_suffixName hk]
  refine ⟨shimCcDir v d, _, _, e5, e4, ?_, ?_, ?_, zip_configs (f := shimConfig) (pdbMapM_forall₂ e2)⟩
  · simp [shimCcDir, copySuffix]
  · simp [pdbCopyDict, copySuffix]
  · simp [pdbShimDict, shimSuffix, copySuffix]

/-- **C122 (one PDB file).** In each configuration the shim's compiler and the target's linker are
told the same PDB file. -/
theorem C122_agree {v : PdbVars} {list : List Str} {dicts : List (Str × PdbTarget)} (hc : NoPdbClash dicts)
    {list' : List Str} {dicts' : List (Str × PdbTarget)}
    (h : insertLargePdbShims v list dicts = some (list', dicts'))
    {t : Str} {d : PdbTarget} (ht : (t, d) ∈ dicts) (hm : d.large = true)
    {shim : Str} (hs : WithWord c!"large_pdb_shim" t shim) :
    ∃ d' s, aget dicts' t = some d' ∧ aget dicts' shim = some s ∧
      List.Forall₂ (fun c c' => c'.1 = c.1 ∧ ∃ p, c.2.linkerPdb = some p ∧ c'.2.compilerPdb = some p)
        d'.configs s.configs := by
  obtain ⟨d0, paths, e1, e2, e3, e4, e5⟩ :=
    (loop_some _ _ _ (clash_loopFree hc) h).2.1 t (mem_targetsToShim.mpr ⟨d, ht, hm⟩)
  rw [word_suffixName hs]
  refine ⟨_, _, e3, e5, ?_⟩
  simp only [pdbOwnDict, pdbShimDict]
  rw [List.forall₂_map_left_iff, List.forall₂_map_right_iff]
  exact List.forall₂_same.mpr fun x _ => ⟨rfl, x.2, rfl, rfl⟩

/-- **C122 (the others).** A target that is not marked and has none of the new names stays. -/
theorem C122_others {v : PdbVars} {list : List Str} {dicts : List (Str × PdbTarget)} (hc : NoPdbClash dicts)
    {list' : List Str} {dicts' : List (Str × PdbTarget)}
    (h : insertLargePdbShims v list dicts = some (list', dicts'))
    {k : Str} (hk : ∀ t d, (t, d) ∈ dicts → d.large = true →
      k ≠ t ∧ ¬ WithWord c!"large_pdb_shim" t k ∧ ¬ WithWord c!"large_pdb_copy" t k) :
    aget dicts' k = aget dicts k := by
  refine (loop_some _ _ _ (clash_loopFree hc) h).2.2 k ?_ ?_
  · intro hm
    obtain ⟨d, hd, hl⟩ := mem_targetsToShim.mp hm
    exact (hk _ d hd hl).1 rfl
  · intro t ht
    obtain ⟨d, hd, hl⟩ := mem_targetsToShim.mp ht
    exact ⟨fun e => (hk _ d hd hl).2.2 (e ▸ suffixName_word _ _), fun e => (hk _ d hd hl).2.1 (e ▸ suffixName_word _ _)⟩

/-- **C122 (when gyp stops).** gyp stops exactly if in some configuration of a marked target no PDB
file is given and the target makes nothing with an extension. -/
theorem C122_stops {v : PdbVars} {list : List Str} {dicts : List (Str × PdbTarget)} (hc : NoPdbClash dicts) :
    insertLargePdbShims v list dicts = none ↔
      ∃ t d, (t, d) ∈ dicts ∧ d.large = true ∧ ∃ c ∈ d.configs, ∀ p, ¬ PdbOf v d c.2 p := by
  constructor
  · intro h
    by_contra hn
    have : ∃ st', insertLargePdbShims v list dicts = some st' := by
      refine loop_isSome _ _ (clash_loopFree hc) fun t ht => ?_
      obtain ⟨d, hd, hl⟩ := mem_targetsToShim.mp ht
      obtain ⟨r, hr⟩ := mapM_isSome (f := fun c : Str × PdbConfig => getPdbPath v d c.2) (l := d.configs) fun c hcm => by
        by_contra hx
        exact hn ⟨t, d, hd, hl, c, hcm, fun p hp => hx ⟨p, getPdbPath_iff.mpr hp⟩⟩
      exact ⟨d, r, aget_of_mem hc.1 hd, hr⟩
    obtain ⟨st', hs⟩ := this
    rw [h] at hs
    cases hs
  · rintro ⟨t, d, hd, hl, c, hcm, hp⟩
    cases h : insertLargePdbShims v list dicts with
    | none => rfl
    | some st' =>
      obtain ⟨d', -, -, hf⟩ := C122_target hc (list' := st'.1) (dicts' := st'.2) h hd hl (suffixName_word t shimSuffix)
      obtain ⟨i, hi, rfl⟩ := List.getElem_of_mem hcm
      have := hf.get hi (by rw [← hf.length_eq]; exact hi)
      obtain ⟨-, p, h1, -⟩ := this
      exact absurd h1 (hp p)

example : (insertLargePdbShims exPdbVars (akeys exPdbDicts) exPdbDicts).isSome = true := by decide +kernel
example : (c!"a.gyp:app#target", exBig) ∈ exPdbDicts ∧ exBig.large = true := by decide
example : WithWord c!"large_pdb_shim" c!"a.gyp:app#target" c!"a.gyp:app_large_pdb_shim#target" :=
  .inr ⟨c!"a.gyp:app", c!"target", by decide, by decide, by decide⟩
example : PdbOf exPdbVars exBig {} c!"out/app.exe.pdb" :=
  PdbOf.product (v := exPdbVars) (d := exBig) (ext := c!"exe") (.inl rfl) (.inl rfl) (.inr ⟨rfl, rfl⟩) .exe
example : ((insertLargePdbShims exPdbVars (akeys exPdbDicts) exPdbDicts).bind fun r =>
      aget r.2 c!"a.gyp:app_large_pdb_shim#target").map (fun s => (s.sources, s.configs)) =
    some ([c!"gen/app_large_pdb_copy/large-pdb-shim.cc"],
      [(c!"Debug", { debugFormat := some c!"3", compilerPdb := some c!"out/app.exe.pdb", rest := c!"x" }),
       (c!"Release", { debugFormat := some c!"3", compilerPdb := some c!"r.pdb", linkerPdb := some c!"r.pdb" })]) := by
  decide +kernel
example : insertLargePdbShims exPdbVars [] [(c!"n", { exBig with type := c!"none" })] = none := by decide +kernel

/-- **C122 (each PDB file is one).** At most one PDB file is right for a configuration. -/
theorem C122_one_file {v : PdbVars} {d : PdbTarget} {c : PdbConfig} {p q : Str}
    (hp : PdbOf v d c p) (hq : PdbOf v d c q) : p = q :=
  Option.some.inj ((getPdbPath_iff.mpr hp).symm.trans (getPdbPath_iff.mpr hq))

/-- **C122 (what to know: a name in use).** A target of the project with the name of the shim is
replaced without a word, and its name is in the list twice. -/
theorem C122_clash :
    (insertLargePdbShims exPdbVars [c!"app_large_pdb_shim", c!"app"]
        [(c!"app_large_pdb_shim", exPdbBase), (c!"app", exBig)]).map
      (fun r => (r.1, (aget r.2 c!"app_large_pdb_shim").map fun d => (d.name, d.sources))) =
    some ([c!"app_large_pdb_shim", c!"app_large_pdb_copy", c!"app_large_pdb_shim", c!"app"],
      some (c!"app_large_pdb_shim", [c!"gen/app_large_pdb_copy/large-pdb-shim.cc"])) := by decide +kernel

end Gyp
