import Verif.Proofs.WheelNames
/-
C124: the names of wheels and source archives say which project, version and systems they are for.
-/
namespace Gyp
open Spec

/-- **C124 (only names of wheels are read).** What is read from a name of a file is what its parts
say, and the file has all parts. -/
theorem C124_wheel_sound {f : Str} (ha : ∀ c ∈ f, c.toNat < 128) (hn : '\n' ∉ f) {w : Wheel}
    (h : parseWheel f = some w) : WheelFile f w := by
  obtain ⟨stem, rfl, hc⟩ := parseWheel_shape h
  have has : ∀ c ∈ stem, c.toNat < 128 := fun c hm => ha c (by simp [hm])
  have hns : '\n' ∉ stem := fun hm => hn (by simp [hm])
  rcases hc with hc | hc <;> obtain ⟨ws, hl, hj, hw⟩ := pieces_of_count hc
  · match ws, hl with
    | [n, v, i, a, p], _ =>
      have e : stem = n ++ '-' :: (v ++ '-' :: (i ++ '-' :: (a ++ '-' :: p))) := by rw [← hj]; simp [joinWith]
      subst e
      simp only [List.mem_cons, List.not_mem_nil, or_false, forall_eq_or_imp, forall_eq] at hw
      obtain ⟨w1, w2, w3, w4, w5⟩ := hw
      rw [parseWheel_four w1 w2 w3 w4 w5] at h
      split at h
      · cases h
      · rename_i hp
        rw [Option.map_eq_some_iff] at h
        obtain ⟨ver, hver, rfl⟩ := h
        rw [Bool.not_eq_true] at hp
        refine ⟨n, v, [], i, a, p, by simp, (wheelProject_iff fun hm => hns (by simp [hm])).mp hp, w2, w3, w4, w5, rfl,
          written_parse (fun c hc => has c (by simp [hc])) hver, rfl, fun t => mem_tagsOf⟩
  · match ws, hl with
    | [n, v, b, i, a, p], _ =>
      have e : stem = n ++ '-' :: (v ++ '-' :: (b ++ '-' :: (i ++ '-' :: (a ++ '-' :: p)))) := by
        rw [← hj]; simp [joinWith]
      subst e
      simp only [List.mem_cons, List.not_mem_nil, or_false, forall_eq_or_imp, forall_eq] at hw
      obtain ⟨w1, w2, w6, w3, w4, w5⟩ := hw
      rw [parseWheel_five w1 w2 w6 w3 w4 w5] at h
      split at h
      · cases h
      · rename_i hp
        rw [Option.bind_eq_some_iff] at h
        obtain ⟨ver, hver, h⟩ := h
        rw [Option.map_eq_some_iff] at h
        obtain ⟨bt, hbt, rfl⟩ := h
        rw [Bool.not_eq_true] at hp
        refine ⟨n, v, '-' :: b, i, a, p, by simp, (wheelProject_iff fun hm => hns (by simp [hm])).mp hp, w2, w3, w4, w5,
          rfl, written_parse (fun c hc => has c (by simp [hc])) hver,
          ⟨b, rfl, w6, (buildTag_iff fun hm => hns (by simp [hm])).mp hbt⟩, fun t => mem_tagsOf⟩

/-- **C124 (all names of wheels are read).** A name of this form is read as what it says. -/
theorem C124_wheel_complete {f : Str} (hn : '\n' ∉ f) {w : Wheel} (h : WheelFile f w) :
    ∃ w', parseWheel f = some w' ∧ w'.name = w.name ∧ w'.version = w.version ∧ w'.build = w.build ∧
      ∀ t, t ∈ w'.tags ↔ t ∈ w.tags := by
  obtain ⟨n, v, b, i, a, p, rfl, hp, w2, w3, w4, w5, e1, hv, hb, ht⟩ := h
  have hnn : '\n' ∉ n := fun hm => hn (by simp [hm])
  have w1 := project_no_dash hp
  have hpr := (wheelProject_iff hnn).mpr hp
  have hver := parse_written hv
  cases hwb : w.build with
  | none =>
    rw [hwb] at hb
    have hb : b = [] := hb
    subst hb
    refine ⟨⟨canonicalizeName n, w.version, none, tagsOf i a p⟩, ?_, e1.symm, rfl, rfl, fun t => by
      rw [ht]; exact mem_tagsOf⟩
    have := parseWheel_four w1 w2 w3 w4 w5
    rw [hpr, hver] at this
    simpa using this
  | some x =>
    rw [hwb] at hb
    obtain ⟨bt, rfl, w6, hbt⟩ := hb
    refine ⟨⟨canonicalizeName n, w.version, some x, tagsOf i a p⟩, ?_, e1.symm, rfl, rfl, fun t => by
      rw [ht]; exact mem_tagsOf⟩
    have := parseWheel_five w1 w2 w6 w3 w4 w5
    rw [hpr, hver, (buildTag_iff fun hm => hn (by simp [hm])).mpr hbt] at this
    simpa using this

example : (parseWheel (c!"Foo_Bar-1.0-12b-" ++ c!"py2.py3-none-any.whl")).map (fun w => w.name) =
    some c!"foo-bar" := by decide +kernel
example : (parseWheel (c!"Foo_Bar-1.0-12b-" ++ c!"py2.py3-none-any.whl")).map (fun w => w.version.show) =
    some c!"1.0" := by decide +kernel
example : (parseWheel (c!"Foo_Bar-1.0-12b-" ++ c!"py2.py3-none-any.whl")).map (fun w => w.build) =
    some (some (12, c!"b")) := by decide +kernel
example : (parseWheel (c!"Foo_Bar-1.0-12b-" ++ c!"py2.py3-none-any.whl")).map (fun w => w.tags) =
    some [⟨c!"py2", c!"none", c!"any"⟩, ⟨c!"py3", c!"none", c!"any"⟩] := by decide +kernel
example : (parseWheel c!"foo-1.0-py3-none-any.whl").isSome = true := by decide +kernel
example : (parseWheel c!"foo__bar-1.0-py3-none-any.whl").isNone = true := by decide +kernel
example : (parseWheel c!"foo-1.0-b1-py3-none-any.whl").isNone = true := by decide +kernel
example : (parseWheel c!"foo-1.0-none-any.whl").isNone = true := by decide +kernel

/-- **C124 (one meaning).** A name says one thing. -/
theorem C124_wheel_unique {f : Str} (hn : '\n' ∉ f) {w x : Wheel} (hw : WheelFile f w) (hx : WheelFile f x) :
    w.name = x.name ∧ w.version = x.version ∧ w.build = x.build ∧ ∀ t, t ∈ w.tags ↔ t ∈ x.tags := by
  obtain ⟨w', h1, a1, a2, a3, a4⟩ := C124_wheel_complete hn hw
  obtain ⟨x', h2, b1, b2, b3, b4⟩ := C124_wheel_complete hn hx
  rw [h1] at h2
  cases h2
  exact ⟨a1.symm.trans b1, a2.symm.trans b2, a3.symm.trans b3, fun t => (a4 t).symm.trans (b4 t)⟩

/-- **C124 (source archives).** A name is read exactly if it is a project and a version with the last
dash between them and one of the two extensions, and as these. -/
theorem C124_sdist {f : Str} (ha : ∀ c ∈ f, c.toNat < 128) {name : Str} {v : Ver} :
    parseSdist f = some (name, v) ↔ SdistFile f name v := by
  have core : ∀ stem : Str, (∀ c ∈ stem, c.toNat < 128) →
      ((match rsplit1 '-' stem with
        | none => none
        | some (n, version) => (Ver.parse version).map fun v => (canonicalizeName n, v)) = some (name, v) ↔
      ∃ project version, stem = project ++ '-' :: version ∧ '-' ∉ version ∧ name = canonicalizeName project ∧
        Written version v) := by
    intro stem hs
    constructor
    · intro h
      cases hr : rsplit1 '-' stem with
      | none => rw [hr] at h; cases h
      | some p =>
        obtain ⟨n, ver⟩ := p
        rw [hr] at h
        simp only [Option.map_eq_some_iff, Prod.mk.injEq] at h
        obtain ⟨x, hx, e1, rfl⟩ := h
        obtain ⟨rfl, hd⟩ := rsplit1_some hr
        exact ⟨n, ver, rfl, hd, e1.symm, written_parse (fun c hc => hs c (by simp [hc])) hx⟩
    · rintro ⟨n, ver, rfl, hd, rfl, hw⟩
      rw [rsplit1_append hd]
      simp only [parse_written hw, Option.map_some]
  unfold parseSdist
  constructor
  · intro h
    simp only at h
    by_cases h1 : endsWith f c!".tar.gz" = true
    · obtain ⟨stem, rfl⟩ := suffix_iff.mp h1
      rw [if_pos h1, show (7 : Nat) = (c!".tar.gz").length from rfl, sdist_stem] at h
      obtain ⟨n, ver, rfl, a, b, c⟩ := (core stem fun c hc => ha c (by simp [hc])).mp h
      exact ⟨n, ver, _, rfl, .inl rfl, a, b, c⟩
    · rw [if_neg h1] at h
      by_cases h2 : endsWith f c!".zip" = true
      · obtain ⟨stem, rfl⟩ := suffix_iff.mp h2
        rw [if_pos h2, show (4 : Nat) = (c!".zip").length from rfl, sdist_stem] at h
        obtain ⟨n, ver, rfl, a, b, c⟩ := (core stem fun c hc => ha c (by simp [hc])).mp h
        exact ⟨n, ver, _, rfl, .inr rfl, a, b, c⟩
      · rw [if_neg h2] at h
        cases h
  · rintro ⟨n, ver, ext, rfl, he, a, b, c⟩
    have hs : ∀ c ∈ n ++ '-' :: ver, c.toNat < 128 := fun c hc => ha c (List.mem_append_left _ hc)
    have hc := (core (n ++ '-' :: ver) hs).mpr ⟨n, ver, rfl, a, b, c⟩
    simp only
    rcases he with rfl | rfl
    · rw [if_pos (suffix_iff.mpr ⟨_, rfl⟩), show (7 : Nat) = (c!".tar.gz").length from rfl, sdist_stem]
      exact hc
    · rw [if_neg, if_pos (suffix_iff.mpr ⟨_, rfl⟩), show (4 : Nat) = (c!".zip").length from rfl, sdist_stem]
      · exact hc
      · intro h
        obtain ⟨s, e⟩ := suffix_iff.mp h
        have := congrArg List.getLast? e
        rw [List.getLast?_append, List.getLast?_append, List.getLast?_append] at this
        simp at this

example : (parseSdist c!"Foo-bar-1.0.tar.gz").map (fun r => (r.1, r.2.show)) = some (c!"foo-bar", c!"1.0") := by
  decide +kernel
example : (parseSdist c!"foo-1.0.zip").isSome = true := by decide +kernel
example : (parseSdist c!"foo.zip").isNone = true := by decide +kernel

/-- **C124 (found by the proof).** No name of a project is needed, and a tag may be empty. -/
theorem C124_empty_parts : (parseWheel c!"-1.0-py3-none-any.whl").map (fun w => w.name) = some [] ∧
    (parseWheel c!"foo-1.0---.whl").map (fun w => w.tags) = some [⟨[], [], []⟩] := by
  constructor <;> decide +kernel

end Gyp
