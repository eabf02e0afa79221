import Verif.Proofs.Canonical
/-
C123: canonical names and versions tell whether two names or versions are the same.
-/
namespace Gyp
open Spec

/-- **C123 (same names).** Two names have the same canonical form exactly if they differ in the case
of letters and in the separators in a row only. -/
theorem C123_name {a b : Str} (ha : ∀ c ∈ a, c.toNat < 128) (hb : ∀ c ∈ b, c.toNat < 128) :
    canonicalizeName a = canonicalizeName b ↔ SameName a b := by
  rw [canonical_map ha, canonical_map hb]
  exact ⟨collapse_same _ a b (Nat.le_refl _) ha hb, fun h => same_collapse h false⟩

example : canonicalizeName c!"Foo-_.Bar" = c!"foo-bar" := by decide +kernel
example : SameName c!"Foo-_.Bar" c!"foo.bar" :=
  (C123_name (by decide) (by decide)).mp (by decide +kernel)
example : ¬ SameName c!"foo-bar" c!"foobar" := fun h =>
  absurd ((C123_name (by decide) (by decide)).mpr h) (by decide +kernel)

/-- **C123 (a canonical name is canonical).** -/
theorem C123_name_twice {s : Str} (h : ∀ c ∈ s, c.toNat < 128) :
    canonicalizeName (canonicalizeName s) = canonicalizeName s ∧ SameName (canonicalizeName s) s :=
  ⟨canonical_twice h, (C123_name (canonical_ascii h) h).mp (canonical_twice h)⟩

/-- **C123 (form).** The canonical form of a valid name consists of small letters, digits and single
dashes between them; and a valid name of this form is left as it is. -/
theorem C123_name_form {s : Str} (h : ValidName s) :
    NormalName (canonicalizeName s) ∧ (canonicalizeName s = s ↔ NormalName s) :=
  ⟨canonical_normal h, fun e => e ▸ canonical_normal h, normal_fixed⟩

example : ValidName c!"Foo_.b" := (validCore_iff _).mp (by decide +kernel)
example : ¬ ValidName c!"Foo_" := fun h => absurd ((validCore_iff _).mpr h) (by decide +kernel)

/-- **C123 (validation).** With validation, names that are not valid are refused, and others have
their canonical form; the text has no newline at the end. -/
theorem C123_validate_partial {s : Str} (h : '\n' ∉ s) :
    (ValidName s → canonicalizeValid s = some (canonicalizeName s)) ∧
    (¬ ValidName s → canonicalizeValid s = none) := by
  unfold canonicalizeValid
  rw [matchLine_plain h]
  refine ⟨fun hv => if_pos ((validCore_iff s).mpr hv), fun hv => if_neg fun e => hv ((validCore_iff s).mp e)⟩

/-- **C123 (asking whether a name is canonical, part).** For texts without two dashes in a row and
without a newline the answer is right.  Missing: texts with two dashes in a row or a newline at the
end, for which it is wrong (`C123_double_dash`, `C123_newline`). -/
theorem C123_is_normalized_partial {s : Str} (hn : '\n' ∉ s) (hd : ∀ p q, s ≠ p ++ c!"--" ++ q) :
    isNormalizedName s = true ↔ NormalName s := by
  unfold isNormalizedName
  rw [matchLine_plain hn]
  exact normalizedCore_iff hd

/-- **C123 (canonical names are taken).** The canonical form of a valid name is said to be
canonical. -/
theorem C123_canonical_taken {s : Str} (h : ValidName s) : isNormalizedName (canonicalizeName s) = true := by
  have hn := canonical_normal h
  refine (C123_is_normalized_partial ?_ hn.2.2.2).mpr hn
  intro hm
  rcases normal_chars hn _ hm with e | e <;> exact absurd e (by decide)

/-- **C123 (what is not so).** Two dashes are taken as canonical, though the canonical form has one. -/
theorem C123_double_dash : isNormalizedName c!"a--b" = true ∧ canonicalizeName c!"a--b" = c!"a-b" := by
  decide +kernel

/-- **C123 (what is not so).** A newline at the end is overlooked. -/
theorem C123_newline : isNormalizedName c!"a\n" = true ∧ canonicalizeValid c!"a\n" = some c!"a\n" := by
  decide +kernel

/-- **C123 (same versions).** Two texts that are versions have the same canonical form exactly if the
versions are equal. -/
theorem C123_version {s t : Str} (hs : ∀ c ∈ s, c.toNat < 128) (ht : ∀ c ∈ t, c.toNat < 128) {v w : Ver}
    (hv : Ver.parse s = some v) (hw : Ver.parse t = some w) :
    canonicalizeVersion s = canonicalizeVersion t ↔ v.eq w = true := by
  have va := C45_written_valid s v (written_parse hs hv)
  have wa := C45_written_valid t w (written_parse ht hw)
  unfold canonicalizeVersion
  rw [hv, hw]
  simp only
  rw [canonicalVer_show va.release, canonicalVer_show wa.release]
  constructor
  · intro h
    have e := C45_show_injective _ _ (trim_valid va) (trim_valid wa) h
    have h1 := (ver_eq_iff _ _).mp (trim_same v)
    have h2 := (ver_eq_iff _ _).mp (trim_same w)
    rw [ver_eq_iff, ← h1, ← h2, e]
  · intro h
    have e := (C44_equal v w).mp h
    have k := trim_unique va.release wa.release ((releaseKey_eq _ _).mpr e.2.1)
    obtain ⟨e1, -, e3, e4, e5, e6⟩ := e
    have : trimVer v = trimVer w := by
      unfold trimVer
      rw [k]
      cases v; cases w
      simp only at e1 e3 e4 e5 e6
      simp [e1, e3, e4, e5, e6]
    rw [this]

/-- **C123 (read again).** The canonical form of a version is read as a version equal to it, and is
its own canonical form. -/
theorem C123_version_read {s : Str} (hs : ∀ c ∈ s, c.toNat < 128) {v : Ver} (hv : Ver.parse s = some v) :
    (∃ w, Ver.parse (canonicalizeVersion s) = some w ∧ w.eq v = true) ∧
    canonicalizeVersion (canonicalizeVersion s) = canonicalizeVersion s := by
  have va := C45_written_valid s v (written_parse hs hv)
  have e : canonicalizeVersion s = (trimVer v).show := by
    unfold canonicalizeVersion
    rw [hv]
    exact canonicalVer_show va.release
  have r := C45_roundtrip _ (trim_valid va)
  rw [e]
  refine ⟨⟨_, r, trim_same v⟩, ?_⟩
  unfold canonicalizeVersion
  rw [r]
  simp only
  rw [canonicalVer_show (trim_valid va).release]
  have := trim_unique (trim_valid va).release va.release (trim_key v.release)
  have e2 : trimVer (trimVer v) = trimVer v := by
    show Ver.mk _ (trimZeros (trimVer v).release) _ _ _ _ = Ver.mk _ (trimZeros v.release) _ _ _ _
    rw [this]
    rfl
  rw [e2]

/-- **C123 (other texts).** A text that is no version is left as it is. -/
theorem C123_no_version {s : Str} (h : Ver.parse s = none) : canonicalizeVersion s = s := by
  unfold canonicalizeVersion
  rw [h]

example : canonicalizeVersion c!"v1.0.0-RC.1" = c!"1rc1" := by decide +kernel
example : canonicalizeVersion c!"0.0" = c!"0" := by decide +kernel
example : canonicalizeVersion c!"1.10.0" = c!"1.10" := by decide +kernel
example : canonicalizeVersion c!"no" = c!"no" := by decide +kernel

end Gyp
