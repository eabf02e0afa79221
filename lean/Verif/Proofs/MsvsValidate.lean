import Verif.Proofs.MsvsConvert
import Verif.Props.Scan
/-
Settings that were converted are valid.
-/
namespace Gyp
open Spec

/-- The tools whose settings are known to the validation. -/
def msbuildTools : List Str :=
  msTools.map MsTool.msbuild ++ [c!"", c!"ProjectReference", c!"ManifestResourceCompile"]

/-- The validation has nothing to say about the setting. -/
def FineAt (T N : Str) (w : MsVal) : Prop :=
  ∃ ty, lastWith (msDecls.flatMap MsDecl.validators) (T, N) = some ty ∧
    ty.validateMSBuild w = .ok ()

/-- The validation has nothing to say about the settings. -/
def Fine (s : MsSettings) : Prop :=
  ∀ te ∈ s, te.1 ∈ msbuildTools ∧ ∀ e ∈ te.2, FineAt te.1 e.1 e.2

theorem mem_of_aset {α : Type} {d : List (Str × α)} {k : Str} {v : α} {e : Str × α}
    (h : e ∈ aset d k v) : e = (k, v) ∨ e ∈ d := by
  induction d with
  | nil => simp [aset] at h; exact .inl h
  | cons p d ih =>
    obtain ⟨k', v'⟩ := p
    simp only [aset] at h
    split at h
    · rcases List.mem_cons.mp h with h | h
      · exact .inl h
      · exact .inr (List.mem_cons_of_mem _ h)
    · rcases List.mem_cons.mp h with h | h
      · exact .inr (h ▸ List.mem_cons_self)
      · rcases ih h with h | h
        · exact .inl h
        · exact .inr (List.mem_cons_of_mem _ h)

theorem fine_touch {s : MsSettings} {T : Str} (hs : Fine s) (hT : T ∈ msbuildTools) :
    Fine (msTouch s T) := by
  unfold msTouch
  cases h : aget s T with
  | some _ => exact hs
  | none =>
    intro te hte
    rcases mem_of_aset hte with rfl | hte
    · exact ⟨hT, by simp⟩
    · exact hs te hte

theorem fine_put {s : MsSettings} {T N : Str} {w : MsVal} (hs : Fine s) (hT : T ∈ msbuildTools)
    (hw : FineAt T N w) : Fine (msPut s T N w) := by
  have ht := fine_touch hs hT
  intro te hte
  rcases mem_of_aset hte with rfl | hte
  · refine ⟨hT, ?_⟩
    intro e he
    rcases mem_of_aset he with rfl | he
    · exact hw
    · cases hg : aget (msTouch s T) T with
      | none => rw [hg] at he; cases he
      | some m =>
        rw [hg] at he
        exact (ht _ (aget_some_mem hg)).2 e he
  · exact ht te hte

set_option maxRecDepth 20000 in
theorem validators_table : ∀ d ∈ msDecls, ∀ e ∈ d.validators,
    e.1.1 ∈ msbuildTools ∧ lastWith (msDecls.flatMap MsDecl.validators) e.1 = some e.2 := by
  decide +kernel

/-- The option a declaration adds to, if any. -/
def optionTool : MsDecl → Option Str
  | .toOption t _ _ => some t.msbuild
  | _ => none

set_option maxRecDepth 20000 in
theorem option_table : ∀ d ∈ msDecls, ∀ t ∈ optionTool d, t ∈ msbuildTools ∧
    lastWith (msDecls.flatMap MsDecl.validators) (t, c!"AdditionalOptions") = some .stringList := by
  decide +kernel

theorem intText_intStr (i : Int) : ∃ j, pyIntText (intStr i) = some j := by
  have key : ∀ n, IsDigits (Nat.toDigits 10 n) := by
    intro n
    refine ⟨?_, ?_⟩
    · have := Nat.length_toDigits_pos (b := 10) (n := n)
      intro h; rw [h] at this; simp at this
    · intro c hc
      have := toDigits_digits n c hc
      simpa [asciiDigit] using this
  cases i with
  | ofNat n =>
    refine ⟨_, (pyIntText_spec _ _).mpr
      ⟨[], [], [Nat.toDigits 10 n], [], ?_, by simp, by simp, by simp, ?_, .inl ⟨.inl rfl, rfl⟩⟩⟩
    · simp [intStr, joinWith]
    · simpa using key n
  | negSucc n =>
    refine ⟨_, (pyIntText_spec _ _).mpr
      ⟨[], c!"-", [Nat.toDigits 10 (n + 1)], [], ?_, by simp, by simp, by simp, ?_, .inr ⟨rfl, rfl⟩⟩⟩
    · simp [intStr, joinWith]
    · simpa using key (n + 1)

theorem toDigits16_hex (n : Nat) : ∀ x ∈ Nat.toDigits 16 n, isHexDigit x = true := by
  induction n using Nat.strongRecOn with
  | _ n ih =>
    have hd : ∀ m < 16, isHexDigit (Nat.digitChar m) = true := by decide
    by_cases h : n < 16
    · rw [Nat.toDigits_of_lt_base h]
      intro x hx
      rw [List.mem_singleton] at hx
      rw [hx]; exact hd n h
    · rw [Nat.toDigits_of_base_le (by omega) (by omega)]
      intro x hx
      rcases List.mem_append.mp hx with hx | hx
      · exact ih (n / 16) (by omega) x hx
      · rw [List.mem_singleton] at hx
        rw [hx]; exact hd _ (Nat.mod_lt _ (by omega))

theorem hexDigit_plain {x : Char} (h : isHexDigit x = true) : x ≠ '_' ∧ isPySpace x = false := by
  have hr : x.toNat ∈ List.range' 48 10 ∨ x.toNat ∈ List.range' 97 6 ∨ x.toNat ∈ List.range' 65 6 := by
    simp only [isHexDigit, asciiDigit, Bool.or_eq_true, Bool.and_eq_true, decide_eq_true_eq,
      Char.le_def] at h
    simp only [List.mem_range'_1]
    rcases h with (h | h) | h
    · left
      exact ⟨h.1, Nat.lt_succ_of_le h.2⟩
    · right; left
      exact ⟨h.1, Nat.lt_succ_of_le h.2⟩
    · right; right
      exact ⟨h.1, Nat.lt_succ_of_le h.2⟩
  have hx : x = Char.ofNat x.toNat := by simp
  generalize x.toNat = n at hr hx
  subst hx
  have : ∀ n, n ∈ List.range' 48 10 ∨ n ∈ List.range' 97 6 ∨ n ∈ List.range' 65 6 →
      Char.ofNat n ≠ '_' ∧ isPySpace (Char.ofNat n) = false := by
    rintro n (h | h | h)
    · revert n; decide
    · revert n; decide
    · revert n; decide
  exact this n hr

theorem hexPadded_hex (w n : Nat) : ∀ x ∈ hexPadded w n, isHexDigit x = true := by
  intro x hx
  rcases List.mem_append.mp hx with hx | hx
  · rw [(List.mem_replicate.mp hx).2]; decide
  · exact toDigits16_hex n x hx

theorem hexPadded_ne (w n : Nat) : hexPadded w n ≠ [] := by
  intro h
  have := Nat.length_toDigits_pos (b := 16) (n := n)
  unfold hexPadded at h
  rw [(List.append_eq_nil_iff.mp h).2] at this
  simp at this

theorem pyStrip_id {s : Str} (h : ∀ c ∈ s, isPySpace c = false) : pyStrip s = s := by
  unfold pyStrip
  have key : ∀ t : Str, (∀ c ∈ t, isPySpace c = false) → t.dropWhile isPySpace = t := by
    intro t ht
    cases t with
    | nil => rfl
    | cons a b => exact List.dropWhile_cons_of_neg (by simp [ht a List.mem_cons_self])
  rw [key s h, key _ (fun c hc => h c (List.mem_reverse.mp hc)), List.reverse_reverse]

theorem hexText_ok (n : Nat) : pyHexOk (hexText (Int.ofNat n)) = true := by
  have hne := hexPadded_ne 4 n
  have hh := hexPadded_hex 4 n
  simp only [hexText]
  generalize hexPadded 4 n = d at hne hh
  obtain ⟨a, b, rfl⟩ := List.exists_cons_of_ne_nil hne
  have hsp : pyStrip (c!"0x" ++ a :: b) = c!"0x" ++ a :: b := by
    apply pyStrip_id
    intro c hc
    simp only [List.cons_append, List.nil_append, List.mem_cons] at hc
    rcases hc with rfl | rfl | hc
    · decide
    · decide
    · exact (hexDigit_plain (hh c (by simpa using hc))).2
  unfold pyHexOk
  simp only [hsp]
  have ha := (hexDigit_plain (hh a List.mem_cons_self)).1
  have hspl : splitOn '_' (a :: b) = [a :: b] := by
    have := splitOn_joinWith (c := '_') (ws := [a :: b]) (by simp) (by
      intro w hw
      rw [List.mem_singleton] at hw
      subst hw
      intro hm
      exact (hexDigit_plain (hh _ hm)).1 rfl)
    simpa [joinWith] using this
  have e1 : startsWith ('0' :: 'x' :: a :: b) c!"0x_" = false := by
    simp [startsWith, List.isPrefixOf, Ne.symm ha]
  have e2 : startsWith ('0' :: 'x' :: a :: b) c!"0X_" = false := by
    simp [startsWith, List.isPrefixOf]
  have e3 : startsWith ('0' :: 'x' :: a :: b) c!"0x" = true := by
    simp [startsWith, List.isPrefixOf]
  have e0 : (if (c!"0x" ++ a :: b).head? = some '-' ∨ (c!"0x" ++ a :: b).head? = some '+' then
      (c!"0x" ++ a :: b).tail else c!"0x" ++ a :: b) = '0' :: 'x' :: a :: b := by
    simp
  rw [e0, e1, e2, e3]
  simp only [Bool.false_eq_true, or_self, if_false, true_or, if_true, List.drop_succ_cons,
    List.drop_zero]
  rw [hspl]
  simp only [List.all_cons, List.all_nil, Bool.and_true, Bool.and_eq_true, List.all_eq_true]
  refine ⟨by simp, hh a List.mem_cons_self, fun x hx => hh x (List.mem_cons_of_mem _ hx)⟩

theorem convert_valid {ty : MsType} {v w : MsVal} (h : Converted ty v w) (hf : Fits ty v) :
    ty.validateMSBuild w = .ok () := by
  cases ty with
  | string =>
    obtain ⟨s, rfl⟩ := hf
    obtain ⟨t, rfl, _⟩ := h
    rfl
  | stringList => cases w <;> rfl
  | boolean =>
    obtain ⟨rfl, h⟩ := h
    rcases h with rfl | rfl <;> rfl
  | integer hex =>
    obtain ⟨s, i, rfl, hi, rfl⟩ := h
    cases hex with
    | false =>
      obtain ⟨j, hj⟩ := intText_intStr i
      simp [MsType.validateMSBuild, hj]
    | true =>
      have h0 := hf s i rfl hi
      obtain ⟨n, rfl⟩ := Int.eq_ofNat_of_zero_le h0
      simp only [MsType.validateMSBuild, if_true]
      exact if_pos (hexText_ok n)
  | enumeration labels new =>
    obtain ⟨s, i, label, rfl, _, hl, rfl⟩ := h
    simp only [MsType.validateMSBuild]
    rw [if_pos (.inl (List.mem_of_getElem? hl))]

theorem msbuildValue_valid {ty : MsType} {v : MsVal} (h : MsbuildValue ty v) :
    ty.validateMSBuild v = .ok () := by
  cases ty with
  | string => obtain ⟨s, rfl⟩ := h; rfl
  | stringList => cases v <;> rfl
  | boolean => rcases h with rfl | rfl <;> rfl
  | integer hex =>
    obtain ⟨rfl, s, i, rfl, h⟩ := h
    simp [MsType.validateMSBuild, (pyIntText_spec s i).mpr h]
  | enumeration labels new =>
    obtain ⟨s, rfl, h⟩ := h
    simp only [MsType.validateMSBuild]
    rw [if_pos h]

theorem fine_typed {d : MsDecl} {T N : Str} {ty : MsType} {v : MsVal} {s : MsSettings}
    (hd : d ∈ msDecls) (hv : ((T, N), ty) ∈ d.validators) (hs : Fine s) (hf : Fits ty v) :
    Fine (translateTyped T N ty v s).1 := by
  obtain ⟨h1, h2⟩ := validators_table d hd _ hv
  unfold translateTyped
  cases hc : ty.convert v with
  | error e => exact fine_touch hs h1
  | ok w => exact fine_put hs h1 ⟨ty, h2, convert_valid ((convert_ok _ _ _).mp hc) hf⟩

theorem fine_translate {repr : List Str → Str} {d : MsDecl} {v : MsVal} {s : MsSettings}
    (hd : d ∈ msDecls) (hs : Fine s) (hf : FitsDecl d v) : Fine (d.translate repr v s).1 := by
  cases d with
  | same t n ty => exact fine_typed hd (by simp [MsDecl.validators]) hs (hf ty rfl)
  | renamed t n new ty => exact fine_typed hd (by simp [MsDecl.validators]) hs (hf ty rfl)
  | moved t n tool ty => exact fine_typed hd (by simp [MsDecl.validators]) hs (hf ty rfl)
  | movedAndRenamed t n tool new ty => exact fine_typed hd (by simp [MsDecl.validators]) hs (hf ty rfl)
  | msvsOnly t n ty => exact hs
  | msbuildOnly t n ty =>
    obtain ⟨h1, h2⟩ := validators_table _ hd ((t.msbuild, n), ty) (by simp [MsDecl.validators])
    exact fine_put hs h1 ⟨ty, h2, msbuildValue_valid hf⟩
  | toOption t n flag =>
    obtain ⟨h1, h2⟩ := option_table _ hd t.msbuild (by simp [optionTool])
    simp only [MsDecl.translate]
    split
    · split
      · exact fine_put (fine_touch hs h1) h1 ⟨_, h2, rfl⟩
      · exact fine_put (fine_touch hs h1) h1 ⟨_, h2, rfl⟩
    · exact hs
  | preprocessed t n =>
    obtain ⟨h1, h2⟩ := validators_table _ hd ((t.msbuild, c!"PreprocessToFile"), .boolean)
      (by simp [MsDecl.validators])
    obtain ⟨_, h3⟩ := validators_table _ hd ((t.msbuild, c!"PreprocessSuppressLineNumbers"), .boolean)
      (by simp [MsDecl.validators])
    simp only [MsDecl.translate]
    repeat' split
    all_goals first
      | exact fine_touch hs h1
      | exact fine_put (fine_put hs h1 ⟨_, h2, rfl⟩) h1 ⟨_, h3, rfl⟩

theorem fine_steps {repr : List Str → Str} {l : List (Str × Option (Str × MsVal))}
    (hf : ∀ i ∈ l, ∀ n v d, i.2 = some (n, v) → d ∈ msDecls → d.key = (i.1, n) → FitsDecl d v)
    {st out : MsSettings × List MsWarn} (hs : Fine st.1)
    (h : l.foldlM (msStep repr msDecls) st = .ok out) : Fine out.1 := by
  induction l generalizing st with
  | nil => cases Except.ok.inj h; exact hs
  | cons i l ih =>
    obtain ⟨st', h1, h2⟩ := foldlM_ok_cons h
    refine ih (fun j hj => hf j (List.mem_cons_of_mem _ hj)) ?_ h2
    obtain ⟨t, e⟩ := i
    cases e with
    | none => cases Except.ok.inj h1; exact hs
    | some e =>
      simp only [msStep, convertSetting] at h1
      cases hl : lastWith (msDecls.map fun d => (d.key, d)) (t, e.1) with
      | none => rw [hl] at h1; cases Except.ok.inj h1; exact hs
      | some d =>
        rw [hl] at h1
        obtain ⟨hd, hk⟩ := (lookup_decl _ _).mp hl
        simp only at h1
        have := fine_translate (repr := repr) hd hs (hf _ List.mem_cons_self e.1 e.2 d rfl hd hk)
        rcases hx : d.translate repr e.2 st.1 with ⟨s', _ | _ | _⟩
        · rw [hx] at h1 this; cases Except.ok.inj h1; exact this
        · rw [hx] at h1 this; cases Except.ok.inj h1; exact this
        · rw [hx] at h1; cases h1

theorem validate_fine {s : MsSettings} (hs : Fine s) :
    ValidateMSBuildSettings msTools msDecls s = .ok [] := by
  unfold ValidateMSBuildSettings
  generalize ([] : List MsWarn) = ws
  induction s generalizing ws with
  | nil => rfl
  | cons te s ih =>
    rw [List.foldlM_cons]
    obtain ⟨h1, h2⟩ := hs te List.mem_cons_self
    have h1' : te.1 ∈ msTools.map MsTool.msbuild ++
      [c!"", c!"ProjectReference", c!"ManifestResourceCompile"] := h1
    rw [if_pos h1']
    have inner : ∀ es : List (Str × MsVal), (∀ e ∈ es, FineAt te.1 e.1 e.2) →
        es.foldlM (validateSetting msDecls te.1) ws = .ok ws := by
      intro es
      induction es with
      | nil => intro _; rfl
      | cons e es ihe =>
        intro he
        obtain ⟨ty, ht, hv⟩ := he e List.mem_cons_self
        rw [List.foldlM_cons]
        have : validateSetting msDecls te.1 ws e = .ok ws := by
          simp only [validateSetting]
          rw [ht]
          simp only
          rw [hv]
        rw [this]
        exact ihe fun x hx => he x (List.mem_cons_of_mem _ hx)
    rw [inner te.2 h2]
    exact ih (fun x hx => hs x (List.mem_cons_of_mem _ hx)) ws

end Gyp
