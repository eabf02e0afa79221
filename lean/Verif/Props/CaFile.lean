import Verif.Model.CaFile
import Verif.Spec.CaFile
/-
C95: the certificates that are trusted for downloads.
-/
namespace Gyp
open Spec

theorem findText_none {p : Str} : ∀ {s : Str}, findText p s = none ↔ ∀ a b, s ≠ a ++ p ++ b
  | [] => by
    unfold findText
    constructor
    · intro h a b e
      split at h
      · cases h
      · rename_i hp
        have := (List.append_eq_nil_iff.1 e.symm).1
        exact hp (List.append_eq_nil_iff.1 this).2
    · intro h
      rw [if_neg]
      rintro rfl
      exact h [] [] rfl
  | c :: s => by
    unfold findText
    constructor
    · intro h a b e
      split at h
      · cases h
      · rename_i hp
        simp only [Option.map_eq_none_iff] at h
        cases a with
        | nil =>
          apply hp
          rw [List.isPrefixOf_iff_prefix]
          exact ⟨b, by rw [e]; rfl⟩
        | cons x a =>
          simp only [List.cons_append, List.cons.injEq] at e
          exact findText_none.1 h a b e.2
    · intro h
      rw [if_neg]
      · rw [Option.map_eq_none_iff, findText_none]
        intro a b e
        exact h (c :: a) b (by rw [e]; rfl)
      · intro hp
        rw [List.isPrefixOf_iff_prefix] at hp
        obtain ⟨r, hr⟩ := hp
        exact h [] r (by rw [← hr]; rfl)

/-- The place found is the first. -/
theorem findText_first {p : Str} : ∀ {s a b : Str}, findText p s = some (a, b) → ∀ a' b', s = a' ++ p ++ b' →
    a.length ≤ a'.length
  | [], a, b, h, a', b', _ => by
    unfold findText at h
    split at h
    · cases h; simp
    · cases h
  | c :: s, a, b, h, a', b', e => by
    unfold findText at h
    split at h
    · cases h; simp
    · rename_i hp
      cases hf : findText p s with
      | none => rw [hf] at h; cases h
      | some x =>
        rw [hf] at h
        cases h
        cases a' with
        | nil =>
          exfalso
          apply hp
          rw [List.isPrefixOf_iff_prefix]
          exact ⟨b', by rw [e]; rfl⟩
        | cons y a' =>
          simp only [List.cons_append, List.cons.injEq] at e
          have := findText_first (a := x.1) (b := x.2) hf a' b' e.2
          simp only [List.length_cons]
          omega

/-- A text with a first place is found there. -/
theorem findText_at {p a b : Str} (h : ∀ a' b', a ++ p ++ b = a' ++ p ++ b' → a.length ≤ a'.length) :
    findText p (a ++ p ++ b) = some (a, b) := by
  cases hf : findText p (a ++ p ++ b) with
  | none => exact absurd rfl (findText_none.1 hf a b)
  | some x =>
    obtain ⟨a', b'⟩ := x
    have e := findText_eq hf
    have h1 := findText_first hf a b rfl
    have h2 := h a' b' e
    have hl : a.length = a'.length := by omega
    have e' : a ++ (p ++ b) = a' ++ (p ++ b') := by simpa using e
    obtain ⟨rfl, e2⟩ := List.append_inj e' hl
    rw [List.append_cancel_left e2]

theorem certificates_none {s : Str} (h : findText certBegin s = none) : certificates s = [] := by
  unfold certificates
  split
  · rfl
  · rename_i h'; rw [h] at h'; cases h'

theorem certificates_open {s a r : Str} (h : findText certBegin s = some (a, r)) (h' : findText certEnd r = none) :
    certificates s = [] := by
  unfold certificates
  split
  · rfl
  · rename_i h1
    rw [h] at h1
    cases h1
    split
    · rfl
    · rename_i h2; rw [h'] at h2; cases h2

theorem certificates_some {s a r body r' : Str} (h : findText certBegin s = some (a, r))
    (h' : findText certEnd r = some (body, r')) :
    certificates s = (certBegin ++ body ++ certEnd) :: certificates r' := by
  rw [certificates]
  split
  · rename_i h1; rw [h] at h1; cases h1
  · rename_i h1
    rw [h] at h1
    cases h1
    split
    · rename_i h2; rw [h'] at h2; cases h2
    · rename_i h2; rw [h'] at h2; cases h2; rfl

/-- The certificates found are those the text holds. -/
theorem certificates_holds : ∀ (n : Nat) (s : Str), s.length ≤ n → Holds s (certificates s) := by
  intro n
  induction n with
  | zero =>
    intro s hs
    have : s = [] := List.length_eq_zero_iff.1 (by omega)
    subst this
    rw [certificates_none (by decide)]
    refine .last [] ?_
    intro a b c e
    have := congrArg List.length e
    simp [beginMark] at this
  | succ n ih =>
    intro s hs
    cases h : findText certBegin s with
    | none =>
      rw [certificates_none h]
      refine .last s ?_
      intro a b c e
      exact findText_none.1 h a (b ++ endMark ++ c) (by rw [e]; simp [certBegin, beginMark])
    | some x =>
      obtain ⟨a, r⟩ := x
      have es := findText_eq h
      cases h' : findText certEnd r with
      | none =>
        rw [certificates_open h h']
        refine .last s ?_
        intro a' b c e
        have hfirst := findText_first h a' (b ++ endMark ++ c) (by rw [e]; simp [certBegin, beginMark])
        rw [es] at e
        have e' : (a ++ certBegin) ++ r = (a' ++ beginMark) ++ (b ++ endMark ++ c) := by simpa using e
        have hle : (a ++ certBegin).length ≤ (a' ++ beginMark).length := by
          simp [certBegin, beginMark]; omega
        rw [List.append_eq_append_iff] at e'
        rcases e' with ⟨t, h1, h2⟩ | ⟨t, h1, h2⟩
        · exact findText_none.1 h' (t ++ b) c (by rw [h2]; simp [certEnd, endMark])
        · have ht : t = [] := by
            have := congrArg List.length h1
            rw [List.length_append (as := a' ++ beginMark)] at this
            apply List.length_eq_zero_iff.1
            omega
          subst ht
          exact findText_none.1 h' b c (by rw [List.nil_append] at h2; rw [← h2]; simp [certEnd, endMark])
      | some y =>
        obtain ⟨body, r'⟩ := y
        have er := findText_eq h'
        rw [certificates_some h h']
        have e : s = a ++ (certBegin ++ body ++ certEnd) ++ r' := by rw [es, er]; simp
        have hfb : ∀ a' b', body ++ certEnd ++ r' = a' ++ certEnd ++ b' → body.length ≤ a'.length := by
          intro a' b' e
          rw [← er] at e
          exact findText_first h' a' b' e
        rw [e]
        refine .cert a _ r' _ ⟨body, rfl, ?_⟩ ?_ (ih r' ?_)
        · intro a' b' e
          have h1 := hfb a' (b' ++ r') (by
            have : body ++ certEnd = a' ++ certEnd ++ b' := e
            rw [this]; simp)
          have h2 := congrArg List.length e
          simp [endMark] at h2
          apply List.length_eq_zero_iff.1
          omega
        · intro a' b' e'
          rw [← e] at e'
          exact findText_first h a' b' e'
        · have := congrArg List.length e
          simp [certBegin, certEnd] at this
          omega

theorem holds_certificates {s : Str} {cs : List Str} (h : Holds s cs) : certificates s = cs := by
  induction h with
  | last gap hg =>
    cases h : findText certBegin gap with
    | none => exact certificates_none h
    | some x =>
      obtain ⟨a, r⟩ := x
      refine certificates_open h ?_
      rw [findText_none]
      intro b c e
      apply hg a b c
      rw [findText_eq h, e]
      simp [certBegin, certEnd, beginMark, endMark]
  | cert gap c rest cs hc hfirst hrest ih =>
    obtain ⟨body, rfl, hb⟩ := hc
    have e1 : gap ++ (beginMark ++ body ++ endMark) ++ rest = gap ++ certBegin ++ (body ++ certEnd ++ rest) := by
      simp [certBegin, beginMark, certEnd, endMark]
    have h1 : findText certBegin (gap ++ certBegin ++ (body ++ certEnd ++ rest)) = some (gap, body ++ certEnd ++ rest) := by
      apply findText_at
      intro a' b' e
      rw [← e1] at e
      exact hfirst a' b' e
    have h2 : findText certEnd (body ++ certEnd ++ rest) = some (body, rest) := by
      apply findText_at
      intro a' b' e
      by_contra hlt
      have e' : (body ++ certEnd) ++ rest = (a' ++ certEnd) ++ b' := e
      rw [List.append_eq_append_iff] at e'
      rcases e' with ⟨t, g1, g2⟩ | ⟨t, g1, g2⟩
      · have := congrArg List.length g1
        simp [certEnd] at this
        omega
      · have := hb a' t g1
        rw [this] at g1
        have := congrArg List.length g1
        simp [certEnd] at this
        omega
    rw [e1, certificates_some h1 h2, ih]
    rfl

/-- The certificates given for a download are those of the CA file: all of them, no other, in their
order. -/
theorem C95_certificates (gypVersion nodeVersion : Str) (proxy noproxy : Option Str) (cafile text : Str)
    (read : Str → Option Str) (hf : cafile ≠ []) (hr : read cafile = some text) (cs : List Str) (hc : cs ≠ []) :
    (∃ q, downloadRequest gypVersion nodeVersion proxy noproxy (some cafile) read = some q ∧ q.ca = some (some cs)) ↔
      Holds text cs := by
  have key : ∀ q, downloadRequest gypVersion nodeVersion proxy noproxy (some cafile) read = some q →
      q.ca = some (readCaFile text) := by
    intro q hq
    unfold downloadRequest at hq
    cases cafile with
    | nil => exact absurd rfl hf
    | cons x xs =>
      simp only [hr, Option.map_some, Option.some.injEq] at hq
      rw [← hq]
  have hsome : ∃ q, downloadRequest gypVersion nodeVersion proxy noproxy (some cafile) read = some q := by
    unfold downloadRequest
    cases cafile with
    | nil => exact absurd rfl hf
    | cons x xs => simp [hr]
  constructor
  · rintro ⟨q, hq, hca⟩
    rw [key q hq] at hca
    have hh := certificates_holds _ text (Nat.le_refl _)
    unfold readCaFile at hca
    split at hca
    · simp at hca
    · simp only [Option.some.injEq] at hca
      rw [hca] at hh
      exact hh
  · intro h
    obtain ⟨q, hq⟩ := hsome
    refine ⟨q, hq, ?_⟩
    rw [key q hq]
    have := holds_certificates h
    unfold readCaFile
    rw [this]
    cases cs with
    | nil => exact absurd rfl hc
    | cons c cs => rfl

/-- Every text holds exactly one list of certificates. -/
theorem C95_unique (text : Str) : ∃ cs, Holds text cs ∧ ∀ cs', Holds text cs' → cs' = cs :=
  ⟨certificates text, certificates_holds _ text (Nat.le_refl _), fun _ h => (holds_certificates h).symm⟩

/-- Without a CA file none is given, so that those built in count; a file that cannot be read is an
error, never a reason to go on without it. -/
theorem C95_no_file (gypVersion nodeVersion : Str) (proxy noproxy : Option Str) (read : Str → Option Str) :
    (∃ q, downloadRequest gypVersion nodeVersion proxy noproxy none read = some q ∧ q.ca = none) ∧
    (∀ f, f ≠ [] → (downloadRequest gypVersion nodeVersion proxy noproxy (some f) read = none ↔ read f = none)) := by
  refine ⟨⟨_, rfl, rfl⟩, ?_⟩
  intro f hf
  unfold downloadRequest
  cases f with
  | nil => exact absurd rfl hf
  | cons x xs => simp

/-- The proxy settings are those of the user, whatever else is asked. -/
theorem C95_proxy {gypVersion nodeVersion : Str} {proxy noproxy cafile : Option Str} {read : Str → Option Str} {q}
    (h : downloadRequest gypVersion nodeVersion proxy noproxy cafile read = some q) :
    q.proxy = proxy ∧ q.noProxy = noproxy ∧
    q.userAgent = c!"node-gyp v" ++ gypVersion ++ c!" (node " ++ nodeVersion ++ c!")" := by
  unfold downloadRequest at h
  simp only at h
  split at h
  · cases h; exact ⟨rfl, rfl, rfl⟩
  · cases h; exact ⟨rfl, rfl, rfl⟩
  · simp only [Option.map_eq_some_iff] at h
    obtain ⟨t, _, rfl⟩ := h
    exact ⟨rfl, rfl, rfl⟩

/-- The code does not refuse a CA file without certificates of this form: `null` is given, which is what
counts as none given, so that the certificates built in are trusted although the user asked for others. -/
theorem C95_null (gypVersion nodeVersion : Str) (proxy noproxy : Option Str) (cafile text : Str)
    (read : Str → Option Str) (hf : cafile ≠ []) (hr : read cafile = some text) :
    (∃ q, downloadRequest gypVersion nodeVersion proxy noproxy (some cafile) read = some q ∧ q.ca = some none) ↔
      NoCert text := by
  have hreq : downloadRequest gypVersion nodeVersion proxy noproxy (some cafile) read =
      some { userAgent := c!"node-gyp v" ++ gypVersion ++ c!" (node " ++ nodeVersion ++ c!")", proxy := proxy,
             noProxy := noproxy, ca := some (readCaFile text) } := by
    unfold downloadRequest
    cases cafile with
    | nil => exact absurd rfl hf
    | cons x xs => simp [hr]
  rw [hreq]
  simp only [Option.some.injEq, exists_eq_left']
  have hh := certificates_holds _ text (Nat.le_refl _)
  constructor
  · intro h
    unfold readCaFile at h
    split at h
    · rename_i hn
      rw [hn] at hh
      cases hh
      assumption
    · cases h
  · intro h
    have := holds_certificates (.last text h)
    unfold readCaFile
    rw [this]

/-- Two certificates, with comments around them. -/
def twoCerts : Str :=
  c!"# A\n" ++ (beginMark ++ c!"\nMIIA\n" ++ endMark) ++ (c!"\n# B --\n" ++ (beginMark ++ c!"\nMIIB\n" ++ endMark) ++ c!"\n")

set_option maxRecDepth 8000 in
example : certificates twoCerts = [beginMark ++ c!"\nMIIA\n" ++ endMark, beginMark ++ c!"\nMIIB\n" ++ endMark] := by
  decide +kernel

/-- So it holds these. -/
example : Holds twoCerts [beginMark ++ c!"\nMIIA\n" ++ endMark, beginMark ++ c!"\nMIIB\n" ++ endMark] := by
  have := certificates_holds _ twoCerts (Nat.le_refl _)
  have e : certificates twoCerts = [beginMark ++ c!"\nMIIA\n" ++ endMark, beginMark ++ c!"\nMIIB\n" ++ endMark] := by
    decide +kernel
  rwa [e] at this

/-- A file of another form, as OpenSSL writes it: no certificate is found. -/
theorem C95_null_witness :
    readCaFile (c!"-----BEGIN TRUSTED CERTIFICATE-----" ++ c!"MIIA" ++ c!"-----END TRUSTED CERTIFICATE-----") = none := by
  decide +kernel

end Gyp
