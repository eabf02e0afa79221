import Verif.Spec.FindVS
import Verif.Proofs.InstallDone
import Verif.Proofs.Path
/-
C56: the search for Visual Studio.
-/
namespace Gyp
open Spec

/-! ### Sorting and picking -/

theorem insertSorted_filter {α : Type} (le : α → α → Bool) (p : α → Bool) (x : α) (l : List α)
    (hx : ∀ y, p x = true → p y = true → le x y = true) :
    (insertSorted le x l).filter p = (x :: l).filter p := by
  induction l with
  | nil => rfl
  | cons y ys ih =>
    unfold insertSorted
    by_cases h : le x y = true
    · rw [if_pos h]
    · rw [if_neg h, List.filter_cons, ih]
      by_cases hpx : p x = true
      · have hpy : ¬ p y = true := fun hy => h (hx y hpx hy)
        simp [hpx, hpy]
      · simp [List.filter_cons, hpx]

/-- Sorting keeps the order of elements with the same key. -/
theorem pySorted_filter {α : Type} (le : α → α → Bool) (p : α → Bool)
    (h : ∀ x y, p x = true → p y = true → le x y = true) (l : List α) :
    (pySorted le l).filter p = l.filter p := by
  induction l with
  | nil => rfl
  | cons x xs ih =>
    show (insertSorted le x (pySorted le xs)).filter p = _
    rw [insertSorted_filter le p x _ (h x), List.filter_cons, List.filter_cons, ih]

theorem findSome_split {α β : Type} (f : α → Option β) (l : List α) (r : β)
    (h : l.findSome? f = some r) :
    ∃ s1 a s2, l = s1 ++ a :: s2 ∧ f a = some r ∧ ∀ a' ∈ s1, f a' = none := by
  induction l with
  | nil => cases h
  | cons x xs ih =>
    rw [List.findSome?_cons] at h
    cases hx : f x with
    | some b =>
      rw [hx] at h
      cases h
      exact ⟨[], x, xs, rfl, hx, by simp⟩
    | none =>
      rw [hx] at h
      obtain ⟨s1, a, s2, e, ha, hn⟩ := ih h
      refine ⟨x :: s1, a, s2, by rw [e]; rfl, ha, ?_⟩
      intro a' ha'
      rcases List.mem_cons.mp ha' with rfl | ha'
      · exact hx
      · exact hn a' ha'

/-- The first hit in a list sorted by decreasing key is the first of the hits
with the largest key. -/
theorem findSome_sorted {α β : Type} (key : α → Nat) (f : α → Option β) (l : List α) (r : β)
    (h : (pySorted (fun a b => decide (key b ≤ key a)) l).findSome? f = some r) :
    ∃ before a after, l = before ++ a :: after ∧ f a = some r ∧
      (∀ a' ∈ l, f a' ≠ none → key a' ≤ key a) ∧ (∀ a' ∈ before, f a' ≠ none → key a' < key a) := by
  obtain ⟨s1, a, s2, e, ha, hn⟩ := findSome_split f _ r h
  have hpw := pySorted_pairwise (fun a b => decide (key b ≤ key a))
    (by intro a b; simp only [decide_eq_true_eq]; omega)
    (by intro a b c; simp only [decide_eq_true_eq]; omega) l
  rw [e] at hpw
  have hmax : ∀ a' ∈ l, f a' ≠ none → key a' ≤ key a := by
    intro a' ha' hf
    have : a' ∈ s1 ++ a :: s2 := by
      rw [← e]; exact (pySorted_perm _ l).mem_iff.mpr ha'
    rcases List.mem_append.mp this with h1 | h1
    · exact absurd (hn a' h1) hf
    · rcases List.mem_cons.mp h1 with rfl | h1
      · exact le_refl _
      · have := (List.pairwise_append.mp hpw).2.1
        rw [List.pairwise_cons] at this
        simpa using this.1 a' h1
  have hfil := pySorted_filter (fun a b => decide (key b ≤ key a)) (fun x => decide (key x = key a))
    (by intro x y; simp only [decide_eq_true_eq]; omega) l
  rw [e, List.filter_append, List.filter_cons, if_pos (by simp)] at hfil
  obtain ⟨l1, l2, e1, f1, f2⟩ := List.filter_eq_append_iff.mp hfil.symm
  obtain ⟨m, n, e2, hm, hpa, f3⟩ := List.filter_eq_cons_iff.mp f2
  refine ⟨l1 ++ m, a, n, by rw [e1, e2]; simp, ha, hmax, ?_⟩
  intro a' ha' hf
  have hle := hmax a' (by rw [e1, e2]; rcases List.mem_append.mp ha' with h | h <;> simp [h]) hf
  rcases Nat.lt_or_ge (key a') (key a) with hlt | hge
  · exact hlt
  · exfalso
    have heq : key a' = key a := by omega
    rcases List.mem_append.mp ha' with h1 | h1
    · have : a' ∈ s1.filter (fun x => decide (key x = key a)) := by
        rw [← f1]; exact List.mem_filter.mpr ⟨h1, by simpa using heq⟩
      exact hf (hn a' (List.mem_filter.mp this).1)
    · exact hm a' h1 (by simpa using heq)

/-! ### Reading numbers -/

theorem isDec_iff (c : Char) : isDec c = true ↔ '0' ≤ c ∧ c ≤ '9' := by
  unfold isDec; simp

theorem leadingNat_digits {ds r : Str} (hd : ∀ c ∈ ds, '0' ≤ c ∧ c ≤ '9')
    (hr : ∀ c, r.head? = some c → ¬ ('0' ≤ c ∧ c ≤ '9')) : leadingNat (ds ++ r) = decValue ds := by
  unfold leadingNat decValue
  have : (ds ++ r).takeWhile (fun c => decide ('0' ≤ c ∧ c ≤ '9')) = ds := by
    induction ds with
    | nil =>
      cases r with
      | nil => rfl
      | cons c r => simp [hr c rfl]
    | cons d ds ih =>
      simp only [List.cons_append, List.takeWhile_cons]
      rw [if_pos (by simpa using hd d (by simp)), ih (fun c hc => hd c (by simp [hc]))]
  rw [this]

theorem dec_not_jsSpace {c : Char} (h : '0' ≤ c ∧ c ≤ '9') : jsSpace c = false := by
  have h1 : 48 ≤ c.toNat := h.1
  have h2 : c.toNat ≤ 57 := h.2
  rw [jsSpace_false_iff]
  unfold Space
  simp only [List.mem_cons, List.not_mem_nil, or_false]
  omega

theorem parseInt_pos {text : Str} {n : Nat} (hn : 0 < n) :
    StartsWithNumber text n ↔ parseIntOr0 text = (n : Int) := by
  constructor
  · rintro ⟨a, sign, ds, r, rfl, ha, hs, hd, hr, hv⟩
    have hne : ds ≠ [] := by
      rintro rfl
      rw [← hv] at hn
      exact absurd hn (by decide)
    obtain ⟨d, ds', rfl⟩ := List.exists_cons_of_ne_nil hne
    have hd0 := hd d (by simp)
    have hdrop : ∀ s : Str, (a ++ s).dropWhile jsSpace = s.dropWhile jsSpace := fun s => dropWhile_blank ha
    unfold parseIntOr0
    rcases hs with rfl | rfl
    · have e : (a ++ [] ++ d :: ds' ++ r).dropWhile jsSpace = d :: ds' ++ r := by
        rw [List.append_nil, List.append_assoc, hdrop, List.cons_append, List.dropWhile_cons,
          dec_not_jsSpace hd0]
        rfl
      rw [e]
      have hm : d ≠ '-' := by rintro rfl; exact absurd hd0 (by decide)
      have hp : d ≠ '+' := by rintro rfl; exact absurd hd0 (by decide)
      simp only [List.cons_append]
      split
      · rename_i h; simp at h; exact absurd h.1 hm
      · rename_i h; simp at h; exact absurd h.1 hp
      · rw [← List.cons_append, leadingNat_digits hd hr, hv]
    · have e : (a ++ c!"+" ++ d :: ds' ++ r).dropWhile jsSpace = '+' :: (d :: ds' ++ r) := by
        rw [List.append_assoc, List.append_assoc, hdrop]
        rfl
      rw [e]
      show ((leadingNat (d :: ds' ++ r) : Nat) : Int) = n
      rw [leadingNat_digits hd hr, hv]
  · intro h
    have hsplit : text = text.takeWhile jsSpace ++ text.dropWhile jsSpace :=
      List.takeWhile_append_dropWhile.symm
    have hbl : Blank (text.takeWhile jsSpace) := fun c hc =>
      jsSpace_Space (List.all_eq_true.mp List.all_takeWhile c hc)
    unfold parseIntOr0 at h
    split at h
    · exfalso; omega
    · rename_i r hr
      obtain ⟨ds, t, h1, h2, h3, h4⟩ := leadingNat_spec r
      refine ⟨_, c!"+", ds, t, ?_, hbl, Or.inr rfl, h2, h3, by omega⟩
      conv_lhs => rw [hsplit, hr, h1]
      simp
    · obtain ⟨ds, t, h1, h2, h3, h4⟩ := leadingNat_spec (text.dropWhile jsSpace)
      refine ⟨_, [], ds, t, ?_, hbl, Or.inl rfl, h2, h3, by omega⟩
      conv_lhs => rw [hsplit, h1]
      simp

theorem leadingNat_all {s : Str} (h : ∀ c ∈ s, '0' ≤ c ∧ c ≤ '9') : leadingNat s = decValue s := by
  have := leadingNat_digits (ds := s) (r := []) h (by simp)
  rwa [List.append_nil] at this

/-! ### Versions -/

theorem takeWhile_dec (s : Str) : ∀ c ∈ s.takeWhile isDec, '0' ≤ c ∧ c ≤ '9' :=
  fun c hc => (isDec_iff c).mp (List.all_eq_true.mp List.all_takeWhile c hc)

theorem cut_digits {a r : Str} (ha : ∀ c ∈ a, '0' ≤ c ∧ c ≤ '9')
    (hr : ∀ c, r.head? = some c → ¬ ('0' ≤ c ∧ c ≤ '9')) :
    (a ++ r).takeWhile isDec = a ∧ (a ++ r).dropWhile isDec = r := by
  induction a with
  | nil =>
    cases r with
    | nil => exact ⟨rfl, rfl⟩
    | cons c r =>
      have : isDec c = false := by
        rw [← Bool.not_eq_true, isDec_iff]; exact hr c rfl
      simp [this]
  | cons d a ih =>
    obtain ⟨h1, h2⟩ := ih (fun c hc => ha c (by simp [hc]))
    have : isDec d = true := (isDec_iff d).mpr (ha d (by simp))
    simp [this, h1, h2]

/-- The three versions that are known. -/
def yearOf (major : Nat) : Option Nat :=
  if major = 15 then some 2017 else if major = 16 then some 2019 else if major = 17 then some 2022
  else none

theorem getVersionInfo_spec (text : Str) (major minor year : Nat) :
    getVersionInfo text = some (major, minor, year) ↔
      VsVersion text major minor ∧ yearOf major = some year := by
  have hy : ∀ m n : Nat, (if m = 15 then some (m, n, 2017) else if m = 16 then some (m, n, 2019)
      else if m = 17 then some (m, n, 2022) else none) = some (major, minor, year) ↔
      m = major ∧ n = minor ∧ yearOf major = some year := by
    intro m n
    unfold yearOf
    constructor
    · intro h
      by_cases h1 : m = 15
      · subst h1; simp only [if_true, Option.some.injEq, Prod.mk.injEq] at h
        obtain ⟨rfl, rfl, rfl⟩ := h; simp
      · rw [if_neg h1] at h
        by_cases h2 : m = 16
        · subst h2; simp only [if_true, Option.some.injEq, Prod.mk.injEq] at h
          obtain ⟨rfl, rfl, rfl⟩ := h; simp
        · rw [if_neg h2] at h
          by_cases h3 : m = 17
          · subst h3; simp only [if_true, Option.some.injEq, Prod.mk.injEq] at h
            obtain ⟨rfl, rfl, rfl⟩ := h; simp
          · rw [if_neg h3] at h; cases h
    · rintro ⟨rfl, rfl, h⟩
      by_cases h1 : m = 15
      · simp [h1] at h ⊢; exact h
      · simp [h1] at h ⊢
        by_cases h2 : m = 16
        · simp [h2] at h ⊢; exact h
        · simp [h2] at h ⊢
          by_cases h3 : m = 17
          · simp [h3] at h ⊢; exact h
          · simp [h3] at h
  unfold getVersionInfo
  constructor
  · intro h
    cases hd : text.dropWhile isDec with
    | nil => rw [hd] at h; cases h
    | cons c rest =>
      rw [hd] at h
      by_cases hc : c = '.'
      · subst hc
        simp only at h
        by_cases hne : text.takeWhile isDec = [] ∨ rest.takeWhile isDec = []
        · rw [if_pos hne] at h; cases h
        · rw [if_neg hne] at h
          obtain ⟨h1, h2, h3⟩ := (hy _ _).mp h
          push Not at hne
          refine ⟨⟨text.takeWhile isDec, rest.takeWhile isDec, rest.dropWhile isDec, ?_,
            ⟨hne.1, takeWhile_dec _⟩, ⟨hne.2, takeWhile_dec _⟩, ?_, ?_, ?_⟩, h3⟩
          · have e1 : text = text.takeWhile isDec ++ text.dropWhile isDec :=
              List.takeWhile_append_dropWhile.symm
            have e2 : rest = rest.takeWhile isDec ++ rest.dropWhile isDec :=
              List.takeWhile_append_dropWhile.symm
            conv_lhs => rw [e1, hd, e2]
            simp
          · intro c hc
            have := List.head?_dropWhile_not isDec rest
            rw [hc] at this
            rw [← isDec_iff]
            simpa using this
          · rw [← h1, leadingNat_all (takeWhile_dec _)]
          · rw [← h2, leadingNat_all (takeWhile_dec _)]
      · exfalso
        split at h
        · rename_i r e
          simp only [List.cons.injEq] at e
          exact hc e.1
        · cases h
  · rintro ⟨⟨a, b, r, rfl, ⟨ha0, ha⟩, ⟨hb0, hb⟩, hr, h1, h2⟩, h3⟩
    obtain ⟨c1, c2⟩ := cut_digits (a := a) (r := '.' :: (b ++ r)) ha (by
      intro c hc; simp at hc; subst hc; decide)
    obtain ⟨c3, c4⟩ := cut_digits (a := b) (r := r) hb hr
    have e : a ++ c!"." ++ b ++ r = a ++ '.' :: (b ++ r) := by simp
    rw [e, c2]
    simp only
    rw [c1, c3, if_neg (by push Not; exact ⟨ha0, hb0⟩)]
    rw [hy]
    exact ⟨by rw [leadingNat_all ha, h1], by rw [leadingNat_all hb, h2], h3⟩

theorem known_iff (major year : Nat) (t : Str) : (major, year, t) ∈ knownVersions ↔
    yearOf major = some year ∧
      (if some year = some 2017 then some c!"v141" else if some year = some 2019 then some c!"v142"
        else if some year = some 2022 then some c!"v143" else none) = some t := by
  unfold knownVersions yearOf
  simp only [List.mem_cons, List.not_mem_nil, or_false, Prod.mk.injEq]
  constructor
  · rintro (⟨rfl, rfl, rfl⟩ | ⟨rfl, rfl, rfl⟩ | ⟨rfl, rfl, rfl⟩) <;> simp
  · rintro ⟨h1, h2⟩
    by_cases e1 : major = 15
    · rw [if_pos e1] at h1; cases h1; simp at h2; left; exact ⟨e1, rfl, h2.symm⟩
    · rw [if_neg e1] at h1
      by_cases e2 : major = 16
      · rw [if_pos e2] at h1; cases h1; simp at h2; right; left; exact ⟨e2, rfl, h2.symm⟩
      · rw [if_neg e2] at h1
        by_cases e3 : major = 17
        · rw [if_pos e3] at h1; cases h1; simp at h2; right; right; exact ⟨e3, rfl, h2.symm⟩
        · rw [if_neg e3] at h1; cases h1

/-! ### The parts of an installation -/

theorem getMSBuild_spec (E : VsEnv) (path : Str) (packages : List Str) (year : Nat) (p : Str) :
    getMSBuild E path packages (some year) = some p ↔ MsBuild E path packages year p := by
  unfold getMSBuild MsBuild
  simp only [Option.some.injEq]
  generalize winJoin path [c!"MSBuild", c!"Current", c!"Bin", c!"MSBuild.exe"] = general
  generalize winJoin path [c!"MSBuild", c!"Current", c!"Bin", c!"arm64", c!"MSBuild.exe"] = native
  generalize winJoin path [c!"MSBuild", c!"15.0", c!"Bin", c!"MSBuild.exe"] = old
  by_cases hp : c!"Microsoft.VisualStudio.VC.MSBuild.Base" ∈ packages <;>
  by_cases h17 : year = 2017 <;> by_cases h19 : year = 2019 <;>
  by_cases ha : E.arm64 = true <;> by_cases hn : E.exists_ native = true <;>
  by_cases hg : E.exists_ general = true <;>
  simp [hp, h17, h19, ha, hn, hg, eq_comm]

theorem splitOn_pkg (w text rest : Str) (hw : '.' ∉ w) (ht : '.' ∉ text)
    (hr : rest = [] ∨ ∃ more, rest = '.' :: more) :
    splitOn '.' (c!"Microsoft.VisualStudio.Component.Windows" ++ w ++ c!"SDK." ++ text ++ rest) =
      [c!"Microsoft", c!"VisualStudio", c!"Component", c!"Windows" ++ w ++ c!"SDK", text] ++
      (match rest with | [] => [] | _ :: more => splitOn '.' more) := by
  have e : c!"Microsoft.VisualStudio.Component.Windows" ++ w ++ c!"SDK." ++ text ++ rest =
      c!"Microsoft" ++ '.' :: (c!"VisualStudio" ++ '.' :: (c!"Component" ++ '.' ::
        ((c!"Windows" ++ w ++ c!"SDK") ++ '.' :: (text ++ rest)))) := by simp
  rw [e, splitOn_append_sep, splitOn_append_sep, splitOn_append_sep, splitOn_append_sep,
    splitOn_noSep (w := c!"Microsoft") (by decide), splitOn_noSep (w := c!"VisualStudio") (by decide),
    splitOn_noSep (w := c!"Component") (by decide),
    splitOn_noSep (w := c!"Windows" ++ w ++ c!"SDK") (by simp [hw])]
  rcases hr with rfl | ⟨more, rfl⟩
  · rw [List.append_nil, splitOn_noSep ht]; rfl
  · rw [splitOn_append_sep, splitOn_noSep ht]; rfl

/-- The part after the number is empty or begins with `Desktop`. -/
def sdkTail : Str → Bool
  | [] => true
  | _ :: more => decide ((splitOn '.' more).head? = some c!"Desktop")

/-- What one package contributes to the number of the SDK. -/
theorem sdkStep_spec (best : Int) (hb : 0 ≤ best) (pkg : Str) :
    best ≤ sdkStep best pkg ∧ (∀ n, SdkPackage pkg n → (n : Int) ≤ sdkStep best pkg) ∧
    (sdkStep best pkg = best ∨ ∃ n : Nat, sdkStep best pkg = n ∧ SdkPackage pkg n) := by
  -- the package has the right form: its value is the number
  have form : ∀ w text rest, (w = c!"10" ∨ w = c!"11") →
      pkg = c!"Microsoft.VisualStudio.Component.Windows" ++ w ++ c!"SDK." ++ text ++ rest →
      '.' ∉ text → (rest = [] ∨ ∃ more, rest = '.' :: more) →
      sdkStep best pkg =
        if sdkTail rest = true then max best (parseIntOr0 text) else best := by
    intro w text rest hw hp ht hr
    have hst : (!startsWith pkg c!"Microsoft.VisualStudio.Component.Windows10SDK." &&
      !startsWith pkg c!"Microsoft.VisualStudio.Component.Windows11SDK.") = false := by
      rcases hw with rfl | rfl
      · have : startsWith pkg c!"Microsoft.VisualStudio.Component.Windows10SDK." = true :=
          List.isPrefixOf_iff_prefix.mpr ⟨text ++ rest, by rw [hp]; simp⟩
        rw [this]; rfl
      · have : startsWith pkg c!"Microsoft.VisualStudio.Component.Windows11SDK." = true :=
          List.isPrefixOf_iff_prefix.mpr ⟨text ++ rest, by rw [hp]; simp⟩
        rw [this]; simp
    have hwd : '.' ∉ w := by rcases hw with rfl | rfl <;> decide
    unfold sdkStep
    rw [hst, hp, splitOn_pkg w text rest hwd ht hr]
    simp only [Bool.false_eq_true, if_false]
    rcases hr with rfl | ⟨more, rfl⟩
    · simp [sdkTail]
    · cases hs : splitOn '.' more with
      | nil => exact absurd hs splitOn_ne_nil
      | cons x xs => by_cases hx : x = c!"Desktop" <;> simp [hx, sdkTail, hs]
  have key : ∀ n, SdkPackage pkg n → sdkStep best pkg = max best (n : Int) := by
    rintro n ⟨w, text, rest, hw, hp, ht, hr, hn, h0⟩
    have hr' : rest = [] ∨ ∃ more, rest = '.' :: more := by
      rcases hr with h | h | ⟨more, h⟩
      · exact Or.inl h
      · exact Or.inr ⟨c!"Desktop", h⟩
      · exact Or.inr ⟨c!"Desktop." ++ more, h⟩
    rw [form w text rest hw hp ht hr', (parseInt_pos h0).mp hn]
    apply if_pos
    rcases hr with rfl | rfl | ⟨more, rfl⟩
    · rfl
    · decide
    · have e : c!".Desktop." ++ more = '.' :: (c!"Desktop" ++ '.' :: more) := by simp
      rw [e]
      show decide ((splitOn '.' (c!"Desktop" ++ '.' :: more)).head? = some c!"Desktop") = true
      rw [decide_eq_true_eq, splitOn_append_sep, splitOn_noSep (by decide)]; rfl
  by_cases hst : (!startsWith pkg c!"Microsoft.VisualStudio.Component.Windows10SDK." &&
      !startsWith pkg c!"Microsoft.VisualStudio.Component.Windows11SDK.") = true
  · have e : sdkStep best pkg = best := by unfold sdkStep; rw [if_pos hst]
    refine ⟨by omega, ?_, Or.inl e⟩
    intro n hn
    rw [key n hn]; omega
  · -- split the package name
    have hex : ∃ w tail, (w = c!"10" ∨ w = c!"11") ∧
        pkg = c!"Microsoft.VisualStudio.Component.Windows" ++ w ++ c!"SDK." ++ tail := by
      simp only [Bool.and_eq_true, Bool.not_eq_true', not_and_or, Bool.not_eq_false] at hst
      rcases hst with h | h
      · obtain ⟨t, ht⟩ := List.isPrefixOf_iff_prefix.mp h
        exact ⟨c!"10", t, Or.inl rfl, by rw [← ht]; simp⟩
      · obtain ⟨t, ht⟩ := List.isPrefixOf_iff_prefix.mp h
        exact ⟨c!"11", t, Or.inr rfl, by rw [← ht]; simp⟩
    obtain ⟨w, tail, hw, hp⟩ := hex
    have hcut : ∃ text rest, tail = text ++ rest ∧ '.' ∉ text ∧ (rest = [] ∨ ∃ more, rest = '.' :: more) := by
      refine ⟨tail.takeWhile (· ≠ '.'), tail.dropWhile (· ≠ '.'), List.takeWhile_append_dropWhile.symm, ?_, ?_⟩
      · intro hm
        have := List.all_eq_true.mp (List.all_takeWhile (p := fun c : Char => decide (c ≠ '.')) (l := tail)) '.' hm
        simp at this
      · cases hd : tail.dropWhile (· ≠ '.') with
        | nil => exact Or.inl rfl
        | cons c more =>
          right
          have := List.head?_dropWhile_not (fun c : Char => decide (c ≠ '.')) tail
          rw [hd] at this
          simp at this
          exact ⟨more, by rw [this]⟩
    obtain ⟨text, rest, rfl, ht, hr⟩ := hcut
    have hform := form w text rest hw (by rw [hp]; simp) ht hr
    have hge : best ≤ sdkStep best pkg := by
      rw [hform]; split
      · omega
      · omega
    refine ⟨hge, fun n hn => by rw [key n hn]; omega, ?_⟩
    by_cases hle : sdkStep best pkg = best
    · exact Or.inl hle
    · right
      have hcond : sdkTail rest = true := by
        by_contra hcon
        rw [if_neg hcon] at hform
        exact hle hform
      rw [if_pos hcond] at hform
      have hgt : best < parseIntOr0 text := by
        omega
      obtain ⟨n, hn⟩ : ∃ n : Nat, parseIntOr0 text = n := ⟨(parseIntOr0 text).toNat, by omega⟩
      have hpos : 0 < n := by omega
      refine ⟨n, by omega, w, text, rest, hw, by rw [hp]; simp, ht, ?_,
        (parseInt_pos hpos).mpr hn, hpos⟩
      rcases hr with rfl | ⟨more, rfl⟩
      · exact Or.inl rfl
      · right
        have hh : (splitOn '.' more).head? = some c!"Desktop" := of_decide_eq_true hcond
        have hj := joinWith_splitOn (c := '.') (s := more)
        cases hs : splitOn '.' more with
        | nil => exact absurd hs splitOn_ne_nil
        | cons x xs =>
          rw [hs] at hh hj
          simp only [List.head?_cons, Option.some.injEq] at hh
          subst hh
          cases xs with
          | nil => left; rw [← hj]; simp [joinWith]
          | cons y ys => right; exact ⟨joinWith ['.'] (y :: ys), by rw [← hj]; simp [joinWith]⟩

theorem sdk_fold (packages : List Str) (best : Int) (hb : 0 ≤ best) :
    best ≤ packages.foldl sdkStep best ∧
    (∀ pkg ∈ packages, ∀ n, SdkPackage pkg n → (n : Int) ≤ packages.foldl sdkStep best) ∧
    (packages.foldl sdkStep best = best ∨
      ∃ n : Nat, packages.foldl sdkStep best = n ∧ ∃ pkg ∈ packages, SdkPackage pkg n) := by
  induction packages generalizing best with
  | nil => exact ⟨by simp, by simp, Or.inl rfl⟩
  | cons p ps ih =>
    obtain ⟨s1, s2, s3⟩ := sdkStep_spec best hb p
    obtain ⟨i1, i2, i3⟩ := ih (sdkStep best p) (by omega)
    rw [List.foldl_cons]
    refine ⟨by omega, ?_, ?_⟩
    · intro pkg hp n hn
      rcases List.mem_cons.mp hp with rfl | hp
      · have := s2 n hn; omega
      · exact i2 pkg hp n hn
    · rcases i3 with h | ⟨n, h, pkg, hp, hn⟩
      · rw [h]
        rcases s3 with h' | ⟨n, h', hn⟩
        · exact Or.inl h'
        · exact Or.inr ⟨n, h', p, by simp, hn⟩
      · exact Or.inr ⟨n, h, pkg, by simp [hp], hn⟩

theorem getSDK_spec (packages : List Str) (s : Str) : getSDK packages = some s ↔ Sdk packages s := by
  obtain ⟨h1, h2, h3⟩ := sdk_fold packages 0 (by omega)
  unfold getSDK Sdk
  generalize packages.foldl sdkStep 0 = best at *
  simp only
  by_cases hb : best = 0
  · have hno : ∀ pkg ∈ packages, ∀ m, ¬ SdkPackage pkg m := by
      intro pkg hp m hm
      have := h2 pkg hp m hm
      obtain ⟨_, _, _, _, _, _, _, _, h0⟩ := hm
      omega
    rw [if_neg (by simpa using hb)]
    constructor
    · intro h
      by_cases hw : c!"Microsoft.VisualStudio.Component.Windows81SDK" ∈ packages
      · rw [if_pos hw] at h; cases h; exact Or.inr ⟨hno, hw, rfl⟩
      · rw [if_neg hw] at h; cases h
    · rintro (⟨n, ⟨pkg, hp, hn⟩, _⟩ | ⟨_, hw, rfl⟩)
      · exact absurd hn (hno pkg hp n)
      · rw [if_pos hw]
  · obtain ⟨n, hn, pkg, hp, hpn⟩ : ∃ n : Nat, best = n ∧ ∃ pkg ∈ packages, SdkPackage pkg n := by
      rcases h3 with h | h
      · exact absurd h hb
      · exact h
    rw [if_pos hb, hn]
    have hmax : ∀ pkg ∈ packages, ∀ m, SdkPackage pkg m → m ≤ n := by
      intro q hq m hm
      have := h2 q hq m hm
      omega
    constructor
    · intro h; cases h
      exact Or.inl ⟨n, ⟨pkg, hp, hpn⟩, hmax, rfl⟩
    · rintro (⟨m, ⟨q, hq, hm⟩, hmx, rfl⟩ | ⟨hno, _⟩)
      · have e : m = n := le_antisymm (hmax q hq m hm) (hmx pkg hp n hpn)
        rw [e]; rfl
      · exact absurd hpn (hno pkg hp n)

theorem all_isDec {s : Str} (hne : s ≠ []) : s.all isDec = true ↔ IsDigits s := by
  unfold IsDigits
  rw [List.all_eq_true]
  constructor
  · intro h; exact ⟨hne, fun c hc => (isDec_iff c).mp (h c hc)⟩
  · intro h c hc; exact (isDec_iff c).mpr (h.2 c hc)

theorem checkConfigVersion_spec (E : VsEnv) (hE : PathsResolve E) (year : Nat) (path : Str) :
    checkConfigVersion E year path = true ↔ Requested E year path := by
  unfold checkConfigVersion Requested configYear configPath envVcInstallDir
  have hfour : (E.msvsVersion.length = 4 ∧ E.msvsVersion.all isDec = true) ↔
      (E.msvsVersion.length = 4 ∧ IsDigits E.msvsVersion) := by
    constructor
    · rintro ⟨h1, h2⟩
      exact ⟨h1, (all_isDec (by rintro h; rw [h] at h1; cases h1)).mp h2⟩
    · rintro ⟨h1, h2⟩
      exact ⟨h1, (all_isDec (by rintro h; rw [h] at h1; cases h1)).mpr h2⟩
  have hvc : (¬ (if E.vcInstallDir = [] then [] else E.resolveUp E.vcInstallDir) = [] ∧
      ¬ E.samePath (if E.vcInstallDir = [] then [] else E.resolveUp E.vcInstallDir) path = true) ↔
      ¬ (E.vcInstallDir ≠ [] → E.samePath (E.resolveUp E.vcInstallDir) path = true) := by
    by_cases hv : E.vcInstallDir = []
    · simp [hv]
    · simp [hv, hE.2]
  have hlast : (if (¬ (if E.vcInstallDir = [] then [] else E.resolveUp E.vcInstallDir) = [] ∧
      ¬ E.samePath (if E.vcInstallDir = [] then [] else E.resolveUp E.vcInstallDir) path = true)
      then false else true) = true ↔
      (E.vcInstallDir ≠ [] → E.samePath (E.resolveUp E.vcInstallDir) path = true) := by
    by_cases h : (E.vcInstallDir ≠ [] → E.samePath (E.resolveUp E.vcInstallDir) path = true)
    · rw [if_neg (fun hh => (hvc.mp hh) h)]; simp only [true_iff]; exact h
    · rw [if_pos (hvc.mpr h)]; simp only [Bool.false_eq_true, false_iff]; exact h
  by_cases h4 : E.msvsVersion.length = 4 ∧ E.msvsVersion.all isDec = true
  · have h4' := hfour.mp h4
    have hne : E.msvsVersion ≠ [] := h4'.2.1
    simp only [if_pos h4, Option.any_some]
    rw [leadingNat_all h4'.2.2]
    simp only [hne, if_false, ne_eq, not_true, false_and]
    by_cases hy : decValue E.msvsVersion ≠ 0 ∧ decValue E.msvsVersion ≠ year
    · rw [if_pos (by simpa using hy)]
      constructor
      · intro h; cases h
      · rintro ⟨h, _⟩; exact absurd (h h4'.1 h4'.2 hy.1).symm hy.2
    · rw [if_neg (by simpa using hy)]
      refine hlast.trans ?_
      constructor
      · intro h
        refine ⟨fun _ _ h0 => ?_, fun _ hn => absurd h4' hn, h⟩
        by_contra hc
        exact hy ⟨h0, fun e => hc e.symm⟩
      · rintro ⟨_, _, h⟩; exact h
  · have h4' := fun h => h4 (hfour.mpr h)
    simp only [if_neg h4, Option.any_none, Bool.false_eq_true, if_false]
    by_cases hm : E.msvsVersion = []
    · simp only [hm, if_true, ne_eq, not_true, false_and, if_false]
      refine hlast.trans ?_
      constructor
      · intro h
        exact ⟨fun hl => (by cases hl), fun h' => absurd h' (by simp), h⟩
      · rintro ⟨_, _, h⟩; exact h
    · simp only [hm, if_false, ne_eq, hE.1, not_false_eq_true, true_and]
      by_cases hs : E.samePath (E.resolve E.msvsVersion) path = true
      · rw [if_neg (by simp [hs])]
        refine hlast.trans ?_
        constructor
        · intro h
          exact ⟨fun hl hd => absurd ⟨hl, hd⟩ h4', fun _ _ => hs, h⟩
        · rintro ⟨_, _, h⟩; exact h
      · rw [if_pos hs]
        constructor
        · intro h; cases h
        · rintro ⟨_, h, _⟩; exact absurd (h trivial h4') hs

/-! ### One installation -/

/-- An installation that passes the filter and is accepted. -/
def vsOne (E : VsEnv) (years : List Nat) (c : VsCand) : Option VsInfo :=
  if (c.version.isSome && years.contains c.year) = true then vsAccept E c else none

theorem vsAccept_year {E : VsEnv} {c : VsCand} {r : VsInfo} (h : vsAccept E c = some r) :
    r.versionYear = c.year := by
  unfold vsAccept at h
  unfold VsCand.year
  split at h
  · rename_i hv _ _ _
    split at h
    · cases h; rw [hv]
    · cases h
  · cases h

theorem vsOne_spec (E : VsEnv) (hE : PathsResolve E) (years : List Nat) (i : VsInst) (r : VsInfo) :
    vsOne E years (vsProcess E i) = some r ↔ UsableAs E years i r := by
  unfold vsOne
  have hproc : (vsProcess E i).version = getVersionInfo i.version := rfl
  constructor
  · intro h
    by_cases hf : ((vsProcess E i).version.isSome && years.contains (vsProcess E i).year) = true
    · rw [if_pos hf] at h
      have hy := vsAccept_year h
      unfold vsAccept at h
      cases hv : getVersionInfo i.version with
      | none => rw [hproc, hv] at h; cases h
      | some t =>
        obtain ⟨major, minor, year⟩ := t
        have hyear : (vsProcess E i).year = year := by unfold VsCand.year; rw [hproc, hv]
        rw [hproc, hv] at h
        obtain ⟨hver, hyo⟩ := (getVersionInfo_spec _ _ _ _).mp hv
        have e1 : (vsProcess E i).msBuild = getMSBuild E (E.resolve i.path) i.packages (some year) := by
          unfold vsProcess; rw [hv]; rfl
        have e2 : (vsProcess E i).toolset = getToolset E i.packages (some year) := by
          unfold vsProcess; rw [hv]; rfl
        have e3 : (vsProcess E i).sdk = getSDK i.packages := rfl
        rw [e1, e2, e3] at h
        cases hm : getMSBuild E (E.resolve i.path) i.packages (some year) with
        | none => rw [hm] at h; cases h
        | some mb =>
          cases ht : getToolset E i.packages (some year) with
          | none => rw [hm, ht] at h; cases h
          | some ts =>
            cases hs : getSDK i.packages with
            | none => rw [hm, ht, hs] at h; cases h
            | some sdk =>
              rw [hm, ht, hs] at h
              simp only at h
              by_cases hc : checkConfigVersion E year (vsProcess E i).path = true
              · rw [if_pos hc] at h
                cases h
                have hts : HasToolset E i.packages ∧ (if some year = some 2017 then some c!"v141"
                    else if some year = some 2019 then some c!"v142"
                    else if some year = some 2022 then some c!"v143" else none) = some ts := by
                  unfold getToolset at ht
                  simp only at ht
                  split at ht
                  · rename_i hh
                    refine ⟨?_, ht⟩
                    unfold HasToolset
                    tauto
                  · cases ht
                have hin : year ∈ years := by
                  rw [hyear] at hf
                  simpa using (Bool.and_eq_true _ _ |>.mp hf).2
                exact ⟨hver, (known_iff _ _ _).mpr ⟨hyo, hts.2⟩, hin, rfl, rfl,
                  (getMSBuild_spec _ _ _ _ _).mp hm, hts.1, ⟨sdk, rfl, (getSDK_spec _ _).mp hs⟩,
                  (checkConfigVersion_spec E hE _ _).mp hc⟩
              · rw [if_neg hc] at h; cases h
    · rw [if_neg hf] at h; cases h
  · rintro ⟨hver, hk, hin, hv1, hv2, hmb, hts, ⟨sdk, hsdk, hs⟩, hreq⟩
    obtain ⟨hyo, htool⟩ := (known_iff _ _ _).mp hk
    have hv := (getVersionInfo_spec _ _ _ _).mpr ⟨hver, hyo⟩
    have hyear : (vsProcess E i).year = r.versionYear := by unfold VsCand.year; rw [hproc, hv]
    rw [if_pos (by rw [hproc, hv, hyear]; simpa using hin)]
    have e1 : (vsProcess E i).msBuild = some r.msBuild := by
      have : (vsProcess E i).msBuild = getMSBuild E (E.resolve i.path) i.packages (some r.versionYear) := by
        unfold vsProcess; rw [hv]; rfl
      rw [this, ← hv2]; exact (getMSBuild_spec _ _ _ _ _).mpr hmb
    have e2 : (vsProcess E i).toolset = some r.toolset := by
      have : (vsProcess E i).toolset = getToolset E i.packages (some r.versionYear) := by
        unfold vsProcess; rw [hv]; rfl
      rw [this]
      unfold getToolset
      simp only
      rw [if_pos (by unfold HasToolset at hts; tauto)]
      exact htool
    have e3 : (vsProcess E i).sdk = some sdk := (getSDK_spec _ _).mpr hs
    have e4 : (vsProcess E i).path = r.path := hv2.symm
    have e5 : (vsProcess E i).text = r.version := hv1.symm
    unfold vsAccept
    rw [hproc, hv, e1, e2, e3, e4, e5]
    simp only
    rw [if_pos ((checkConfigVersion_spec E hE _ _).mpr hreq)]
    cases r
    simp only at hsdk
    rw [hsdk]

/-! ### The theorems -/

theorem findSome_none_iff {α β : Type} (f : α → Option β) (l : List α) :
    l.findSome? f = none ↔ ∀ a ∈ l, f a = none := List.findSome?_eq_none_iff

theorem processData_picks (E : VsEnv) (hE : PathsResolve E) (report : List VsInst) (years : List Nat) (r : VsInfo)
    (h : processData E report years = some r) :
    Picks E report years r := by
  unfold processData at h
  simp only at h
  obtain ⟨before, a, after, e, ha, hmax, hfirst⟩ := findSome_sorted VsCand.year _ _ r h
  -- back through the filter and the map
  obtain ⟨l1, l2, e1, f1, f2⟩ := List.filter_eq_append_iff.mp e
  obtain ⟨m, n, e2, hm, hpa, f3⟩ := List.filter_eq_cons_iff.mp f2
  rw [e2] at e1
  obtain ⟨j1, j2, e3, g1, g2⟩ := List.map_eq_append_iff.mp e1
  obtain ⟨k1, k2, e4, g3, g4⟩ := List.map_eq_append_iff.mp g2
  obtain ⟨i, k3, e5, g5, g6⟩ := List.map_eq_cons_iff.mp g4
  have hr : r.versionYear = a.year := vsAccept_year ha
  have hpass : ∀ i' r', UsableAs E years i' r' →
      ((vsProcess E i').version.isSome && years.contains (vsProcess E i').year) = true ∧
      vsAccept E (vsProcess E i') = some r' := by
    intro i' r' hu
    have := (vsOne_spec E hE years i' r').mpr hu
    unfold vsOne at this
    by_cases hc : ((vsProcess E i').version.isSome && years.contains (vsProcess E i').year) = true
    · rw [if_pos hc] at this; exact ⟨hc, this⟩
    · rw [if_neg hc] at this; cases this
  refine ⟨j1 ++ k1, i, k3, by rw [e3, e4, e5]; simp, ?_, ?_, ?_⟩
  · apply (vsOne_spec E hE years i r).mp
    unfold vsOne
    rw [g5, if_pos hpa, ha]
  · intro i' hi r' hu
    obtain ⟨p1, p2⟩ := hpass i' r' hu
    have hmem : vsProcess E i' ∈ (report.map (vsProcess E)).filter
        (fun c => c.version.isSome && years.contains c.year) :=
      List.mem_filter.mpr ⟨List.mem_map.mpr ⟨i', hi, rfl⟩, p1⟩
    have := hmax _ hmem (by rw [p2]; simp)
    rw [hr, vsAccept_year p2]; exact this
  · intro i' hi r' hu
    obtain ⟨p1, p2⟩ := hpass i' r' hu
    rw [hr, vsAccept_year p2]
    rcases List.mem_append.mp hi with hi | hi
    · apply hfirst _ _ (by rw [p2]; simp)
      rw [← f1]
      exact List.mem_filter.mpr ⟨by rw [← g1]; exact List.mem_map.mpr ⟨i', hi, rfl⟩, p1⟩
    · exact absurd p1 (hm _ (by rw [← g3]; exact List.mem_map.mpr ⟨i', hi, rfl⟩))

/-- **C56** (failure).  Nothing is taken from a report exactly when no
installation in it is usable. -/
theorem C56_none (E : VsEnv) (hE : PathsResolve E) (report : List VsInst) (years : List Nat) :
    processData E report years = none ↔ ∀ i ∈ report, ∀ r, ¬ UsableAs E years i r := by
  unfold processData
  simp only
  rw [List.findSome?_eq_none_iff]
  constructor
  · intro h i hi r hu
    have h1 := (vsOne_spec E hE years i r).mpr hu
    unfold vsOne at h1
    by_cases hc : ((vsProcess E i).version.isSome && years.contains (vsProcess E i).year) = true
    · rw [if_pos hc] at h1
      have hmem : vsProcess E i ∈ pySorted (fun a b => decide (b.year ≤ a.year))
          ((report.map (vsProcess E)).filter (fun c => c.version.isSome && years.contains c.year)) :=
        (pySorted_perm _ _).mem_iff.mpr (List.mem_filter.mpr ⟨List.mem_map.mpr ⟨i, hi, rfl⟩, hc⟩)
      rw [h _ hmem] at h1
      cases h1
    · rw [if_neg hc] at h1; cases h1
  · intro h c hc
    have hc' := (pySorted_perm _ _).mem_iff.mp hc
    obtain ⟨h1, h2⟩ := List.mem_filter.mp hc'
    obtain ⟨i, hi, rfl⟩ := List.mem_map.mp h1
    cases ha : vsAccept E (vsProcess E i) with
    | none => rfl
    | some r =>
      exfalso
      apply h i hi r
      apply (vsOne_spec E hE years i r).mp
      unfold vsOne
      rw [if_pos h2, ha]

/-- **C56**.  The installation taken from a report is the one that is usable for
the years asked for, such that none of the usable ones is newer, and that is the
first of its year. -/
theorem C56_newest (E : VsEnv) (hE : PathsResolve E) (report : List VsInst) (years : List Nat) (r : VsInfo) :
    processData E report years = some r ↔ Picks E report years r := by
  constructor
  · exact processData_picks E hE report years r
  · intro hp
    obtain ⟨before, i, after, e, hu, hmax, hfirst⟩ := hp
    cases h : processData E report years with
    | none => exact absurd hu ((C56_none E hE report years).mp h i (by rw [e]; simp) r)
    | some r' =>
      obtain ⟨before', i', after', e', hu', hmax', hfirst'⟩ := processData_picks E hE report years r' h
      have hy1 := hmax i' (by rw [e']; simp) r' hu'
      have hy2 := hmax' i (by rw [e]; simp) r hu
      have hii : i = i' := by
        have heq := e.symm.trans e'
        rcases Nat.lt_trichotomy before.length before'.length with hl | hl | hl
        · exfalso
          have : i ∈ before' := by
            have h1 : (before ++ i :: after)[before.length]? = some i := by simp
            rw [heq, List.getElem?_append_left hl] at h1
            exact List.mem_of_getElem? h1
          have := hfirst' i this r hu
          omega
        · have h1 : (before ++ i :: after)[before.length]? = some i := by simp
          have h2 : (before' ++ i' :: after')[before'.length]? = some i' := by simp
          rw [heq, hl, h2] at h1
          exact (Option.some.inj h1).symm
        · exfalso
          have : i' ∈ before := by
            have h1 : (before' ++ i' :: after')[before'.length]? = some i' := by simp
            rw [← heq, List.getElem?_append_left hl] at h1
            exact List.mem_of_getElem? h1
          have := hfirst i' this r' hu'
          omega
      subst hii
      have h1 := (vsOne_spec E hE years i r).mpr hu
      have h2 := (vsOne_spec E hE years i r').mpr hu'
      rw [h1] at h2
      exact h2.symm

/-- **C56** (order of the report).  The year chosen does not depend on the order
of the report. -/
theorem C56_order (E : VsEnv) (hE : PathsResolve E) (report report' : List VsInst) (years : List Nat)
    (hp : report.Perm report') :
    (processData E report years).map (·.versionYear) = (processData E report' years).map (·.versionYear) := by
  cases h : processData E report years with
  | none =>
    have h' : processData E report' years = none := by
      rw [C56_none E hE] at h ⊢
      intro i hi
      exact h i (hp.mem_iff.mpr hi)
    rw [h']
  | some r =>
    obtain ⟨b, i, a, e, hu, hmax, _⟩ := processData_picks E hE _ _ _ h
    cases h' : processData E report' years with
    | none =>
      rw [C56_none E hE] at h'
      exact absurd hu (h' i (hp.mem_iff.mp (by rw [e]; simp)) r)
    | some r' =>
      obtain ⟨b', i', a', e', hu', hmax', _⟩ := processData_picks E hE _ _ _ h'
      have h1 := hmax i' (hp.mem_iff.mpr (by rw [e']; simp)) r' hu'
      have h2 := hmax' i (hp.mem_iff.mp (by rw [e]; simp)) r hu
      simp only [Option.map_some, Option.some.injEq]
      omega

/-! ### All sources -/

theorem sdkBuild_spec (s n : Str) : sdkBuild s = some n ↔ PromptSdk s n := by
  unfold sdkBuild PromptSdk
  constructor
  · intro h
    split at h
    · rename_i a b c x xs e
      split at h
      · rename_i hc
        cases h
        obtain ⟨h1, h2, h3, h4, h5, h6⟩ := hc
        refine ⟨a, b, joinWith ['.'] (x :: xs), ?_, (all_isDec h1).mp h4, (all_isDec h2).mp h5,
          (all_isDec h3).mp h6⟩
        have hj := joinWith_splitOn (c := '.') (s := s)
        rw [e] at hj
        rw [← hj]
        simp [joinWith]
      · cases h
    · cases h
  · rintro ⟨a, b, rest, e, ha, hb, hn⟩
    have nodot : ∀ {t : Str}, IsDigits t → '.' ∉ t := by
      intro t ht hm
      exact absurd (ht.2 '.' hm) (by decide)
    have e' : s = a ++ '.' :: (b ++ '.' :: (n ++ '.' :: rest)) := by rw [e]; simp
    have hsp : splitOn '.' s = a :: b :: n :: splitOn '.' rest := by
      rw [e', splitOn_append_sep, splitOn_append_sep, splitOn_append_sep,
        splitOn_noSep (nodot ha), splitOn_noSep (nodot hb), splitOn_noSep (nodot hn)]
      rfl
    rw [hsp]
    cases hr : splitOn '.' rest with
    | nil => exact absurd hr splitOn_ne_nil
    | cons x xs =>
      simp only
      rw [if_pos ⟨ha.1, hb.1, hn.1, (all_isDec ha.1).mpr ha, (all_isDec hb.1).mpr hb,
        (all_isDec hn.1).mpr hn⟩]

theorem findOldVS_spec (E : VsEnv) (hE : PathsResolve E) (version : Str) (major year : Nat) (toolset : Str)
    (r : VsInfo) : findOldVS E version major 0 year toolset = some r ↔
      OldVersion E version major year toolset r := by
  unfold findOldVS OldVersion
  constructor
  · intro h
    cases h1 : E.regVC7 version with
    | none => rw [h1] at h; cases h
    | some vc =>
      cases h2 : E.regMSBuild version with
      | none => rw [h1, h2] at h; cases h
      | some ms =>
        rw [h1, h2] at h
        simp only at h
        by_cases hc : checkConfigVersion E year (E.resolveUp vc) = true
        · rw [if_pos hc] at h
          exact ⟨vc, ms, rfl, rfl, (Option.some.inj h).symm, (checkConfigVersion_spec E hE _ _).mp hc⟩
        · rw [if_neg hc] at h; cases h
  · rintro ⟨vc, ms, h1, h2, h3, h4⟩
    rw [h1, h2]
    simp only
    rw [if_pos ((checkConfigVersion_spec E hE _ _).mpr h4), h3]

theorem report_spec (E : VsEnv) (hE : PathsResolve E) (o : Option (List VsInst)) (years : List Nat) (r : VsInfo) :
    (match o with | none => none | some l => processData E l years) = some r ↔
      ∃ l, o = some l ∧ Picks E l years r := by
  cases o with
  | none => simp
  | some l => simp [C56_newest E hE]

theorem prompt_spec (E : VsEnv) (hE : PathsResolve E) (years : List Nat) (r : VsInfo) :
    findVSFromSpecifiedLocation E years = some r ↔ ∃ i, PromptInstallation E i ∧ UsableAs E years i r := by
  have one : ∀ i, processData E [i] years = some r ↔ UsableAs E years i r := by
    intro i
    rw [C56_newest E hE]
    constructor
    · rintro ⟨b, j, a, e, hu, _⟩
      cases b with
      | nil =>
        simp only [List.nil_append, List.cons.injEq] at e
        rw [e.1]; exact hu
      | cons x xs => simp at e
    · intro hu
      refine ⟨[], i, [], rfl, hu, ?_, by simp⟩
      intro i' hi r' hu'
      rw [List.mem_singleton] at hi
      subst hi
      have h1 := (vsOne_spec E hE years i' r).mpr hu
      have h2 := (vsOne_spec E hE years i' r').mpr hu'
      rw [h1] at h2
      cases h2
      exact Nat.le_refl _
  unfold findVSFromSpecifiedLocation envVcInstallDir PromptInstallation
  by_cases hv : E.vcInstallDir = []
  · simp [hv]
  · simp only [if_neg hv, hE.2, if_false]
    rw [one]
    cases hs : sdkBuild E.sdkVersion with
    | none =>
      have hno : ∀ n, ¬ PromptSdk E.sdkVersion n := by
        intro n hn
        rw [(sdkBuild_spec _ _).mpr hn] at hs
        cases hs
      constructor
      · intro h
        exact ⟨_, ⟨hv, rfl, rfl, Or.inr ⟨hno, by simp⟩⟩, h⟩
      · rintro ⟨⟨p, v, pk⟩, ⟨_, h1, h2, h3⟩, hu⟩
        rcases h3 with ⟨n, hn, _⟩ | ⟨_, h3⟩
        · exact absurd hn (hno n)
        · simp only at h1 h2 h3
          subst h1 h2 h3
          exact hu
    | some n =>
      have hn := (sdkBuild_spec _ _).mp hs
      constructor
      · intro h
        exact ⟨_, ⟨hv, rfl, rfl, Or.inl ⟨n, hn, rfl⟩⟩, h⟩
      · rintro ⟨⟨p, v, pk⟩, ⟨_, h1, h2, h3⟩, hu⟩
        rcases h3 with ⟨m, hm, h3⟩ | ⟨hno, _⟩
        · have := (sdkBuild_spec _ _).mpr hm
          rw [hs] at this
          cases this
          simp only at h1 h2 h3
          subst h1 h2 h3
          exact hu
        · exact absurd hn (hno n)

theorem firstOf {β : Type} (l : List (Option β × (β → Prop)))
    (h : ∀ x ∈ l, ∀ r, x.1 = some r ↔ x.2 r) (r : β) :
    (l.map (·.1)).findSome? id = some r ↔
      ∃ before p after, l.map (·.2) = before ++ p :: after ∧ p r ∧ ∀ q ∈ before, ∀ r', ¬ q r' := by
  induction l with
  | nil => simp
  | cons x xs ih =>
    have hx := h x (by simp)
    rw [List.map_cons, List.map_cons, List.findSome?_cons]
    cases h1 : x.1 with
    | some b =>
      simp only [id]
      constructor
      · intro e
        cases e
        exact ⟨[], x.2, _, rfl, (hx r).mp h1, by simp⟩
      · rintro ⟨before, p, after, e, hp, hq⟩
        cases before with
        | nil =>
          simp only [List.nil_append, List.cons.injEq] at e
          rw [← e.1] at hp
          rw [(hx r).mpr hp] at h1
          exact h1.symm
        | cons q qs =>
          simp only [List.cons_append, List.cons.injEq] at e
          have := hq q (by simp) b
          rw [← e.1] at this
          exact absurd ((hx b).mp h1) this
    | none =>
      have hno : ∀ r', ¬ x.2 r' := by
        intro r' hr
        rw [(hx r').mpr hr] at h1
        cases h1
      simp only [id]
      rw [ih (fun y hy => h y (by simp [hy]))]
      constructor
      · rintro ⟨before, p, after, e, hp, hq⟩
        refine ⟨x.2 :: before, p, after, by rw [e]; rfl, hp, ?_⟩
        intro q hq' r'
        rcases List.mem_cons.mp hq' with rfl | hq'
        · exact hno r'
        · exact hq q hq' r'
      · rintro ⟨before, p, after, e, hp, hq⟩
        cases before with
        | nil =>
          simp only [List.nil_append, List.cons.injEq] at e
          rw [← e.1] at hp
          exact absurd hp (hno r)
        | cons q qs =>
          simp only [List.cons_append, List.cons.injEq] at e
          exact ⟨qs, p, after, e.2, hp, fun q' hq' => hq q' (by simp [hq'])⟩

/-- **C56** (sources).  The result comes from the first source that offers one;
the older versions are not looked for when Node no longer supports them. -/
theorem C56_sources (E : VsEnv) (hE : PathsResolve E) (r : VsInfo) :
    findVisualStudio E = some r ↔
      ∃ before source after, vsSources E = before ++ source :: after ∧ source r ∧
        ∀ earlier ∈ before, ∀ r', ¬ earlier r' := by
  have guard : ∀ (n : Nat) (o : Option VsInfo) (p : VsInfo → Prop), (∀ r, o = some r ↔ p r) →
      ∀ r, (if E.nodeMajor ≥ n then none else o) = some r ↔ E.nodeMajor < n ∧ p r := by
    intro n o p h r
    by_cases hn : E.nodeMajor ≥ n
    · rw [if_pos hn]
      constructor
      · intro h; cases h
      · rintro ⟨h, _⟩; omega
    · rw [if_neg hn, h r]
      constructor
      · intro h; exact ⟨by omega, h⟩
      · rintro ⟨_, h⟩; exact h
  have := firstOf
    [(findVSFromSpecifiedLocation E [2019, 2022], fun r => ∃ i, PromptInstallation E i ∧ UsableAs E [2019, 2022] i r),
     (findNewVSUsingSetupModule E [2019, 2022],
       fun r => ∃ l, E.setupModule [2019, 2022] = some l ∧ Picks E l [2019, 2022] r),
     (findNewVS E [2019, 2022], fun r => ∃ l, E.powerShell [2019, 2022] = some l ∧ Picks E l [2019, 2022] r),
     (if E.nodeMajor ≥ 22 then none else findVSFromSpecifiedLocation E [2017],
       fun r => E.nodeMajor < 22 ∧ ∃ i, PromptInstallation E i ∧ UsableAs E [2017] i r),
     (if E.nodeMajor ≥ 22 then none else findNewVSUsingSetupModule E [2017],
       fun r => E.nodeMajor < 22 ∧ ∃ l, E.setupModule [2017] = some l ∧ Picks E l [2017] r),
     (if E.nodeMajor ≥ 22 then none else findNewVS E [2017],
       fun r => E.nodeMajor < 22 ∧ ∃ l, E.powerShell [2017] = some l ∧ Picks E l [2017] r),
     (if E.nodeMajor ≥ 19 then none else findOldVS E c!"14.0" 14 0 2015 c!"v140",
       fun r => E.nodeMajor < 19 ∧ OldVersion E c!"14.0" 14 2015 c!"v140" r),
     (if E.nodeMajor ≥ 9 then none else findOldVS E c!"12.0" 12 0 2013 c!"v120",
       fun r => E.nodeMajor < 9 ∧ OldVersion E c!"12.0" 12 2013 c!"v120" r)]
    (by
      intro x hx
      simp only [List.mem_cons, List.not_mem_nil, or_false] at hx
      rcases hx with rfl | rfl | rfl | rfl | rfl | rfl | rfl | rfl
      · exact prompt_spec E hE _
      · exact report_spec E hE _ _
      · exact report_spec E hE _ _
      · exact guard _ _ _ (prompt_spec E hE _)
      · exact guard _ _ _ (report_spec E hE _ _)
      · exact guard _ _ _ (report_spec E hE _ _)
      · exact guard _ _ _ (findOldVS_spec E hE _ _ _ _)
      · exact guard _ _ _ (findOldVS_spec E hE _ _ _ _)) r
  exact this

/-- **C56** (requests).  The installation found is never one the user did not ask
for, nor one too old for the Node version. -/
theorem C56_requested (E : VsEnv) (hE : PathsResolve E) (r : VsInfo) (h : findVisualStudio E = some r) :
    Requested E r.versionYear r.path ∧
    (22 ≤ E.nodeMajor → 2019 ≤ r.versionYear) ∧ (19 ≤ E.nodeMajor → 2017 ≤ r.versionYear) ∧
    (9 ≤ E.nodeMajor → 2015 ≤ r.versionYear) := by
  obtain ⟨before, p, after, e, hp, _⟩ := (C56_sources E hE r).mp h
  have hmem : p ∈ vsSources E := by rw [e]; simp
  have hus : ∀ years i, UsableAs E years i r → Requested E r.versionYear r.path ∧ r.versionYear ∈ years :=
    fun years i hu => ⟨hu.2.2.2.2.2.2.2.2, hu.2.2.1⟩
  have hpk : ∀ years l, Picks E l years r → Requested E r.versionYear r.path ∧ r.versionYear ∈ years := by
    rintro years l ⟨_, i, _, _, hu, _⟩
    exact hus years i hu
  have hnew : Requested E r.versionYear r.path ∧ r.versionYear ∈ [2019, 2022] →
      Requested E r.versionYear r.path ∧
      (22 ≤ E.nodeMajor → 2019 ≤ r.versionYear) ∧ (19 ≤ E.nodeMajor → 2017 ≤ r.versionYear) ∧
      (9 ≤ E.nodeMajor → 2015 ≤ r.versionYear) := by
    rintro ⟨h1, h2⟩
    simp only [List.mem_cons, List.not_mem_nil, or_false] at h2
    refine ⟨h1, ?_, ?_, ?_⟩ <;> intro <;> omega
  have hmid : E.nodeMajor < 22 → Requested E r.versionYear r.path ∧ r.versionYear ∈ [2017] →
      Requested E r.versionYear r.path ∧
      (22 ≤ E.nodeMajor → 2019 ≤ r.versionYear) ∧ (19 ≤ E.nodeMajor → 2017 ≤ r.versionYear) ∧
      (9 ≤ E.nodeMajor → 2015 ≤ r.versionYear) := by
    rintro h0 ⟨h1, h2⟩
    simp only [List.mem_cons, List.not_mem_nil, or_false] at h2
    refine ⟨h1, ?_, ?_, ?_⟩ <;> intro <;> omega
  unfold vsSources at hmem
  simp only [List.mem_cons, List.not_mem_nil, or_false] at hmem
  rcases hmem with rfl | rfl | rfl | rfl | rfl | rfl | rfl | rfl
  · obtain ⟨i, _, hu⟩ := hp; exact hnew (hus _ i hu)
  · obtain ⟨l, _, hu⟩ := hp; exact hnew (hpk _ l hu)
  · obtain ⟨l, _, hu⟩ := hp; exact hnew (hpk _ l hu)
  · obtain ⟨h0, i, _, hu⟩ := hp; exact hmid h0 (hus _ i hu)
  · obtain ⟨h0, l, _, hu⟩ := hp; exact hmid h0 (hpk _ l hu)
  · obtain ⟨h0, l, _, hu⟩ := hp; exact hmid h0 (hpk _ l hu)
  · obtain ⟨h0, vc, ms, _, _, rfl, hr⟩ := hp
    refine ⟨hr, ?_, ?_, ?_⟩ <;> intro <;> simp only <;> omega
  · obtain ⟨h0, vc, ms, _, _, rfl, hr⟩ := hp
    refine ⟨hr, ?_, ?_, ?_⟩ <;> intro <;> simp only <;> omega

/-! ### Cases -/

def exVsEnv : VsEnv where
  nodeMajor := 20
  msvsVersion := []
  vcInstallDir := []
  vscmdVer := []
  sdkVersion := []
  arm64 := false
  exists_ := fun p => p = c!"C:\\VS22\\MSBuild\\Current\\Bin\\MSBuild.exe"
  resolve := fun p => c!"C:\\" ++ p
  resolveUp := fun p => c!"C:\\up\\" ++ p
  samePath := fun a b => a = b
  setupModule := fun _ => none
  powerShell := fun _ => none
  regVC7 := fun _ => none
  regMSBuild := fun _ => none

theorem exVsEnv_resolves : PathsResolve exVsEnv := ⟨fun p => by simp [exVsEnv], fun p => by simp [exVsEnv]⟩

def exTools : List Str :=
  [c!"Microsoft.VisualStudio.VC.MSBuild.Base", c!"Microsoft.VisualStudio.Component.VC.Tools.x86.x64",
   c!"Microsoft.VisualStudio.Component.Windows10SDK.17763",
   c!"Microsoft.VisualStudio.Component.Windows10SDK.19041.IpOverUsb",
   c!"Microsoft.VisualStudio.Component.Windows11SDK.22000.Desktop"]

def exVs19 : VsInst := ⟨c!"VS19", c!"16.11.5", exTools⟩
def exVs22 : VsInst := ⟨c!"VS22", c!"17.4.33205.214", exTools⟩
def exVs22bare : VsInst := ⟨c!"VS22", c!"17.4.33205.214", []⟩

/-- Of two usable installations the newer one is taken. -/
example : processData exVsEnv [exVs19, exVs22] [2019, 2022] =
    some ⟨c!"17.4.33205.214", 17, 4, 2022, c!"C:\\VS22",
      c!"C:\\VS22\\MSBuild\\Current\\Bin\\MSBuild.exe", c!"v143", some c!"10.0.22000.0"⟩ := by
  decide +kernel

/-- An installation without a compiler is passed over. -/
example : (processData exVsEnv [exVs22bare, exVs19] [2019, 2022]).map (·.versionYear) = some 2019 := by
  decide +kernel

/-- The year the user asks for is respected. -/
example : (processData { exVsEnv with msvsVersion := c!"2019" } [exVs19, exVs22] [2019, 2022]).map
    (·.versionYear) = some 2019 := by
  decide +kernel

/-- **C56** (witness).  The sources are asked in turn, so a newer installation that
only a later source knows is not found. -/
theorem C56_older_source : ∃ E : VsEnv, PathsResolve E ∧
    E.setupModule [2019, 2022] = some [exVs19] ∧ E.powerShell [2019, 2022] = some [exVs19, exVs22] ∧
    (findVisualStudio E).map (·.versionYear) = some 2019 ∧
    (processData E [exVs19, exVs22] [2019, 2022]).map (·.versionYear) = some 2022 :=
  ⟨{ exVsEnv with
      setupModule := fun _ => some [exVs19]
      powerShell := fun _ => some [exVs19, exVs22] },
    exVsEnv_resolves, rfl, rfl, by decide +kernel, by decide +kernel⟩

/-- From the registry, for an old Node version. -/
example : findVisualStudio { exVsEnv with
      nodeMajor := 18
      regVC7 := fun v => if v = c!"14.0" then some c!"VC" else none
      regMSBuild := fun _ => some c!"C:\\MS\\" } =
    some ⟨c!"14.0", 14, 0, 2015, c!"C:\\up\\VC", c!"C:\\MS\\MSBuild.exe", c!"v140", none⟩ := by
  decide +kernel

/-- In the prompt of an installation. -/
example : (findVisualStudio { exVsEnv with
      vcInstallDir := c!"VS22"
      vscmdVer := c!"17.4.1"
      sdkVersion := c!"10.0.22000.0"
      exists_ := fun _ => true
      resolve := fun p => p ++ c!"\\"
      resolveUp := fun p => p ++ c!"\\\\" 
      samePath := fun _ _ => true }).map (fun r => (r.versionYear, r.sdk)) =
    some (2022, some c!"10.0.22000.0") := by
  decide +kernel

end Gyp
