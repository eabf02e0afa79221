import Verif.Spec.Options
import Verif.Proofs.Path
import Mathlib.Data.List.Nodup
import Mathlib.Data.List.Induction
import Mathlib.Data.List.Forall2
/-
C58: options.
-/
namespace Gyp
open Spec

/-! ### Integers -/

theorem isPySpace_iff (c : Char) : isPySpace c = true ↔ PySpace c := by
  unfold isPySpace PySpace
  simp only [Bool.or_eq_true, Bool.and_eq_true, decide_eq_true_eq, List.mem_cons, List.not_mem_nil, or_false]
  omega

theorem strip_pad (p : Char → Bool) {a s b : Str} (ha : ∀ c ∈ a, p c = true) (hb : ∀ c ∈ b, p c = true)
    (h1 : ∀ c, s.head? = some c → p c = false) (h2 : ∀ c, s.getLast? = some c → p c = false) :
    (((a ++ s ++ b).dropWhile p).reverse.dropWhile p).reverse = s := by
  have hdrop : ∀ (a s : Str), (∀ c ∈ a, p c = true) → (a ++ s).dropWhile p = s.dropWhile p := by
    intro a s ha
    induction a with
    | nil => rfl
    | cons c a ih =>
      rw [List.cons_append, List.dropWhile_cons, if_pos (ha c (by simp))]
      exact ih (fun d hd => ha d (by simp [hd]))
  have hkeep : ∀ s : Str, (∀ c, s.head? = some c → p c = false) → s.dropWhile p = s := by
    intro s h
    cases s with
    | nil => rfl
    | cons c s => rw [List.dropWhile_cons, if_neg (by simp [h c rfl])]
  rw [List.append_assoc, hdrop a _ ha]
  cases hs : s with
  | nil =>
    have : ([] ++ b : Str).dropWhile p = [] := by
      have := hdrop b [] hb
      simpa using this
    rw [this]; rfl
  | cons c t =>
    rw [← hs, hkeep (s ++ b) (by intro d hd; apply h1; rw [hs] at hd ⊢; simpa using hd), List.reverse_append,
      hdrop _ _ (fun c hc => hb c (List.mem_reverse.mp hc)),
      hkeep _ (by intro d hd; apply h2; simpa using hd), List.reverse_reverse]

theorem strip_split (p : Char → Bool) (s : Str) :
    ∃ a b, s = a ++ ((s.dropWhile p).reverse.dropWhile p).reverse ++ b ∧
      (∀ c ∈ a, p c = true) ∧ (∀ c ∈ b, p c = true) := by
  refine ⟨s.takeWhile p, ((s.dropWhile p).reverse.takeWhile p).reverse, ?_, ?_, ?_⟩
  · have h1 : s = s.takeWhile p ++ s.dropWhile p := List.takeWhile_append_dropWhile.symm
    have h2 : (s.dropWhile p).reverse = (s.dropWhile p).reverse.takeWhile p ++ (s.dropWhile p).reverse.dropWhile p :=
      List.takeWhile_append_dropWhile.symm
    have h3 := congrArg List.reverse h2
    rw [List.reverse_reverse, List.reverse_append] at h3
    conv_lhs => rw [h1, h3]
    rw [List.append_assoc]
  · intro c hc; exact List.all_eq_true.mp List.all_takeWhile c hc
  · intro c hc; exact List.all_eq_true.mp List.all_takeWhile c (List.mem_reverse.mp hc)

theorem groups_all (groups : List Str) :
    groups.all (fun g => decide (g ≠ []) && g.all asciiDigit) = true ↔ ∀ g ∈ groups, IsDigits g := by
  rw [List.all_eq_true]
  unfold IsDigits asciiDigit
  simp [List.all_eq_true]

theorem digit_not_under {g : Str} (h : IsDigits g) : '_' ∉ g := fun hm => absurd (h.2 '_' hm) (by decide)

theorem digit_not_pySpace {c : Char} (h : '0' ≤ c ∧ c ≤ '9') : isPySpace c = false := by
  have h1 : 48 ≤ c.toNat := h.1
  have h2 : c.toNat ≤ 57 := h.2
  rw [← Bool.not_eq_true, isPySpace_iff]
  unfold PySpace
  simp only [List.mem_cons, List.not_mem_nil, or_false]
  omega

theorem joined_head {groups : List Str} (hne : groups ≠ []) (hg : ∀ g ∈ groups, IsDigits g) :
    ∃ c r, joinWith c!"_" groups = c :: r ∧ '0' ≤ c ∧ c ≤ '9' := by
  cases groups with
  | nil => exact absurd rfl hne
  | cons g gs =>
    obtain ⟨h1, h2⟩ := hg g (by simp)
    cases g with
    | nil => exact absurd rfl h1
    | cons c r =>
      cases gs with
      | nil => exact ⟨c, r, rfl, h2 c (by simp)⟩
      | cons g' gs => exact ⟨c, r ++ c!"_" ++ joinWith c!"_" (g' :: gs), by simp [joinWith], h2 c (by simp)⟩

theorem joined_last {groups : List Str} (hne : groups ≠ []) (hg : ∀ g ∈ groups, IsDigits g) :
    ∃ c, (joinWith c!"_" groups).getLast? = some c ∧ '0' ≤ c ∧ c ≤ '9' := by
  induction groups with
  | nil => exact absurd rfl hne
  | cons g gs ih =>
    cases gs with
    | nil =>
      obtain ⟨h1, h2⟩ := hg g (by simp)
      refine ⟨g.getLast h1, ?_, h2 _ (List.getLast_mem h1)⟩
      rw [show joinWith c!"_" [g] = g from rfl, List.getLast?_eq_some_getLast h1]
    | cons g' gs =>
      obtain ⟨c, hc, h⟩ := ih (by simp) (fun x hx => hg x (by simp [hx]))
      refine ⟨c, ?_, h⟩
      have e : joinWith c!"_" (g :: g' :: gs) = g ++ c!"_" ++ joinWith c!"_" (g' :: gs) := by simp [joinWith]
      rw [e, List.getLast?_append, hc]; rfl

theorem pyIntText_spec (s : Str) (i : Int) : pyIntText s = some i ↔ IntText s i := by
  unfold pyIntText
  constructor
  · intro h
    simp only at h
    obtain ⟨a, b, hs, ha, hb⟩ := strip_split isPySpace s
    change s = a ++ pyStrip s ++ b at hs
    generalize pyStrip s = t at *
    by_cases hg : (splitOn '_' (if t.head? = some '-' ∨ t.head? = some '+' then t.tail else t)).all
        (fun g => decide (g ≠ []) && g.all asciiDigit) = true
    · rw [if_pos hg] at h
      rw [groups_all] at hg
      have hj := joinWith_splitOn (c := '_')
        (s := (if t.head? = some '-' ∨ t.head? = some '+' then t.tail else t))
      have hne := splitOn_ne_nil (c := '_')
        (s := (if t.head? = some '-' ∨ t.head? = some '+' then t.tail else t))
      cases t with
      | nil =>
        exfalso
        simp [splitOn] at hg
        exact (hg).1 rfl
      | cons x xs =>
        simp only [List.head?_cons, Option.some.injEq, List.tail_cons] at h hg hj hne
        have ha' : ∀ c ∈ a, PySpace c := fun c hc => (isPySpace_iff c).mp (ha c hc)
        have hb' : ∀ c ∈ b, PySpace c := fun c hc => (isPySpace_iff c).mp (hb c hc)
        by_cases hm : x = '-'
        · subst hm
          simp only [true_or, if_true] at h hg hj hne
          exact ⟨a, c!"-", _, b, by rw [hj]; simpa using hs, ha', hb', hne, hg, Or.inr ⟨rfl, h.symm⟩⟩
        · by_cases hp : x = '+'
          · subst hp
            simp only [or_true, if_true, hm, if_false] at h hg hj hne
            exact ⟨a, c!"+", _, b, by rw [hj]; simpa using hs, ha', hb', hne, hg,
              Or.inl ⟨Or.inr rfl, h.symm⟩⟩
          · simp only [hm, hp, or_self, if_false] at h hg hj hne
            exact ⟨a, [], _, b, by rw [hj]; simpa using hs, ha', hb', hne, hg,
              Or.inl ⟨Or.inl rfl, h.symm⟩⟩
    · rw [if_neg hg] at h; cases h
  · rintro ⟨a, sign, groups, b, hs, ha, hb, hne, hg, hi⟩
    obtain ⟨c, r, hc, hcd⟩ := joined_head hne hg
    obtain ⟨l, hl, hld⟩ := joined_last hne hg
    have hstrip : pyStrip s = sign ++ joinWith c!"_" groups := by
      unfold pyStrip
      rw [hs, List.append_assoc a]
      apply strip_pad
      · exact fun c hc => (isPySpace_iff c).mpr (ha c hc)
      · exact fun c hc => (isPySpace_iff c).mpr (hb c hc)
      · intro d hd
        rcases hi with ⟨rfl | rfl, _⟩ | ⟨rfl, _⟩
        · rw [hc] at hd
          simp at hd
          subst hd
          exact digit_not_pySpace hcd
        · simp at hd; subst hd; decide
        · simp at hd; subst hd; decide
      · intro d hd
        rw [List.getLast?_append, hl] at hd
        simp at hd
        subst hd
        exact digit_not_pySpace hld
    have hsp : splitOn '_' (joinWith c!"_" groups) = groups :=
      splitOn_joinWith hne (fun g hg' => digit_not_under (hg g hg'))
    simp only
    rw [hstrip]
    have hnm : c ≠ '-' := by rintro rfl; exact absurd hcd (by decide)
    have hnp : c ≠ '+' := by rintro rfl; exact absurd hcd (by decide)
    have hall := (groups_all groups).mpr hg
    rcases hi with ⟨rfl | rfl, rfl⟩ | ⟨rfl, rfl⟩
    · have h1 : ([] ++ joinWith c!"_" groups : Str).head? = some c := by rw [List.nil_append, hc]; rfl
      rw [h1]
      simp only [Option.some.injEq, hnm, hnp, or_self, if_false, List.nil_append]
      rw [hsp, if_pos hall]
      rfl
    · simp only [List.cons_append, List.nil_append, List.head?_cons, Option.some.injEq, or_true, if_true,
        List.tail_cons]
      rw [hsp, if_pos hall, if_neg (by decide)]
      rfl
    · simp only [List.cons_append, List.nil_append, List.head?_cons, true_or, if_true,
        List.tail_cons]
      rw [hsp, if_pos hall]
      rfl

/-! ### Tables -/

theorem split1_none_iff {c : Char} {s : Str} : split1 c s = none ↔ c ∉ s := by
  induction s with
  | nil => simp [split1]
  | cons x xs ih =>
    unfold split1
    by_cases h : x = c
    · simp [h]
    · rw [if_neg h]
      simp only [Option.map_eq_none_iff, ih, List.mem_cons, not_or]
      exact ⟨fun h' => ⟨fun e => h e.symm, h'⟩, fun h' => h'.2⟩

theorem split1_some {c : Char} {s a b : Str} (h : split1 c s = some (a, b)) : s = a ++ c :: b ∧ c ∉ a := by
  induction s generalizing a with
  | nil => cases h
  | cons x xs ih =>
    unfold split1 at h
    by_cases hx : x = c
    · rw [if_pos hx] at h; cases h; subst hx; simp
    · rw [if_neg hx] at h
      cases hs : split1 c xs with
      | none => rw [hs] at h; cases h
      | some p =>
        obtain ⟨a', b'⟩ := p
        rw [hs] at h
        cases h
        obtain ⟨h1, h2⟩ := ih hs
        refine ⟨by rw [h1]; rfl, ?_⟩
        simp only [List.mem_cons, not_or]
        exact ⟨fun e => hx e.symm, h2⟩

theorem nvItem_sets (item : Str) (k : Str) (v : NvVal) : nvItem item = (k, v) ↔ Sets item k v := by
  unfold nvItem Sets
  cases hs : split1 '=' item with
  | none =>
    have hno := split1_none_iff.mp hs
    constructor
    · intro h; cases h; exact Or.inl ⟨hno, rfl, rfl⟩
    · rintro (⟨_, rfl, rfl⟩ | ⟨text, _, e, _⟩)
      · rfl
      · exfalso; apply hno; rw [e]; simp
  | some p =>
    obtain ⟨a, b⟩ := p
    obtain ⟨e, ha⟩ := split1_some hs
    have hyes : '=' ∈ item := by rw [e]; simp
    have huniq : ∀ text, '=' ∉ k → item = k ++ c!"=" ++ text → a = k ∧ b = text := by
      intro text hk e'
      have : split1 '=' item = some (k, text) := by
        rw [e', List.append_assoc]; exact split1_append hk
      rw [hs] at this
      cases this
      exact ⟨rfl, rfl⟩
    simp only
    cases hi : pyIntText b with
    | none =>
      have hno : ∀ i, ¬ IntText b i := fun i h => by rw [(pyIntText_spec b i).mpr h] at hi; cases hi
      constructor
      · intro h; cases h
        exact Or.inr ⟨b, ha, by rw [e]; simp, Or.inr ⟨hno, rfl⟩⟩
      · rintro (⟨h, _⟩ | ⟨text, hk, e', h⟩)
        · exact absurd hyes h
        · obtain ⟨rfl, rfl⟩ := huniq text hk e'
          rcases h with ⟨i, h, _⟩ | ⟨_, rfl⟩
          · exact absurd h (hno i)
          · rfl
    | some i =>
      have hyesi := (pyIntText_spec b i).mp hi
      constructor
      · intro h; cases h
        exact Or.inr ⟨b, ha, by rw [e]; simp, Or.inl ⟨i, hyesi, rfl⟩⟩
      · rintro (⟨h, _⟩ | ⟨text, hk, e', h⟩)
        · exact absurd hyes h
        · obtain ⟨rfl, rfl⟩ := huniq text hk e'
          rcases h with ⟨j, h, rfl⟩ | ⟨h, _⟩
          · rw [(pyIntText_spec b j).mpr h] at hi; cases hi; rfl
          · exact absurd hyesi (h i)

theorem nv_snoc (l : List Str) (x : Str) (k : Str) :
    aget (NameValueListToDict (l ++ [x])) k =
      if k = (nvItem x).1 then some (nvItem x).2 else aget (NameValueListToDict l) k := by
  unfold NameValueListToDict
  rw [List.foldl_append, List.foldl_cons, List.foldl_nil, aget_aset]

/-- **C58**.  In the table made of a list of items, a name has the value that the
last item about it gives; integers are converted, and a bare name means true. -/
theorem C58_table (l : List Str) (k : Str) (v : NvVal) :
    aget (NameValueListToDict l) k = some v ↔
      ∃ before item after, l = before ++ item :: after ∧ Sets item k v ∧
        ∀ later ∈ after, ∀ v', ¬ Sets later k v' := by
  induction l using List.reverseRecOn with
  | nil =>
    constructor
    · intro h; cases h
    · rintro ⟨b, i, a, h, _⟩; simp at h
  | append_singleton l x ih =>
    rw [nv_snoc]
    by_cases hk : k = (nvItem x).1
    · rw [if_pos hk]
      constructor
      · intro h
        refine ⟨l, x, [], rfl, ?_, by simp⟩
        rw [← nvItem_sets, hk, ← Option.some.inj h]
      · rintro ⟨b, i, a, e, hs, hl⟩
        rcases List.eq_nil_or_concat a with rfl | ⟨a', y, rfl⟩
        · have : x = i := by
            have := congrArg List.getLast? e
            simpa using this
          subst this
          rw [← nvItem_sets] at hs
          rw [hs]
        · exfalso
          have : x = y := by
            have e2 : l ++ [x] = (b ++ i :: a') ++ [y] := by rw [e]; simp
            have := (List.append_inj' e2 rfl).2
            simpa using this
          subst this
          apply hl x (by simp) (nvItem x).2
          rw [← nvItem_sets, hk]
    · rw [if_neg hk, ih]
      constructor
      · rintro ⟨b, i, a, rfl, hs, hl⟩
        refine ⟨b, i, a ++ [x], by simp, hs, ?_⟩
        intro later hlat v'
        rcases List.mem_append.mp hlat with h | h
        · exact hl later h v'
        · rw [List.mem_singleton] at h
          subst h
          rw [← nvItem_sets]
          intro e
          rw [e] at hk
          exact hk rfl
      · rintro ⟨b, i, a, e, hs, hl⟩
        rcases List.eq_nil_or_concat a with rfl | ⟨a', y, rfl⟩
        · exfalso
          have : x = i := by
            have := congrArg List.getLast? e
            simpa using this
          subst this
          rw [← nvItem_sets] at hs
          rw [hs] at hk
          exact hk rfl
        · have e2 : l ++ [x] = (b ++ i :: a') ++ [y] := by rw [e]; simp
          obtain ⟨e3, e4⟩ := List.append_inj' e2 rfl
          exact ⟨b, i, a', e3, hs, fun later h => hl later (by simp [h])⟩

/-- **C58** (names).  The names of the table are those the items are about. -/
theorem C58_names (l : List Str) (k : Str) :
    k ∈ akeys (NameValueListToDict l) ↔ ∃ item ∈ l, ∃ v, Sets item k v := by
  rw [← aget_isSome, Option.isSome_iff_exists]
  constructor
  · rintro ⟨v, hv⟩
    obtain ⟨b, i, a, rfl, hs, _⟩ := (C58_table l k v).mp hv
    exact ⟨i, by simp, v, hs⟩
  · rintro ⟨item, hm, v, hs⟩
    cases h : aget (NameValueListToDict l) k with
    | some v => exact ⟨v, rfl⟩
    | none =>
      exfalso
      induction l using List.reverseRecOn with
      | nil => cases hm
      | append_singleton l x ih =>
        rw [nv_snoc] at h
        by_cases hk : k = (nvItem x).1
        · rw [if_pos hk] at h; cases h
        · rw [if_neg hk] at h
          rcases List.mem_append.mp hm with hm | hm
          · exact ih hm h
          · rw [List.mem_singleton] at hm
            subst hm
            rw [← nvItem_sets] at hs
            rw [hs] at hk
            exact hk rfl

/-! ### Duplicates in the environment -/

def dedupLast (l : List Str) : List Str := l.foldl appendLast []

theorem nv_erase (l : List Str) (x : Str) (k : Str) (hk : k ≠ (nvItem x).1) :
    aget (NameValueListToDict (l.erase x)) k = aget (NameValueListToDict l) k := by
  induction l using List.reverseRecOn with
  | nil => rfl
  | append_singleton l y ih =>
    by_cases hm : x ∈ l
    · rw [List.erase_append_left _ hm, nv_snoc, nv_snoc, ih]
    · rw [List.erase_append_right _ hm]
      by_cases hxy : y = x
      · subst hxy
        rw [List.erase_cons_head, List.append_nil, nv_snoc, if_neg hk]
      · rw [List.erase_of_not_mem (by simp [Ne.symm hxy])]

theorem nv_dedup (l : List Str) (k : Str) :
    aget (NameValueListToDict (dedupLast l)) k = aget (NameValueListToDict l) k := by
  induction l using List.reverseRecOn with
  | nil => rfl
  | append_singleton l x ih =>
    have e : dedupLast (l ++ [x]) = (dedupLast l).erase x ++ [x] := by
      unfold dedupLast
      rw [List.foldl_append]
      rfl
    rw [e, nv_snoc, nv_snoc]
    by_cases hk : k = (nvItem x).1
    · rw [if_pos hk, if_pos hk]
    · rw [if_neg hk, if_neg hk, nv_erase _ _ _ hk, ih]

theorem nv_append_congr {a a' : List Str} (h : ∀ k, aget (NameValueListToDict a) k = aget (NameValueListToDict a') k)
    (b : List Str) (k : Str) :
    aget (NameValueListToDict (a ++ b)) k = aget (NameValueListToDict (a' ++ b)) k := by
  induction b using List.reverseRecOn with
  | nil => simpa using h k
  | append_singleton b x ih =>
    rw [← List.append_assoc, ← List.append_assoc, nv_snoc, nv_snoc, ih]

theorem mem_dedup (l : List Str) (x : Str) (h : x ∈ dedupLast l) : x ∈ l := by
  induction l using List.reverseRecOn with
  | nil => cases h
  | append_singleton l y ih =>
    have e : dedupLast (l ++ [y]) = (dedupLast l).erase y ++ [y] := by
      unfold dedupLast
      rw [List.foldl_append]
      rfl
    rw [e] at h
    rcases List.mem_append.mp h with h | h
    · exact List.mem_append.mpr (Or.inl (ih (List.mem_of_mem_erase h)))
    · exact List.mem_append.mpr (Or.inr h)

theorem FormatOpt_inj (opt : Str) : Function.Injective (FormatOpt opt) := by
  intro a b h
  unfold FormatOpt at h
  split at h
  · simpa using h
  · simpa using h

theorem dedup_map (f : Str → Str) (hf : Function.Injective f) (l : List Str) (acc : List Str) :
    l.foldl (fun flags v => appendLast flags (f v)) (acc.map f) = (l.foldl appendLast acc).map f := by
  induction l generalizing acc with
  | nil => rfl
  | cons x xs ih =>
    rw [List.foldl_cons, List.foldl_cons, ← ih]
    congr 1
    unfold appendLast
    rw [List.map_append, List.map_erase hf]
    rfl

/-! ### Parsing what was written -/

theorem table_strings : ∀ p ∈ optStrings gypOptions,
    (p.1.length = 2 ∨ startsWith p.1 c!"--" = true) ∧ '=' ∉ p.1 ∧ p.1.head? = some '-' := by
  decide +kernel

theorem lookup_mem {s : Str} {o : OptSpec} (h : lookupOpt gypOptions s = some o) :
    (s, o) ∈ optStrings gypOptions := by
  have h1 := List.mem_of_find?_eq_some h
  have h2 := List.find?_some h
  unfold optStrings
  rw [List.mem_flatMap]
  exact ⟨o, h1, List.mem_map.mpr ⟨s, by simpa using h2, rfl⟩⟩

theorem lookup_short_none {x y : Char} {r : Str} (hx : x ≠ '-') :
    lookupOpt gypOptions ('-' :: x :: y :: r) = none := by
  cases h : lookupOpt gypOptions ('-' :: x :: y :: r) with
  | none => rfl
  | some o =>
    exfalso
    rcases (table_strings _ (lookup_mem h)).1 with h' | h'
    · simp at h'
    · simp [startsWith, List.isPrefixOf] at h'
      exact hx h'.symm

theorem classify_long {name v : Str} {spec : OptSpec} (hl : lookupOpt gypOptions name = some spec) :
    classifyArg gypOptions (name ++ '=' :: v) = .opt spec (some v) := by
  obtain ⟨h1, h2, h3⟩ := table_strings _ (lookup_mem hl)
  simp only at h1 h2 h3
  unfold classifyArg
  have hh : (name ++ '=' :: v).head? = some '-' := by
    cases name with
    | nil => cases h3
    | cons c cs => simpa using h3
  rw [if_neg (by rw [hh]; simp)]
  have hnone : lookupOpt gypOptions (name ++ '=' :: v) = none := by
    cases h : lookupOpt gypOptions (name ++ '=' :: v) with
    | none => rfl
    | some o =>
      exfalso
      exact (table_strings _ (lookup_mem h)).2.1 (by simp)
  rw [hnone]
  simp only
  rw [if_neg (by
    cases name with
    | nil => cases h3
    | cons c cs => simp), split1_append h2]
  simp [hl]

theorem classify_short {x : Char} {v : Str} {spec : OptSpec} (hx : x ≠ '-') (hv : Attachable v)
    (hf : (optStrings gypOptions).filter (fun p => decide (p.1 = ['-', x])) = [(['-', x], spec)]) :
    classifyArg gypOptions (['-', x] ++ v) = .opt spec (some v) := by
  obtain ⟨hv1, hv2⟩ := hv
  cases v with
  | nil => exact absurd rfl hv1
  | cons y r =>
    simp only [List.head?_cons, ne_eq, Option.some.injEq] at hv2
    unfold classifyArg
    rw [if_neg (by simp)]
    have e : ['-', x] ++ y :: r = '-' :: x :: y :: r := rfl
    rw [e, lookup_short_none hx]
    simp only
    rw [if_neg (by simp)]
    have hsplit : (split1 '=' ('-' :: x :: y :: r)).bind
        (fun p => (lookupOpt gypOptions p.1).map fun o => (o, p.2)) = none := by
      cases hs : split1 '=' ('-' :: x :: y :: r) with
      | none => rfl
      | some p =>
        obtain ⟨a, b⟩ := p
        obtain ⟨h1, h2⟩ := split1_some hs
        rw [Option.bind_some]
        have ha : lookupOpt gypOptions a = none := by
          cases a with
          | nil => simp at h1
          | cons a1 a =>
            cases a with
            | nil =>
              simp only [List.cons_append, List.nil_append, List.cons.injEq] at h1
              rw [← h1.1]
              decide +kernel
            | cons a2 a =>
              cases a with
              | nil =>
                simp only [List.cons_append, List.nil_append, List.cons.injEq] at h1
                exact absurd h1.2.2.1 hv2
              | cons a3 a =>
                simp only [List.cons_append, List.cons.injEq] at h1
                rw [← h1.1, ← h1.2.1]
                exact lookup_short_none hx
        rw [ha]; rfl
    rw [hsplit]
    simp only
    have htup : optTuples gypOptions ('-' :: x :: y :: r) = [(spec, some (y :: r))] := by
      unfold optTuples
      rw [if_neg (by
        simp [startsWith, List.isPrefixOf]
        exact fun h => hx h.symm)]
      have hmap : ∀ l : List (Str × OptSpec), (∀ p ∈ l, p ∈ optStrings gypOptions) →
          l.filterMap (fun p =>
            if p.1 = ('-' :: x :: y :: r).take 2 then some (p.2, some (('-' :: x :: y :: r).drop 2))
            else if startsWith p.1 ('-' :: x :: y :: r) then some (p.2, none) else none) =
          (l.filter (fun p => decide (p.1 = ['-', x]))).map fun p => (p.2, some (y :: r)) := by
        intro l hl
        induction l with
        | nil => rfl
        | cons p l ih =>
          have ih := ih (fun q hq => hl q (by simp [hq]))
          have hp := (table_strings p (hl p (by simp))).1
          rw [List.filterMap_cons, List.filter_cons, ih]
          by_cases hpe : p.1 = ['-', x]
          · simp [hpe]
          · have hns : startsWith p.1 ('-' :: x :: y :: r) = false := by
              rw [← Bool.not_eq_true]
              intro hst
              obtain ⟨t, ht⟩ := List.isPrefixOf_iff_prefix.mp hst
              rw [← ht] at hp
              rcases hp with hp | hp
              · simp at hp
              · simp [startsWith, List.isPrefixOf] at hp
                exact hx hp.symm
            simp [hpe, hns]
      rw [hmap _ (fun _ h => h), hf]
      rfl
    rw [htup]

/-! ### The flags of one option -/

/-- The option can carry the value. -/
def Carries (spec : OptSpec) (v : Str) : Prop :=
  ∀ s : ParseState, s.pending = none → s.stop = false →
    parseStep gypOptions s (FormatOpt (spec.opts.head?.getD []) v) =
      .ok { s with opts := takeValue spec v s.opts }

theorem parse_value {s : ParseState} {arg v : Str} {spec : OptSpec} (hp : s.pending = none)
    (hs : s.stop = false) (hc : classifyArg gypOptions arg = .opt spec (some v))
    (ha : spec.action = .store ∨ spec.action = .append) :
    parseStep gypOptions s arg = .ok { s with opts := takeValue spec v s.opts } := by
  unfold parseStep
  have hne : arg ≠ c!"--" := by
    rintro rfl
    have : classifyArg gypOptions c!"--" = .ambiguous := by decide +kernel
    rw [this] at hc
    cases hc
  rw [hs, hp, hc]
  simp only [Bool.false_eq_true, if_false]
  rw [if_neg hne]
  rcases ha with ha | ha <;> rw [ha]

theorem carries_long {spec : OptSpec} {name : Str} (h1 : spec.opts.head? = some name)
    (h2 : startsWith name c!"--" = true) (hl : lookupOpt gypOptions name = some spec)
    (ha : spec.action = .store ∨ spec.action = .append) (v : Str) : Carries spec v := by
  intro s hp hs
  apply parse_value hp hs _ ha
  unfold FormatOpt
  rw [h1, Option.getD_some, if_pos h2, List.append_assoc]
  exact classify_long hl

theorem carries_short {spec : OptSpec} {x : Char} (h1 : spec.opts.head? = some ['-', x]) (hx : x ≠ '-')
    (hf : (optStrings gypOptions).filter (fun p => decide (p.1 = ['-', x])) = [(['-', x], spec)])
    (ha : spec.action = .store ∨ spec.action = .append) {v : Str} (hv : Attachable v) : Carries spec v := by
  intro s hp hs
  apply parse_value hp hs _ ha
  unfold FormatOpt
  have h2 : startsWith ['-', x] c!"--" = false := by
    simp [startsWith, List.isPrefixOf]
    exact fun h => hx h.symm
  rw [h1, Option.getD_some, h2]
  exact classify_short hx hv hf

theorem parse_appends {spec : OptSpec} (ha : spec.action = .append) (vs : List Str)
    (hv : ∀ v ∈ vs, Carries spec v) (s : ParseState) (hp : s.pending = none) (hs : s.stop = false) :
    (vs.map (FormatOpt (spec.opts.head?.getD []))).foldlM (parseStep gypOptions) s =
      .ok { s with opts := (if vs = [] then s.opts else
        s.opts.set spec.dest (.many ((s.opts spec.dest).toList ++ vs))) } := by
  induction vs generalizing s with
  | nil => rfl
  | cons v vs ih =>
    rw [List.map_cons, List.foldlM_cons, hv v (by simp) s hp hs]
    show (vs.map (FormatOpt (spec.opts.head?.getD []))).foldlM (parseStep gypOptions) _ = _
    rw [ih (fun w hw => hv w (by simp [hw])) _ (by exact hp) (by exact hs)]
    have htake : takeValue spec v s.opts = s.opts.set spec.dest (.many ((s.opts spec.dest).toList ++ [v])) := by
      unfold takeValue
      rw [ha]
      simp only
      cases s.opts spec.dest <;> rfl
    simp only
    rw [htake]
    congr 2
    by_cases hvs : vs = []
    · subst hvs; simp
    · rw [if_neg hvs, if_neg (by simp)]
      funext d
      unfold Options.set
      by_cases hd : d = spec.dest
      · subst hd; simp [OptValue.toList]
      · simp [hd]

/-- What an option becomes when its flags are read back. -/
def readBack (E : OptEnv) (o : Options) (spec : OptSpec) : OptValue :=
  let predicate := if spec.isPath then FixPath E o else fun v => v
  match spec.action with
  | .append =>
    let vs := (match spec.env with
        | some n => if o c!"use_environment" = .flag true then dedupLast ((E.words n).map predicate) else []
        | none => []) ++ (o spec.dest).toList.map predicate
    if vs = [] then spec.default else .many vs
  | .store =>
    if (o spec.dest).toText ≠ [] then .text (predicate (o spec.dest).toText)
    else
      match spec.env with
      | some n => if o c!"use_environment" = .flag true ∧ E.var n ≠ [] then .text (predicate (E.var n))
        else spec.default
      | none => spec.default
  | .storeTrue => if o spec.dest = .flag true then .flag true else spec.default
  | _ => spec.default

/-- The values an option with a value is written with. -/
def writtenValues (E : OptEnv) (o : Options) (spec : OptSpec) : List Str :=
  let predicate := if spec.isPath then FixPath E o else fun v => v
  (o spec.dest).toList.map predicate ++
  (match spec.env with
    | some n => if o c!"use_environment" = .flag true then (E.words n).map predicate else []
    | none => [])

theorem append_flags (E : OptEnv) (o : Options) (spec : OptSpec) (ha : spec.action = .append)
    (hd : spec.default.toList = []) (hv : ∀ v ∈ writtenValues E o spec, Carries spec v)
    (s : ParseState) (hp : s.pending = none) (hs : s.stop = false)
    (h0 : s.opts spec.dest = spec.default) :
    (regenerateOne E o spec).foldlM (parseStep gypOptions) s =
      .ok { s with opts := s.opts.set spec.dest (readBack E o spec) } := by
  unfold writtenValues at hv
  unfold regenerateOne readBack
  rw [ha]
  simp only at hv ⊢
  generalize (if spec.isPath = true then FixPath E o else fun v => v) = pred at *
  have hflags : RegenerateAppendFlag E (spec.opts.head?.getD []) (o spec.dest).toList pred spec.env
      (decide (o c!"use_environment" = .flag true)) =
      ((match spec.env with
        | some n => if o c!"use_environment" = .flag true then dedupLast ((E.words n).map pred) else []
        | none => []) ++ (o spec.dest).toList.map pred).map (FormatOpt (spec.opts.head?.getD [])) := by
    unfold RegenerateAppendFlag
    simp only [decide_eq_true_eq]
    rw [List.map_append, List.map_map]
    congr 1
    cases spec.env with
    | none => rfl
    | some n =>
      simp only
      by_cases hu : o c!"use_environment" = .flag true
      · rw [if_pos hu, if_pos hu]
        have := dedup_map (FormatOpt (spec.opts.head?.getD [])) (FormatOpt_inj _) ((E.words n).map pred) []
        rw [List.foldl_map] at this
        exact this
      · rw [if_neg hu, if_neg hu]; rfl
  have hset : ∀ vs : List Str, (if vs = [] then s.opts else
      s.opts.set spec.dest (.many ((s.opts spec.dest).toList ++ vs))) =
      s.opts.set spec.dest (if vs = [] then spec.default else .many vs) := by
    intro vs
    rw [h0, hd, List.nil_append]
    by_cases hvs : vs = []
    · rw [if_pos hvs, if_pos hvs]
      funext d
      unfold Options.set
      by_cases hdd : d = spec.dest
      · rw [if_pos hdd, hdd, h0]
      · rw [if_neg hdd]
    · rw [if_neg hvs, if_neg hvs]
  rw [hflags, parse_appends ha _ _ s hp hs, hset]
  · intro v hvm
    apply hv
    rcases List.mem_append.mp hvm with h | h
    · apply List.mem_append.mpr
      right
      cases he : spec.env with
      | none => rw [he] at h; cases h
      | some n =>
        rw [he] at h
        simp only at h ⊢
        by_cases hu : o c!"use_environment" = .flag true
        · rw [if_pos hu] at h ⊢
          exact mem_dedup _ _ h
        · rw [if_neg hu] at h; cases h
    · exact List.mem_append.mpr (Or.inl h)

theorem store_flags (E : OptEnv) (o : Options) (spec : OptSpec) (ha : spec.action = .store)
    (hv : ∀ v, readBack E o spec = .text v → readBack E o spec ≠ spec.default → Carries spec v)
    (hdef : ∀ v, v ≠ [] → spec.default ≠ .text v)
    (hpath : ∀ p, p ≠ [] → (if spec.isPath then FixPath E o p else p) ≠ [])
    (s : ParseState) (hp : s.pending = none) (hs : s.stop = false)
    (h0 : s.opts spec.dest = spec.default) :
    (regenerateOne E o spec).foldlM (parseStep gypOptions) s =
      .ok { s with opts := s.opts.set spec.dest (readBack E o spec) } := by
  have hself : s.opts.set spec.dest spec.default = s.opts := by
    funext d
    unfold Options.set
    by_cases hdd : d = spec.dest
    · rw [if_pos hdd, hdd, h0]
    · rw [if_neg hdd]
  have one : ∀ v, v ≠ [] → readBack E o spec = .text v →
      ([FormatOpt (spec.opts.head?.getD []) v].foldlM (parseStep gypOptions) s =
      .ok { s with opts := s.opts.set spec.dest (readBack E o spec) }) := by
    intro v hne hr
    rw [List.foldlM_cons, hv v hr (by rw [hr]; exact fun e => hdef v hne e.symm) s hp hs, hr]
    unfold takeValue
    rw [ha]
    rfl
  have hpred : ∀ p, (if spec.isPath = true then FixPath E o else fun v => v) p =
      if spec.isPath = true then FixPath E o p else p := by
    intro p; split <;> rfl
  by_cases h1 : (o spec.dest).toText ≠ []
  · have hr : readBack E o spec = .text ((if spec.isPath = true then FixPath E o else fun v => v)
        (o spec.dest).toText) := by
      unfold readBack; rw [ha]; simp only; rw [if_pos h1]
    have hg : regenerateOne E o spec = [FormatOpt (spec.opts.head?.getD [])
        ((if spec.isPath = true then FixPath E o else fun v => v) (o spec.dest).toText)] := by
      unfold regenerateOne; rw [ha]; simp only; rw [if_pos h1]
    rw [hg]
    exact one _ (by rw [hpred]; exact hpath _ h1) hr
  · cases he : spec.env with
    | none =>
      have hr : readBack E o spec = spec.default := by
        unfold readBack; rw [ha, he]; simp only; rw [if_neg h1]
      have hg : regenerateOne E o spec = [] := by
        unfold regenerateOne; rw [ha, he]; simp only; rw [if_neg h1]
      rw [hg, hr, hself]
      rfl
    | some n =>
      by_cases h2 : o c!"use_environment" = .flag true ∧ E.var n ≠ []
      · have hr : readBack E o spec = .text ((if spec.isPath = true then FixPath E o else fun v => v)
            (E.var n)) := by
          unfold readBack; rw [ha, he]; simp only; rw [if_neg h1, if_pos h2]
        have hg : regenerateOne E o spec = [FormatOpt (spec.opts.head?.getD [])
            ((if spec.isPath = true then FixPath E o else fun v => v) (E.var n))] := by
          unfold regenerateOne; rw [ha, he]; simp only
          rw [if_neg h1, if_pos (by simpa using h2)]
        rw [hg]
        exact one _ (by rw [hpred]; exact hpath _ h2.2) hr
      · have hr : readBack E o spec = spec.default := by
          unfold readBack; rw [ha, he]; simp only; rw [if_neg h1, if_neg h2]
        have hg : regenerateOne E o spec = [] := by
          unfold regenerateOne; rw [ha, he]; simp only
          rw [if_neg h1, if_neg (by simpa using h2)]
        rw [hg, hr, hself]
        rfl

theorem flag_flags (E : OptEnv) (o : Options) (spec : OptSpec) (ha : spec.action = .storeTrue)
    (hc : classifyArg gypOptions (spec.opts.head?.getD []) = .opt spec none)
    (hne : spec.opts.head?.getD [] ≠ c!"--")
    (s : ParseState) (hp : s.pending = none) (hs : s.stop = false)
    (h0 : s.opts spec.dest = spec.default) :
    (regenerateOne E o spec).foldlM (parseStep gypOptions) s =
      .ok { s with opts := s.opts.set spec.dest (readBack E o spec) } := by
  unfold regenerateOne readBack
  rw [ha]
  simp only
  by_cases h : o spec.dest = .flag true
  · rw [if_pos h, if_pos h, List.foldlM_cons]
    have : parseStep gypOptions s (spec.opts.head?.getD []) =
        .ok { s with opts := s.opts.set spec.dest (.flag true) } := by
      unfold parseStep
      rw [hs, hp, hc]
      simp only [Bool.false_eq_true, if_false]
      rw [if_neg hne, ha]
    rw [this]
    rfl
  · rw [if_neg h, if_neg h]
    have hself : s.opts.set spec.dest spec.default = s.opts := by
      funext d
      unfold Options.set
      by_cases hdd : d = spec.dest
      · rw [if_pos hdd, hdd, h0]
      · rw [if_neg hdd]
    rw [hself]
    rfl

/-- The flags of the option are read back. -/
def ReadsBack (E : OptEnv) (o : Options) (spec : OptSpec) : Prop :=
  ∀ s : ParseState, s.pending = none → s.stop = false → s.opts spec.dest = spec.default →
    (regenerateOne E o spec).foldlM (parseStep gypOptions) s =
      .ok { s with opts := s.opts.set spec.dest (readBack E o spec) }

theorem specs_flags (E : OptEnv) (o : Options) (specs : List OptSpec) (hn : (specs.map (·.dest)).Nodup)
    (h : ∀ spec ∈ specs, ReadsBack E o spec) (s : ParseState) (hp : s.pending = none) (hs : s.stop = false)
    (h0 : ∀ spec ∈ specs, s.opts spec.dest = spec.default) :
    (specs.flatMap (regenerateOne E o)).foldlM (parseStep gypOptions) s =
      .ok { s with opts := (fun d => match specs.find? (fun sp => decide (sp.dest = d)) with
        | some sp => readBack E o sp
        | none => s.opts d) } := by
  induction specs generalizing s with
  | nil => rfl
  | cons sp specs ih =>
    rw [List.map_cons, List.nodup_cons] at hn
    rw [List.flatMap_cons, List.foldlM_append, h sp (by simp) s hp hs (h0 sp (by simp))]
    show (specs.flatMap (regenerateOne E o)).foldlM (parseStep gypOptions) _ = _
    rw [ih hn.2 (fun x hx => h x (by simp [hx])) _ (by exact hp) (by exact hs)]
    · simp only
      congr 2
      funext d
      rw [List.find?_cons]
      by_cases hd : sp.dest = d
      · have hnone : specs.find? (fun sp => decide (sp.dest = d)) = none := by
          rw [List.find?_eq_none]
          intro x hx hxd
          rw [decide_eq_true_eq] at hxd
          exact hn.1 (List.mem_map.mpr ⟨x, hx, hxd.trans hd.symm⟩)
        rw [hnone]
        simp [hd, Options.set]
      · have hd' : ¬ d = sp.dest := fun e => hd e.symm
        simp only [hd, decide_false]
        cases specs.find? (fun sp => decide (sp.dest = d)) with
        | some x => rfl
        | none => simp [Options.set, hd']
    · intro x hx
      show s.opts.set sp.dest _ x.dest = x.default
      unfold Options.set
      rw [if_neg (fun e => hn.1 (List.mem_map.mpr ⟨x, hx, e⟩))]
      exact h0 x (by simp [hx])

theorem fixPath_ne_nil (E : OptEnv) (o : Options) (p : Str) : FixPath E o p ≠ [] := by
  unfold FixPath
  simp only
  split
  · decide
  · assumption

def regenSpecs : List OptSpec := gypOptions.filter (·.regenerate)

theorem all_read_back (E : OptEnv) (o : Options) (hr : Regenerable E o) :
    ∀ spec ∈ regenSpecs, ReadsBack E o spec := by
  have e : regenSpecs =
    [⟨c!"configs", [c!"--build"], .append, false, none, true, .none⟩,
     ⟨c!"check", [c!"--check"], .storeTrue, false, none, true, .flag false⟩,
     ⟨c!"config_dir", [c!"--config-dir"], .store, false, some c!"GYP_CONFIG_DIR", true, .none⟩,
     ⟨c!"debug", [c!"-d", c!"--debug"], .append, false, none, true, .many []⟩,
     ⟨c!"defines", [c!"-D"], .append, false, some c!"GYP_DEFINES", true, .none⟩,
     ⟨c!"depth", [c!"--depth"], .store, true, none, true, .none⟩,
     ⟨c!"generator_flags", [c!"-G"], .append, false, some c!"GYP_GENERATOR_FLAGS", true, .many []⟩,
     ⟨c!"generator_output", [c!"--generator-output"], .store, true, some c!"GYP_GENERATOR_OUTPUT", true, .none⟩,
     ⟨c!"includes", [c!"-I", c!"--include"], .append, true, none, true, .none⟩,
     ⟨c!"suffix", [c!"-S", c!"--suffix"], .store, false, none, true, .text []⟩,
     ⟨c!"toplevel_dir", [c!"--toplevel-dir"], .store, true, none, true, .none⟩,
     ⟨c!"root_targets", [c!"-R", c!"--root-target"], .append, false, none, true, .none⟩,
     ⟨c!"version", [c!"-V", c!"--version"], .storeTrue, false, none, true, .flag false⟩] := by decide +kernel
  intro spec hm
  rw [e] at hm
  simp only [List.mem_cons, List.not_mem_nil, or_false] at hm
  rcases hm with rfl | rfl | rfl | rfl | rfl | rfl | rfl | rfl | rfl | rfl | rfl | rfl | rfl
  · exact append_flags E o _ rfl rfl (fun v _ => carries_long rfl (by decide) (by decide +kernel) (Or.inr rfl) v)
  · exact flag_flags E o _ rfl (by decide +kernel) (by decide)
  · exact store_flags E o _ rfl (fun v _ _ => carries_long rfl (by decide) (by decide +kernel) (Or.inl rfl) v)
      (fun v _ h => by cases h) (fun p hp => hp)
  · refine append_flags E o _ rfl rfl (fun v hv => carries_short rfl (by decide) (by decide +kernel) (Or.inr rfl) ?_)
    exact hr.debug v (by simpa [writtenValues] using hv)
  · refine append_flags E o _ rfl rfl (fun v hv => carries_short rfl (by decide) (by decide +kernel) (Or.inr rfl) ?_)
    have hv : v ∈ (o c!"defines").toList ∨ (o c!"use_environment" = .flag true ∧ v ∈ E.words c!"GYP_DEFINES") := by
      simpa [writtenValues] using hv
    rcases hv with hv | ⟨_, hv⟩
    · exact hr.defines v hv
    · exact hr.envDefines v hv
  · exact store_flags E o _ rfl (fun v _ _ => carries_long rfl (by decide) (by decide +kernel) (Or.inl rfl) v)
      (fun v _ h => by cases h) (fun p _ => fixPath_ne_nil E o p)
  · refine append_flags E o _ rfl rfl (fun v hv => carries_short rfl (by decide) (by decide +kernel) (Or.inr rfl) ?_)
    have hv : v ∈ (o c!"generator_flags").toList ∨
        (o c!"use_environment" = .flag true ∧ v ∈ E.words c!"GYP_GENERATOR_FLAGS") := by
      simpa [writtenValues] using hv
    rcases hv with hv | ⟨_, hv⟩
    · exact hr.flags v hv
    · exact hr.envFlags v hv
  · exact store_flags E o _ rfl (fun v _ _ => carries_long rfl (by decide) (by decide +kernel) (Or.inl rfl) v)
      (fun v _ h => by cases h) (fun p _ => fixPath_ne_nil E o p)
  · refine append_flags E o _ rfl rfl (fun v hv => carries_short rfl (by decide) (by decide +kernel) (Or.inr rfl) ?_)
    have hv : ∃ p ∈ (o c!"includes").toList, FixPath E o p = v := by
      simpa [writtenValues] using hv
    obtain ⟨p, hp, rfl⟩ := hv
    exact ⟨fixPath_ne_nil E o p, hr.includes p hp⟩
  · refine store_flags E o _ rfl (fun v hv hd => carries_short rfl (by decide) (by decide +kernel) (Or.inl rfl) ?_)
      (fun v hv h => by cases h; exact hv rfl) (fun p hp => hp)
    unfold readBack at hv hd
    simp only [Bool.false_eq_true, if_false] at hv hd
    by_cases h1 : (o c!"suffix").toText ≠ []
    · rw [if_pos h1] at hv
      cases hv
      exact ⟨h1, hr.suffix⟩
    · rw [if_neg h1] at hd
      exact absurd rfl hd
  · exact store_flags E o _ rfl (fun v _ _ => carries_long rfl (by decide) (by decide +kernel) (Or.inl rfl) v)
      (fun v _ h => by cases h) (fun p _ => fixPath_ne_nil E o p)
  · refine append_flags E o _ rfl rfl (fun v hv => carries_short rfl (by decide) (by decide +kernel) (Or.inr rfl) ?_)
    exact hr.roots v (by simpa [writtenValues] using hv)
  · exact flag_flags E o _ rfl (by decide +kernel) (by decide)

/-- What the flags that were written parse to. -/
theorem parse_regenerated (E : OptEnv) (o : Options) (hr : Regenerable E o) :
    parseArgs gypOptions (RegenerateFlags E o) = .ok
      ((fun d => match regenSpecs.find? (fun sp => decide (sp.dest = d)) with
        | some sp => readBack E o sp
        | none => (defaultOptions gypOptions).set c!"use_environment" (.flag false) d), []) := by
  unfold parseArgs RegenerateFlags
  rw [List.foldlM_cons]
  have h1 : parseStep gypOptions ⟨defaultOptions gypOptions, [], none, false⟩ c!"--ignore-environment" =
      .ok ⟨(defaultOptions gypOptions).set c!"use_environment" (.flag false), [], none, false⟩ := by
    unfold parseStep
    have : classifyArg gypOptions c!"--ignore-environment" = .opt
      ⟨c!"use_environment", [c!"--ignore-environment"], .storeFalse, false, none, false, .flag true⟩ none := by
      decide +kernel
    rw [this]
    rfl
  rw [h1]
  have h2 := specs_flags E o regenSpecs (by decide +kernel) (all_read_back E o hr)
    ⟨(defaultOptions gypOptions).set c!"use_environment" (.flag false), [], none, false⟩ rfl rfl
    (by decide +kernel)
  have h3 : (Except.ok (⟨(defaultOptions gypOptions).set c!"use_environment" (.flag false), [], none, false⟩ : ParseState) >>=
      fun s => (regenSpecs.flatMap (regenerateOne E o)).foldlM (parseStep gypOptions) s) =
      (Except.ok (ε := ParseErr) _) := h2
  unfold regenSpecs at h3
  rw [h3]
  rfl

/-! ### The settings -/

theorem walk_dot (l : Loc) : walk l dot = l := by
  simp [walk, dot, splitOn, walkStep]

theorem walk_FixPath (E : OptEnv) (o : Options) (h : ∀ c ∈ E.cwd, validName c) (p : Str) :
    walk (walk E.cwd.reverse (o c!"depth").toText) (FixPath E o p) = walk E.cwd.reverse p := by
  unfold FixPath FixIfRelativePath
  simp only
  by_cases ha : isAbs p = true
  · simp only [ha, if_true]
    have : p ≠ [] := by rintro rfl; cases ha
    rw [if_neg this]
    exact walk_abs ha _ _
  · simp only [ha, Bool.false_eq_true, if_false]
    have := walk_RelativePath h p (o c!"depth").toText
    by_cases hn : RelativePath E.cwd p (o c!"depth").toText = []
    · rw [if_pos hn, walk_dot]
      rw [hn, walk_nil] at this
      exact this
    · rw [if_neg hn]; exact this

theorem prepared_facts {E : OptEnv} {files : List Str} {o₀ o : Options}
    (hprep : prepareOptions E files o₀ = some o) :
    (o c!"depth").toText ≠ [] ∧ (o c!"toplevel_dir").toText ≠ [] ∧
      ((o c!"generator_output").toText = [] → ¬ (o c!"use_environment" = .flag true ∧
        E.var c!"GYP_GENERATOR_OUTPUT" ≠ [])) := by
  unfold prepareOptions at hprep
  simp only at hprep
  generalize ho1 : (if (o₀ c!"generator_output").toText = [] ∧ o₀ c!"use_environment" = .flag true ∧
      E.var c!"GYP_GENERATOR_OUTPUT" ≠ [] then
    o₀.set c!"generator_output" (.text (E.var c!"GYP_GENERATOR_OUTPUT")) else o₀) = o1 at hprep
  have h1 : (o1 c!"generator_output").toText = [] → ¬ (o1 c!"use_environment" = .flag true ∧
        E.var c!"GYP_GENERATOR_OUTPUT" ≠ []) := by
    rw [← ho1]
    by_cases h : (o₀ c!"generator_output").toText = [] ∧ o₀ c!"use_environment" = .flag true ∧
      E.var c!"GYP_GENERATOR_OUTPUT" ≠ []
    · rw [if_pos h]
      intro h'
      exact absurd h' h.2.2
    · rw [if_neg h]
      intro h' h''
      exact h ⟨h', h''⟩
  obtain ⟨o2, ho2, hmap⟩ := Option.map_eq_some_iff.mp hprep
  have h2 : (o2 c!"depth").toText ≠ [] ∧ (∀ d, d ≠ c!"depth" → o2 d = o1 d) := by
    by_cases hd : (o1 c!"depth").toText ≠ []
    · rw [if_pos hd] at ho2
      cases ho2
      exact ⟨hd, fun _ _ => rfl⟩
    · rw [if_neg hd] at ho2
      obtain ⟨t, ht, rfl⟩ := Option.map_eq_some_iff.mp ho2
      refine ⟨?_, ?_⟩
      · show t ≠ []
        unfold findDepth at ht
        obtain ⟨l1, f, l2, _, hf, _⟩ := List.findSome?_eq_some_iff.mp ht
        cases hu : upToSrc (splitOn '/' (abspath E.cwd (dirname f))) with
        | none => rw [hu] at hf; cases hf
        | some l =>
          rw [hu] at hf
          simp only at hf
          split at hf
          · cases hf
          · rename_i hne; cases hf; exact hne
      · intro d hdd
        unfold Options.set
        rw [if_neg hdd]
  have hout : o2 c!"generator_output" = o1 c!"generator_output" := h2.2 _ (by decide)
  have huse : o2 c!"use_environment" = o1 c!"use_environment" := h2.2 _ (by decide)
  by_cases htop : (o2 c!"toplevel_dir").toText = []
  · rw [if_pos htop] at hmap
    subst hmap
    refine ⟨h2.1, h2.1, ?_⟩
    show (o2 c!"generator_output").toText = [] → ¬ (o2 c!"use_environment" = .flag true ∧ _)
    rw [hout, huse]
    exact h1
  · rw [if_neg htop] at hmap
    subst hmap
    refine ⟨h2.1, htop, ?_⟩
    rw [hout, huse]
    exact h1

set_option maxHeartbeats 1000000 in
/-- **C58** (regeneration).  The flags written into the generated files, run in the
directory of the depth with any environment, are accepted and lead to the same
settings: the same tables of variables and generator flags, the same places, the
same texts. -/
theorem C58_regenerate (E E' : OptEnv) (files : List Str) (o₀ o : Options)
    (hprep : prepareOptions E files o₀ = some o) (hcwd : ∀ c ∈ E.cwd, validName c)
    (hdir : E'.cwd.reverse = walk E.cwd.reverse (o c!"depth").toText) (hr : Regenerable E o) :
    ∃ o', parseArgs gypOptions (RegenerateFlags E o) = .ok (o', []) ∧
      (∀ files', prepareOptions E' files' o' = some o') ∧ SameSettings E o E' o' := by
  obtain ⟨hd, ht, hg⟩ := prepared_facts hprep
  have hparse := parse_regenerated E o hr
  generalize ho' : (fun d => match regenSpecs.find? (fun sp => decide (sp.dest = d)) with
        | some sp => readBack E o sp
        | none => (defaultOptions gypOptions).set c!"use_environment" (.flag false) d) = o' at hparse
  have hval : ∀ d sp, regenSpecs.find? (fun sp => decide (sp.dest = d)) = some sp → o' d = readBack E o sp := by
    intro d sp h
    rw [← ho']
    simp only [h]
  have hspec : ∀ d sp, regenSpecs.find? (fun sp => decide (sp.dest = d)) = some sp →
      o' d = readBack E o sp := hval
  have huse : o' c!"use_environment" = .flag false := by
    have hf : regenSpecs.find? (fun sp => decide (sp.dest = c!"use_environment")) = none := by decide +kernel
    rw [← ho']
    simp only [hf]
    rfl
  -- the values read back
  have e_configs := hspec c!"configs"
    ⟨c!"configs", [c!"--build"], .append, false, none, true, .none⟩ (by decide +kernel)
  have e_check := hspec c!"check"
    ⟨c!"check", [c!"--check"], .storeTrue, false, none, true, .flag false⟩ (by decide +kernel)
  have e_config_dir := hspec c!"config_dir"
    ⟨c!"config_dir", [c!"--config-dir"], .store, false, some c!"GYP_CONFIG_DIR", true, .none⟩ (by decide +kernel)
  have e_debug := hspec c!"debug"
    ⟨c!"debug", [c!"-d", c!"--debug"], .append, false, none, true, .many []⟩ (by decide +kernel)
  have e_defines := hspec c!"defines"
    ⟨c!"defines", [c!"-D"], .append, false, some c!"GYP_DEFINES", true, .none⟩ (by decide +kernel)
  have e_depth := hspec c!"depth"
    ⟨c!"depth", [c!"--depth"], .store, true, none, true, .none⟩ (by decide +kernel)
  have e_flags := hspec c!"generator_flags"
    ⟨c!"generator_flags", [c!"-G"], .append, false, some c!"GYP_GENERATOR_FLAGS", true, .many []⟩
    (by decide +kernel)
  have e_output := hspec c!"generator_output"
    ⟨c!"generator_output", [c!"--generator-output"], .store, true, some c!"GYP_GENERATOR_OUTPUT", true, .none⟩
    (by decide +kernel)
  have e_includes := hspec c!"includes"
    ⟨c!"includes", [c!"-I", c!"--include"], .append, true, none, true, .none⟩ (by decide +kernel)
  have e_suffix := hspec c!"suffix"
    ⟨c!"suffix", [c!"-S", c!"--suffix"], .store, false, none, true, .text []⟩ (by decide +kernel)
  have e_toplevel := hspec c!"toplevel_dir"
    ⟨c!"toplevel_dir", [c!"--toplevel-dir"], .store, true, none, true, .none⟩ (by decide +kernel)
  have e_roots := hspec c!"root_targets"
    ⟨c!"root_targets", [c!"-R", c!"--root-target"], .append, false, none, true, .none⟩ (by decide +kernel)
  unfold readBack at e_configs e_check e_config_dir e_debug e_defines e_depth e_flags e_output e_includes e_suffix e_toplevel e_roots
  simp only [Bool.false_eq_true, if_false, if_true, List.nil_append, List.map_id'] at e_configs e_check e_config_dir e_debug e_defines e_depth e_flags e_output e_includes e_suffix e_toplevel e_roots
  have many_toList : ∀ (l : List Str) (d : OptValue), d.toList = [] → (if l = [] then d else OptValue.many l).toList = l := by
    intro l d hd
    by_cases h : l = []
    · rw [if_pos h, hd, h]
    · rw [if_neg h]; rfl
  rw [if_pos hd] at e_depth
  rw [if_pos ht] at e_toplevel
  have fd : (o' c!"depth").toText = FixPath E o (o c!"depth").toText := by rw [e_depth]; rfl
  have ft : (o' c!"toplevel_dir").toText = FixPath E o (o c!"toplevel_dir").toText := by rw [e_toplevel]; rfl
  have place : ∀ p, p ≠ [] → SamePlace E.cwd.reverse p E'.cwd.reverse (FixPath E o p) := by
    intro p hp
    refine ⟨⟨fun h => absurd h hp, fun h => absurd h (fixPath_ne_nil E o p)⟩, fun _ => ?_⟩
    rw [hdir, walk_FixPath E o hcwd]
  have table : ∀ (n : Str) (mine : List Str) (k : Str),
      aget (NameValueListToDict ((if o' c!"use_environment" = .flag true then E'.words n else []) ++
        ((if o c!"use_environment" = .flag true then dedupLast (E.words n) else []) ++ mine))) k =
      aget (NameValueListToDict ((if o c!"use_environment" = .flag true then E.words n else []) ++ mine)) k := by
    intro n mine k
    rw [if_neg (by rw [huse]; decide), List.nil_append]
    apply nv_append_congr
    intro k
    by_cases hu : o c!"use_environment" = .flag true
    · rw [if_pos hu, if_pos hu]; exact nv_dedup _ k
    · rw [if_neg hu, if_neg hu]
  refine ⟨o', hparse, ?_, ?_⟩
  · intro files'
    unfold prepareOptions
    simp only
    have h1 : ¬ ((o' c!"generator_output").toText = [] ∧ o' c!"use_environment" = .flag true ∧
        E'.var c!"GYP_GENERATOR_OUTPUT" ≠ []) := by
      rintro ⟨_, h, _⟩
      rw [huse] at h
      cases h
    rw [if_neg h1, if_pos (by rw [fd]; exact fixPath_ne_nil _ _ _), Option.map_some,
      if_neg (by rw [ft]; exact fixPath_ne_nil _ _ _)]
  · constructor
    · intro k
      unfold cmdlineVariables
      rw [e_defines, many_toList _ _ rfl]
      exact table _ _ k
    · intro k
      unfold generatorFlags
      rw [e_flags, many_toList _ _ rfl]
      exact table _ _ k
    · rw [fd]; exact place _ hd
    · rw [ft]; exact place _ ht
    · by_cases h : (o c!"generator_output").toText ≠ []
      · rw [if_pos h] at e_output
        rw [e_output]
        exact place _ h
      · rw [if_neg h, if_neg (hg (not_not.mp h))] at e_output
        rw [e_output]
        exact ⟨⟨fun _ => rfl, fun _ => not_not.mp h⟩, fun h' => absurd h' h⟩
    · rw [e_includes, many_toList _ _ rfl, List.forall₂_map_right_iff, List.forall₂_same]
      intro p _
      rw [hdir, walk_FixPath E o hcwd]
    · rw [e_suffix]
      by_cases h : (o c!"suffix").toText ≠ []
      · rw [if_pos h]; rfl
      · rw [if_neg h]; exact (not_not.mp h).symm
    · rw [e_configs, many_toList _ _ rfl]
    · rw [e_debug, many_toList _ _ rfl]
    · rw [e_roots, many_toList _ _ rfl]
    · rw [e_check]
      by_cases h : o c!"check" = .flag true
      · rw [if_pos h]; simp [h]
      · rw [if_neg h]; simp [h]
    · have ht : (o' c!"config_dir").toText = if (o c!"config_dir").toText ≠ [] then (o c!"config_dir").toText
          else if o c!"use_environment" = .flag true then E.var c!"GYP_CONFIG_DIR" else [] := by
        rw [e_config_dir]
        by_cases h : (o c!"config_dir").toText ≠ []
        · rw [if_pos h, if_pos h]; rfl
        · rw [if_neg h, if_neg h]
          by_cases hu : o c!"use_environment" = .flag true
          · rw [if_pos hu]
            by_cases hv : E.var c!"GYP_CONFIG_DIR" ≠ []
            · rw [if_pos ⟨hu, hv⟩]; rfl
            · rw [if_neg (fun hh => hv hh.2)]; exact (not_not.mp hv).symm
          · rw [if_neg hu, if_neg (fun hh => hu hh.1)]; rfl
      unfold configDir
      rw [← ht, if_neg (c := o' c!"use_environment" = .flag true) (by rw [huse]; decide)]
      by_cases h : (o' c!"config_dir").toText ≠ []
      · rw [if_pos h]
      · rw [if_neg h]; exact (not_not.mp h).symm

/-! ### The depth -/

theorem upToSrc_spec (cs l : List Str) : upToSrc cs = some l ↔
    ∃ below, cs = l ++ below ∧ l.getLast? = some c!"src" ∧ c!"src" ∉ below := by
  unfold upToSrc
  constructor
  · intro h
    have hsplit : cs.reverse = cs.reverse.takeWhile (fun x => decide (x ≠ c!"src")) ++
        cs.reverse.dropWhile (fun x => decide (x ≠ c!"src")) := List.takeWhile_append_dropWhile.symm
    cases hd : cs.reverse.dropWhile (fun x => decide (x ≠ c!"src")) with
    | nil => rw [hd] at h; cases h
    | cons x xs =>
      rw [hd] at h hsplit
      have hl : l = (x :: xs).reverse := (Option.some.inj h).symm
      refine ⟨(cs.reverse.takeWhile (fun x => decide (x ≠ c!"src"))).reverse, ?_, ?_, ?_⟩
      · have := congrArg List.reverse hsplit
        rw [List.reverse_reverse, List.reverse_append] at this
        rw [hl]; exact this
      · rw [hl, List.getLast?_reverse, List.head?_cons]
        have := List.head?_dropWhile_not (fun x => decide (x ≠ c!"src")) cs.reverse
        rw [hd] at this
        simpa using this
      · intro hm
        have := List.all_eq_true.mp (List.all_takeWhile (p := fun x : Str => decide (x ≠ c!"src")) (l := cs.reverse))
          _ (List.mem_reverse.mp hm)
        simp at this
  · rintro ⟨below, rfl, hl, hb⟩
    have hdrop : ∀ (b : List Str) (s : List Str), c!"src" ∉ b →
        (b ++ c!"src" :: s).dropWhile (fun x => decide (x ≠ c!"src")) = c!"src" :: s := by
      intro b s hb
      induction b with
      | nil => simp
      | cons y b ih =>
        simp only [List.mem_cons, not_or] at hb
        rw [List.cons_append, List.dropWhile_cons, if_pos (by simpa using fun e => hb.1 e.symm), ih hb.2]
    rcases List.eq_nil_or_concat l with rfl | ⟨l', y, rfl⟩
    · cases hl
    · have : y = c!"src" := by simpa using hl
      subst this
      rw [List.concat_eq_append]
      have e : (l' ++ [c!"src"] ++ below).reverse = below.reverse ++ c!"src" :: l'.reverse := by simp
      rw [e, hdrop _ _ (fun h => hb (List.mem_reverse.mp h))]
      simp

theorem last_occurrence {x : Str} {l : List Str} (h : x ∈ l) :
    ∃ b a, l = a ++ x :: b ∧ x ∉ b := by
  induction l with
  | nil => cases h
  | cons y l ih =>
    by_cases hx : x ∈ l
    · obtain ⟨b, a, e, hb⟩ := ih hx
      exact ⟨b, y :: a, by rw [e]; rfl, hb⟩
    · rcases List.mem_cons.mp h with rfl | h
      · exact ⟨l, [], rfl, hx⟩
      · exact absurd h hx

theorem depth_one {cwd : List Str} (hcwd : ∀ c ∈ cwd, validName c) (dir : Str) {l : List Str}
    (h : upToSrc (splitOn '/' (abspath cwd dir)) = some l) :
    joinWith ['/'] l ≠ [] ∧ isAbs (joinWith ['/'] l) = true ∧
      InnermostSrc (walk cwd.reverse dir) (walk [] (joinWith ['/'] l)) := by
  obtain ⟨below, hc, hlast, hb⟩ := (upToSrc_spec _ _).mp h
  obtain ⟨hv, n, hn, hs⟩ := absSplit_abspath hcwd dir
  rw [hs] at hc
  have hmem : c!"src" ∈ l := List.mem_of_getLast? hlast
  have hrep : c!"src" ∉ List.replicate n ([] : Str) := by
    intro hm
    have := List.eq_of_mem_replicate hm
    cases this
  rcases List.append_eq_append_iff.mp hc with ⟨a, hla, hna⟩ | ⟨c, hrc, _⟩
  · have ha : a ≠ [] := by
      rintro rfl
      rw [hla, List.append_nil] at hmem
      exact hrep hmem
    have halast : a.getLast? = some c!"src" := by
      rw [hla, List.getLast?_append] at hlast
      cases hg : a.getLast? with
      | none => exact absurd (List.getLast?_eq_none_iff.mp hg) ha
      | some y => rw [hg] at hlast; simpa using hlast
    have hva : ∀ c ∈ a, validName c := fun c hc => hv c (by rw [hna]; simp [hc])
    have hjoin : splitOn '/' (joinWith ['/'] l) = l := by
      apply splitOn_joinWith
      · rintro rfl; cases hmem
      · intro w hw
        rw [hla, List.mem_append] at hw
        rcases hw with hw | hw
        · rw [List.eq_of_mem_replicate hw]; simp
        · exact (hva w hw).2.1
    obtain ⟨n, rfl⟩ : ∃ m, n = m + 1 := ⟨n - 1, by omega⟩
    obtain ⟨y, ys, hl2⟩ : ∃ y ys, l = [] :: y :: ys := by
      rw [hla, List.replicate_succ]
      cases hr : List.replicate n ([] : Str) ++ a with
      | nil => simp at hr; exact absurd hr.2 ha
      | cons y ys => exact ⟨y, ys, by rw [List.cons_append, hr]⟩
    have habs : isAbs (joinWith ['/'] l) = true := by
      rw [isAbs_iff, hl2]; simp [joinWith]
    refine ⟨by rw [hl2]; simp [joinWith], habs, ?_⟩
    have hw : walk [] (joinWith ['/'] l) = a.reverse := by
      rw [walk_of_isAbs habs, hjoin, hla, List.foldl_append]
      have : ∀ m, (List.replicate m ([] : Str)).foldl walkStep [] = [] := by
        intro m
        induction m with
        | zero => rfl
        | succ m ih => rw [List.replicate_succ, List.foldl_cons]; exact ih
      rw [this, foldl_walkStep_valid hva, List.append_nil]
    obtain ⟨a', rfl⟩ : ∃ a', a = a' ++ [c!"src"] := by
      rcases List.eq_nil_or_concat a with rfl | ⟨a', y, rfl⟩
      · exact absurd rfl ha
      · have : y = c!"src" := by simpa using halast
        exact ⟨a', by rw [this, List.concat_eq_append]⟩
    refine ⟨below.reverse, a'.reverse, ?_, ?_, fun hm => hb (List.mem_reverse.mp hm)⟩
    · have := congrArg List.reverse hna
      simpa using this
    · rw [hw]; simp
  · exact absurd (by rw [hrc]; simp [hmem]) hrep

/-- **C58** (default depth).  If no depth is given it is the innermost directory
named `src` in which a build file lies, for the first build file that lies in one;
and there is none only if no build file lies in such a directory. -/
theorem C58_depth {cwd : List Str} (hcwd : ∀ c ∈ cwd, validName c) (files : List Str) :
    (∀ d, findDepth cwd files = some d →
      ∃ before f after, files = before ++ f :: after ∧
        InnermostSrc (walk cwd.reverse (dirname f)) (walk [] d) ∧ d.head? = some '/' ∧
        ∀ f' ∈ before, c!"src" ∉ walk cwd.reverse (dirname f')) ∧
    (findDepth cwd files = none ↔ ∀ f ∈ files, c!"src" ∉ walk cwd.reverse (dirname f)) := by
  let look : Str → Option Str := fun f =>
    match upToSrc (splitOn '/' (abspath cwd (dirname f))) with
    | some l => if joinWith ['/'] l = [] then none else some (joinWith ['/'] l)
    | none => none
  have hsome : ∀ f d, look f = some d →
      InnermostSrc (walk cwd.reverse (dirname f)) (walk [] d) ∧ d.head? = some '/' := by
    intro f d h
    simp only [look] at h
    cases hu : upToSrc (splitOn '/' (abspath cwd (dirname f))) with
    | none => rw [hu] at h; cases h
    | some l =>
      obtain ⟨h1, h2, h3⟩ := depth_one hcwd _ hu
      rw [hu] at h
      simp only [if_neg h1, Option.some.injEq] at h
      subst h
      exact ⟨h3, isAbs_iff.mp h2⟩
  have hnone : ∀ f, look f = none ↔ c!"src" ∉ walk cwd.reverse (dirname f) := by
    intro f
    constructor
    · intro h hm
      simp only [look] at h
      cases hu : upToSrc (splitOn '/' (abspath cwd (dirname f))) with
      | some l =>
        obtain ⟨h1, _, _⟩ := depth_one hcwd _ hu
        rw [hu] at h
        simp only [if_neg h1] at h
        cases h
      | none =>
        obtain ⟨hv, n, hn, hs⟩ := absSplit_abspath hcwd (dirname f)
        have hm' : c!"src" ∈ splitOn '/' (abspath cwd (dirname f)) := by
          rw [hs]; simp only [List.mem_append, List.mem_reverse]; exact .inr hm
        obtain ⟨below, above, e, hb⟩ : ∃ b a, splitOn '/' (abspath cwd (dirname f)) = a ++ c!"src" :: b ∧ c!"src" ∉ b := by
          obtain ⟨b, a, e, hb⟩ := last_occurrence hm'
          exact ⟨b, a, e, hb⟩
        have := (upToSrc_spec (splitOn '/' (abspath cwd (dirname f))) (above ++ [c!"src"])).mpr
          ⟨below, by rw [e]; simp, by simp, hb⟩
        rw [hu] at this; cases this
    · intro h
      cases hl : look f with
      | none => rfl
      | some d =>
        obtain ⟨⟨b, a, e, _⟩, _⟩ := hsome f d hl
        exact absurd (by rw [e]; simp) h
  have he : findDepth cwd files = files.findSome? look := rfl
  rw [he]
  constructor
  · intro d h
    obtain ⟨l1, f, l2, e, hf, hb⟩ := List.findSome?_eq_some_iff.mp h
    obtain ⟨h1, h2⟩ := hsome f d hf
    exact ⟨l1, f, l2, e, h1, h2, fun f' hf' => (hnone f').mp (hb f' hf')⟩
  · rw [List.findSome?_eq_none_iff]
    exact forall_congr' fun f => imp_congr_right fun _ => hnone f

/-! ### Examples and limits -/

instance (v : Str) : Decidable (Attachable v) := by unfold Attachable; infer_instance
instance (c : Char) : Decidable (PySpace c) := by unfold PySpace; infer_instance


/-- An invocation in `/w/src/app`. -/
def exOptEnv : OptEnv where
  cwd := [c!"w", c!"src", c!"app"]
  words := fun n => if n = c!"GYP_DEFINES" then [c!"a=1", c!"b", c!"a=1"] else []
  var := fun n => if n = c!"GYP_GENERATOR_OUTPUT" then c!"out" else []

/-- The same machine, another directory, another environment. -/
def exOptEnv' : OptEnv where
  cwd := [c!"w", c!"src"]
  words := fun _ => [c!"a=7"]
  var := fun _ => c!"/elsewhere"

def exOptArgs : List Str := [c!"-D", c!"c=x y", c!"-Db=-12", c!"--incl", c!"../common.gypi", c!"--build=Debug"]

/-- What the arguments mean. -/
def exOpt₀ : Options :=
  match parseArgs gypOptions exOptArgs with
  | .ok (o, _) => o
  | .error _ => fun _ => .none

def exOpt : Options := (prepareOptions exOptEnv [c!"app.gyp"] exOpt₀).getD fun _ => .none

example : NameValueListToDict [c!"a=1", c!"b", c!"a=x=y", c!"n= -0_7 "] =
    [(c!"a", .str c!"x=y"), (c!"b", .true_), (c!"n", .int (-7))] := by decide +kernel

example : Sets c!"n= -0_7 " c!"n" (.int (-7)) :=
  .inr ⟨c!" -0_7 ", by decide, rfl, .inl ⟨-7, ⟨c!" ", c!"-", [c!"0", c!"7"], c!" ", rfl, by decide,
    by decide, by decide, (by unfold IsDigits; decide), .inr ⟨rfl, rfl⟩⟩, rfl⟩⟩

example : (exOpt₀ c!"defines", exOpt₀ c!"includes", exOpt₀ c!"configs") =
    (.many [c!"c=x y", c!"b=-12"], .many [c!"../common.gypi"], .many [c!"Debug"]) := by decide +kernel

/-- The flags that are written into the generated files. -/
example : RegenerateFlags exOptEnv exOpt =
    [c!"--ignore-environment", c!"--build=Debug", c!"-Db", c!"-Da=1", c!"-Dc=x y", c!"-Db=-12",
     c!"--depth=/w/src", c!"--generator-output=app/out", c!"-Icommon.gypi",
     c!"--toplevel-dir=/w/src"] := by decide +kernel

/-- The hypotheses of `C58_regenerate` can be met. -/
example : ∃ o, prepareOptions exOptEnv [c!"app.gyp"] exOpt₀ = some o ∧
    (∀ c ∈ exOptEnv.cwd, validName c) ∧
    exOptEnv'.cwd.reverse = walk exOptEnv.cwd.reverse (o c!"depth").toText ∧ Regenerable exOptEnv o := by
  refine ⟨exOpt, ?_, by decide, by decide +kernel, ⟨by decide +kernel, ?_, ?_, by decide +kernel,
    by decide +kernel, by decide +kernel, by decide +kernel, by decide +kernel⟩⟩
  · have h : (prepareOptions exOptEnv [c!"app.gyp"] exOpt₀).isSome = true := by decide +kernel
    obtain ⟨o, ho⟩ := Option.isSome_iff_exists.mp h
    unfold exOpt
    rw [ho]; rfl
  · have : (exOpt c!"defines").toList = [c!"c=x y", c!"b=-12"] := by decide +kernel
    rw [this]
    unfold Attachable
    decide
  · have : exOptEnv.words c!"GYP_DEFINES" = [c!"a=1", c!"b", c!"a=1"] := by decide +kernel
    rw [this]
    unfold Attachable
    decide

example : findDepth [c!"w", c!"src", c!"app"] [c!"/x/a.gyp", c!"sub/b.gyp"] = some c!"/w/src" := by
  decide +kernel

/-- Options with nothing but a depth. -/
def depthOnly (d : Str) : Options := (defaultOptions gypOptions).set c!"depth" (.text d)

/-- **Limit of C58**: an empty value of a one-letter option is written without a value,
and the flags are refused. -/
theorem C58_empty_value : RegenerateFlags exOptEnv' ((depthOnly c!".").set c!"debug" (.many [[]])) =
      [c!"--ignore-environment", c!"--config-dir=/elsewhere", c!"-d", c!"-Da=7", c!"--depth=.",
       c!"-Ga=7", c!"--generator-output=/elsewhere"] ∧
    ∃ e, parseArgs gypOptions
      (RegenerateFlags exOptEnv' ((depthOnly c!".").set c!"debug" (.many [[]]))) = .error e := by
  have h : RegenerateFlags exOptEnv' ((depthOnly c!".").set c!"debug" (.many [[]])) =
      [c!"--ignore-environment", c!"--config-dir=/elsewhere", c!"-d", c!"-Da=7", c!"--depth=.",
       c!"-Ga=7", c!"--generator-output=/elsewhere"] := by decide +kernel
  refine ⟨h, .expectedArgument, ?_⟩
  rw [h]
  rfl

/-- **Limit of C58**: a value of a one-letter option that begins with `=` loses it. -/
theorem C58_equals : RegenerateFlags exOptEnv ((depthOnly c!".").set c!"suffix" (.text c!"=x")) =
      [c!"--ignore-environment", c!"-Db", c!"-Da=1", c!"--depth=.",
       c!"--generator-output=out", c!"-S=x"] ∧
    ∃ o, parseArgs gypOptions (RegenerateFlags exOptEnv ((depthOnly c!".").set c!"suffix" (.text c!"=x"))) =
      .ok (o, []) ∧ o c!"suffix" = .text c!"x" := by
  have h : RegenerateFlags exOptEnv ((depthOnly c!".").set c!"suffix" (.text c!"=x")) =
      [c!"--ignore-environment", c!"-Db", c!"-Da=1", c!"--depth=.",
       c!"--generator-output=out", c!"-S=x"] := by decide +kernel
  exact ⟨h, _, by rw [h]; rfl, rfl⟩

/-- **Limit of C58**: the directory of the configuration is written as it was given,
so a relative one means another place when it is read in the directory of the depth. -/
theorem C58_config_dir :
    ∃ o', parseArgs gypOptions
        (RegenerateFlags exOptEnv (exOpt.set c!"config_dir" (.text c!"conf"))) = .ok (o', []) ∧
      (o' c!"config_dir").toText = c!"conf" ∧
      walk exOptEnv.cwd.reverse c!"conf" ≠ walk exOptEnv'.cwd.reverse c!"conf" := by
  have h : RegenerateFlags exOptEnv (exOpt.set c!"config_dir" (.text c!"conf")) =
    [c!"--ignore-environment", c!"--build=Debug", c!"--config-dir=conf", c!"-Db", c!"-Da=1", c!"-Dc=x y", c!"-Db=-12",
     c!"--depth=/w/src", c!"--generator-output=app/out", c!"-Icommon.gypi",
     c!"--toplevel-dir=/w/src"] := by decide +kernel
  refine ⟨_, by rw [h]; rfl, rfl, by decide⟩

end Gyp
