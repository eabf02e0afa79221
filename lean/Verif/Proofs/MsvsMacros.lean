import Verif.Spec.Msvs
/-
Replacing one macro after the other is replacing all of them at once.
-/
namespace Gyp
open Spec

/-- No occurrence of `k` starts inside of `x`, whatever follows. -/
def clearOf (k x : Str) : Bool :=
  match x with
  | [] => true
  | c :: cs => !k.isPrefixOf (c :: cs) && !(c :: cs).isPrefixOf k && clearOf k cs

theorem clearOf_not_prefix {k : Str} {c : Char} {cs u : Str} (h : clearOf k (c :: cs) = true) :
    ¬ k <+: (c :: cs) ++ u := by
  intro hp
  simp only [clearOf, Bool.and_eq_true, Bool.not_eq_true', ← Bool.not_eq_true,
    List.isPrefixOf_iff_prefix] at h
  rcases List.prefix_or_prefix_of_prefix hp (List.prefix_append (c :: cs) u) with h1 | h1
  · exact h.1.1 h1
  · exact h.1.2 h1

theorem replaceStr_clear {k n x u : Str} (h : clearOf k x = true) :
    replaceStr k n (x ++ u) = x ++ replaceStr k n u := by
  induction x with
  | nil => rfl
  | cons c cs ih =>
    have h1 := clearOf_not_prefix (u := u) h
    have h2 : clearOf k cs = true := by
      simp only [clearOf, Bool.and_eq_true] at h; exact h.2
    rw [List.cons_append, replaceStr, if_neg (by
      rw [List.isPrefixOf_iff_prefix]; exact fun hc => h1 hc.1), ih h2]
    rfl

/-- All the macros at once. -/
def multi (ms : List (Str × Str)) (s : Str) : Str :=
  match s with
  | [] => []
  | c :: cs =>
    match ms.find? fun m => m.1.isPrefixOf (c :: cs) && m.1 ≠ [] with
    | some m => m.2 ++ multi ms (cs.drop (m.1.length - 1))
    | none => c :: multi ms cs
termination_by s.length
decreasing_by
  · simp; omega
  · simp

theorem multi_nil (s : Str) : multi [] s = s := by
  induction s with
  | nil => simp [multi]
  | cons c cs ih => rw [multi]; simp [ih]

theorem multi_char {ms : List (Str × Str)} {c : Char} {cs : Str}
    (h : ∀ m ∈ ms, ¬ m.1 <+: c :: cs) : multi ms (c :: cs) = c :: multi ms cs := by
  rw [multi]
  have : ms.find? (fun m => m.1.isPrefixOf (c :: cs) && m.1 ≠ []) = none := by
    rw [List.find?_eq_none]
    intro m hm hc
    simp only [Bool.and_eq_true, List.isPrefixOf_iff_prefix] at hc
    exact h m hm hc.1
  rw [this]

theorem multi_clear {ms : List (Str × Str)} {x u : Str} (h : ∀ m ∈ ms, clearOf m.1 x = true) :
    multi ms (x ++ u) = x ++ multi ms u := by
  induction x with
  | nil => rfl
  | cons c cs ih =>
    rw [List.cons_append, multi_char (cs := cs ++ u) (fun m hm => clearOf_not_prefix (u := u) (h m hm)), ih]
    · rfl
    · intro m hm
      have := h m hm
      simp only [clearOf, Bool.and_eq_true] at this; exact this.2

theorem multi_macro {ms : List (Str × Str)} {m : Str × Str} {u : Str} (hm : m ∈ ms)
    (hne : m.1 ≠ []) (h : ∀ k ∈ ms, k ≠ m → clearOf k.1 m.1 = true) :
    multi ms (m.1 ++ u) = m.2 ++ multi ms u := by
  obtain ⟨c, cs, hc⟩ : ∃ c cs, m.1 = c :: cs := List.exists_cons_of_ne_nil hne
  have hf : ms.find? (fun k => k.1.isPrefixOf (m.1 ++ u) && k.1 ≠ []) = some m := by
    have hex : (ms.find? (fun k => k.1.isPrefixOf (m.1 ++ u) && k.1 ≠ [])).isSome := by
      rw [List.find?_isSome]
      exact ⟨m, hm, by simp [List.isPrefixOf_iff_prefix, hne]⟩
    obtain ⟨k, hk⟩ := Option.isSome_iff_exists.mp hex
    rw [hk]
    have h1 := List.find?_some hk
    have h2 := List.mem_of_find?_eq_some hk
    by_cases hkm : k = m
    · rw [hkm]
    · exfalso
      have h3 := h k h2 hkm
      simp only [Bool.and_eq_true, List.isPrefixOf_iff_prefix] at h1
      rw [hc] at h3 h1
      exact clearOf_not_prefix h3 h1.1
  rw [hc, List.cons_append, multi]
  rw [hc, List.cons_append] at hf
  rw [hf]
  simp only
  rw [hc]
  simp

/-- What makes the order of the replacements irrelevant. -/
def goodPair (m k : Str × Str) : Bool :=
  clearOf k.1 m.2 && clearOf m.1 k.1 && clearOf k.1 m.1 &&
    match m.2 with
    | [] => false
    | h :: _ => !k.1.tail.contains h

theorem prefix_replaceStr {k n p : Str} {hd : Char} {tl : Str} (hn : n = hd :: tl) (hp : hd ∉ p) :
    ∀ (cs : Str), p <+: replaceStr k n cs → p <+: cs := by
  induction p with
  | nil => intro cs _; exact List.nil_prefix
  | cons x xs ih =>
    intro cs h
    cases cs with
    | nil => rw [replaceStr] at h; simp at h
    | cons c cs =>
      rw [replaceStr] at h
      by_cases hk : k.isPrefixOf (c :: cs) = true ∧ k ≠ []
      · rw [if_pos hk, hn, List.cons_append, List.cons_prefix_cons] at h
        exact absurd (h.1 ▸ List.mem_cons_self) hp
      · rw [if_neg hk, List.cons_prefix_cons] at h
        rw [List.cons_prefix_cons]
        exact ⟨h.1, ih (fun hm => hp (List.mem_cons_of_mem _ hm)) cs h.2⟩

theorem multi_cons {m : Str × Str} {ms : List (Str × Str)} (hne : ∀ k ∈ m :: ms, k.1 ≠ [])
    (hg : ∀ k ∈ ms, goodPair m k = true)
    (hpw : ∀ k ∈ ms, ∀ k' ∈ ms, k ≠ k' → clearOf k.1 k'.1 = true) :
    ∀ (n : Nat) (s : Str), s.length ≤ n → multi (m :: ms) s = multi ms (replaceStr m.1 m.2 s) := by
  have hA : ∀ k ∈ ms, clearOf k.1 m.2 = true := by
    intro k hk; have := hg k hk; simp only [goodPair, Bool.and_eq_true] at this; exact this.1.1.1
  have hB : ∀ k ∈ ms, clearOf m.1 k.1 = true := by
    intro k hk; have := hg k hk; simp only [goodPair, Bool.and_eq_true] at this; exact this.1.1.2
  have hC : ∀ k ∈ ms, clearOf k.1 m.1 = true := by
    intro k hk; have := hg k hk; simp only [goodPair, Bool.and_eq_true] at this; exact this.1.2
  intro n
  induction n with
  | zero =>
    intro s hs
    have : s = [] := List.length_eq_zero_iff.mp (by omega)
    subst this; simp [multi, replaceStr]
  | succ n ih =>
    intro s hs
    cases s with
    | nil => simp [multi, replaceStr]
    | cons c cs =>
      have hm1 : m.1 ≠ [] := hne m List.mem_cons_self
      by_cases hm : m.1 <+: c :: cs
      · obtain ⟨u, hu⟩ := hm
        have hlen : u.length ≤ n := by
          have := congrArg List.length hu
          have h0 : 0 < m.1.length := List.length_pos_iff.mpr hm1
          simp at this hs; omega
        rw [← hu, multi_macro List.mem_cons_self hm1]
        · have : replaceStr m.1 m.2 (m.1 ++ u) = m.2 ++ replaceStr m.1 m.2 u := by
            obtain ⟨x, xs, hx⟩ := List.exists_cons_of_ne_nil hm1
            have hpos : m.1.isPrefixOf (m.1 ++ u) = true ∧ m.1 ≠ [] :=
              ⟨List.isPrefixOf_iff_prefix.mpr (List.prefix_append _ _), hm1⟩
            conv => lhs; rw [replaceStr.eq_def]
            have : m.1 ++ u = x :: (xs ++ u) := by rw [hx]; rfl
            rw [this] at hpos ⊢
            simp only
            rw [if_pos hpos, ← this]
            simp
          rw [this, multi_clear hA, ih u hlen]
        · intro k hk hkm
          rcases List.mem_cons.mp hk with rfl | hk
          · exact absurd rfl hkm
          · exact hC k hk
      · by_cases hex : ∃ k ∈ ms, k.1 <+: c :: cs
        · obtain ⟨k, hk, u, hu⟩ := hex
          have hlen : u.length ≤ n := by
            have := congrArg List.length hu
            have h0 : 0 < k.1.length := List.length_pos_iff.mpr (hne k (List.mem_cons_of_mem _ hk))
            simp at this hs; omega
          have hk1 : k.1 ≠ [] := hne k (List.mem_cons_of_mem _ hk)
          rw [← hu, multi_macro (List.mem_cons_of_mem _ hk) hk1, replaceStr_clear (hB k hk),
            multi_macro hk hk1, ih u hlen]
          · intro k' hk' hkk; exact hpw k' hk' k hk hkk
          · intro k' hk' hkk
            rcases List.mem_cons.mp hk' with rfl | hk'
            · exact hB k hk
            · exact hpw k' hk' k hk hkk
        · have hno : ∀ k ∈ ms, ¬ k.1 <+: c :: cs := fun k hk hp => hex ⟨k, hk, hp⟩
          rw [multi_char (by
            intro k hk
            rcases List.mem_cons.mp hk with rfl | hk
            · exact hm
            · exact hno k hk)]
          rw [replaceStr, if_neg (by rw [List.isPrefixOf_iff_prefix]; exact fun hc => hm hc.1)]
          rw [multi_char, ih cs (by simp at hs; omega)]
          intro k hk hp
          apply hno k hk
          have hD := hg k hk
          simp only [goodPair, Bool.and_eq_true] at hD
          obtain ⟨hd, tl, h2⟩ : ∃ hd tl, m.2 = hd :: tl := by
            cases h2 : m.2 with
            | nil => rw [h2] at hD; simp at hD
            | cons a b => exact ⟨a, b, rfl⟩
          rw [h2] at hD
          obtain ⟨a, b, hab⟩ := List.exists_cons_of_ne_nil (hne k (List.mem_cons_of_mem _ hk))
          rw [hab] at hp hD ⊢
          rw [List.cons_prefix_cons] at hp ⊢
          refine ⟨hp.1, prefix_replaceStr h2 ?_ cs hp.2⟩
          simpa using hD.2

/-- The conditions of `multi_cons`, all the way down. -/
def goodList : List (Str × Str) → Bool
  | [] => true
  | m :: ms => m.1 ≠ [] && ms.all (goodPair m) && goodList ms

theorem goodList_ne {ms : List (Str × Str)} (h : goodList ms = true) : ∀ k ∈ ms, k.1 ≠ [] := by
  induction ms with
  | nil => simp
  | cons m ms ih =>
    simp only [goodList, Bool.and_eq_true, decide_eq_true_eq] at h
    intro k hk
    rcases List.mem_cons.mp hk with rfl | hk
    · exact h.1.1
    · exact ih h.2 k hk

theorem goodList_clear {ms : List (Str × Str)} (h : goodList ms = true) :
    ∀ k ∈ ms, ∀ k' ∈ ms, k ≠ k' → clearOf k.1 k'.1 = true := by
  induction ms with
  | nil => simp
  | cons m ms ih =>
    simp only [goodList, Bool.and_eq_true, List.all_eq_true] at h
    intro k hk k' hk' hkk
    rcases List.mem_cons.mp hk with h1 | h1 <;> rcases List.mem_cons.mp hk' with h2 | h2
    · exact absurd (h1.trans h2.symm) hkk
    · have := h.1.2 k' h2; simp only [goodPair, Bool.and_eq_true] at this
      rw [h1]; exact this.1.1.2
    · have := h.1.2 k h1; simp only [goodPair, Bool.and_eq_true] at this
      rw [h2]; exact this.1.2
    · exact ih h.2 k h1 k' h2 hkk

theorem foldl_replace_multi (ms : List (Str × Str)) (h : goodList ms = true) (s : Str) :
    ms.foldl (fun s m => replaceStr m.1 m.2 s) s = multi ms s := by
  induction ms generalizing s with
  | nil => exact (multi_nil s).symm
  | cons m ms ih =>
    have h' := h
    simp only [goodList, Bool.and_eq_true, List.all_eq_true] at h'
    rw [List.foldl_cons, ih h'.2]
    exact (multi_cons (goodList_ne h) h'.1.2 (goodList_clear h'.2) s.length s (Nat.le_refl _)).symm

theorem goodList_vcMacros : goodList vcMacros = true := by decide +kernel

/-! ### The slashes -/

theorem fix_clear {x u : Str} (h1 : clearOf c!"$(IntDir)" x = true)
    (h2 : clearOf c!"$(OutDir)" x = true) :
    FixVCMacroSlashes (x ++ u) = x ++ FixVCMacroSlashes u := by
  induction x with
  | nil => rfl
  | cons c cs ih =>
    have a1 := clearOf_not_prefix (u := u) h1
    have a2 := clearOf_not_prefix (u := u) h2
    simp only [clearOf, Bool.and_eq_true] at h1 h2
    rw [List.cons_append, FixVCMacroSlashes, if_neg (by
      simpa [startsWith, List.isPrefixOf_iff_prefix] using a1), if_neg (by
      simpa [startsWith, List.isPrefixOf_iff_prefix] using a2), ih h1.2 h2.2]
    rfl

theorem fix_macro {m u : Str} (hm : m ∈ slashMacros) :
    FixVCMacroSlashes (m ++ u) =
      m ++ FixVCMacroSlashes (u.dropWhile fun x => x = '\\' || x = '/') := by
  simp only [slashMacros, List.mem_cons, List.not_mem_nil, or_false] at hm
  rcases hm with rfl | rfl
  · rw [FixVCMacroSlashes.eq_def]
    simp [startsWith, List.isPrefixOf]
  · rw [FixVCMacroSlashes.eq_def]
    simp [startsWith, List.isPrefixOf]

theorem fix_char {c : Char} {cs : Str} (h : ∀ m ∈ slashMacros, ¬ m <+: c :: cs) :
    FixVCMacroSlashes (c :: cs) = c :: FixVCMacroSlashes cs := by
  rw [FixVCMacroSlashes, if_neg, if_neg]
  · have := h c!"$(OutDir)" (by simp [slashMacros])
    simpa [startsWith, List.isPrefixOf_iff_prefix] using this
  · have := h c!"$(IntDir)" (by simp [slashMacros])
    simpa [startsWith, List.isPrefixOf_iff_prefix] using this

theorem mem_renamedMacros (m : Str × Str) : m ∈ renamedMacros ↔ m ∈ vcMacros := by
  simp only [renamedMacros, vcMacros, List.mem_cons, List.not_mem_nil, or_false]
  tauto

theorem prefix_multi {ms : List (Str × Str)} {p : Str}
    (h : ∀ m ∈ ms, ∃ hd tl, m.2 = hd :: tl ∧ hd ∉ p) :
    ∀ (cs : Str), p <+: multi ms cs → p <+: cs := by
  induction p with
  | nil => intro cs _; exact List.nil_prefix
  | cons x xs ih =>
    intro cs hp
    cases cs with
    | nil => rw [multi] at hp; simp at hp
    | cons c cs =>
      rw [multi] at hp
      cases hf : ms.find? (fun m => m.1.isPrefixOf (c :: cs) && m.1 ≠ []) with
      | some m =>
        rw [hf] at hp
        obtain ⟨hd, tl, h2, h3⟩ := h m (List.mem_of_find?_eq_some hf)
        simp only [h2, List.cons_append, List.cons_prefix_cons] at hp
        exact absurd (hp.1 ▸ List.mem_cons_self) h3
      | none =>
        rw [hf] at hp
        simp only [List.cons_prefix_cons] at hp ⊢
        refine ⟨hp.1, ih (fun m hm => ?_) cs hp.2⟩
        obtain ⟨hd, tl, h2, h3⟩ := h m hm
        exact ⟨hd, tl, h2, fun hc => h3 (List.mem_cons_of_mem _ hc)⟩

/-- Everything about the table the proofs below need. -/
theorem macro_table :
    (∀ m ∈ vcMacros, m.1 ≠ [] ∧ clearOf c!"$(IntDir)" m.2 = true ∧
      clearOf c!"$(OutDir)" m.2 = true ∧ (m.1.head? = some '$') ∧
      (m.2.head? = some '$' ∨ m.2.head? = some '%') ∧
      (∀ x ∈ slashMacros, clearOf m.1 x = true ∧ clearOf x m.1 = true)) ∧
    (∀ m ∈ vcMacros, ∀ x ∈ slashMacros, '$' ∉ x.tail ∧ '%' ∉ x.tail) := by
  decide +kernel

theorem dropWhile_multi (u : Str) :
    (multi vcMacros u).dropWhile (fun x => x = '\\' || x = '/') =
      multi vcMacros (u.dropWhile fun x => x = '\\' || x = '/') := by
  induction u with
  | nil => simp [multi]
  | cons c cs ih =>
    by_cases hc : (c = '\\' ∨ c = '/')
    · have : multi vcMacros (c :: cs) = c :: multi vcMacros cs := by
        apply multi_char
        intro m hm hp
        obtain ⟨a, b, hab⟩ := List.exists_cons_of_ne_nil (macro_table.1 m hm).1
        have := (macro_table.1 m hm).2.2.2.1
        rw [hab] at this hp
        simp only [List.head?_cons, Option.some.injEq] at this
        rw [List.cons_prefix_cons, this] at hp
        rcases hc with rfl | rfl <;> exact absurd hp.1 (by decide)
      rw [this, List.dropWhile_cons_of_pos (by simpa using hc),
        List.dropWhile_cons_of_pos (by simpa using hc), ih]
    · rw [List.dropWhile_cons_of_neg (p := fun x => decide (x = '\\') || decide (x = '/')) (a := c)
        (by simpa using hc)]
      rw [multi]
      cases hf : vcMacros.find? (fun m => m.1.isPrefixOf (c :: cs) && m.1 ≠ []) with
      | none => exact List.dropWhile_cons_of_neg (by simpa using hc)
      | some m =>
        have hm := List.mem_of_find?_eq_some hf
        simp only
        have h5 := (macro_table.1 m hm).2.2.2.2.1
        cases h2 : m.2 with
        | nil => rw [h2] at h5; simp at h5
        | cons a b =>
          rw [h2] at h5
          simp only [List.head?_cons, Option.some.injEq] at h5
          rw [List.cons_append, List.dropWhile_cons_of_neg]
          rcases h5 with rfl | rfl <;> decide

theorem fix_multi_spec (n : Nat) : ∀ s : Str, s.length ≤ n →
    MacrosConverted s (FixVCMacroSlashes (multi vcMacros s)) := by
  induction n with
  | zero =>
    intro s hs
    have : s = [] := List.length_eq_zero_iff.mp (by omega)
    subst this
    rw [multi, FixVCMacroSlashes]; exact .nil
  | succ n ih =>
    intro s hs
    cases s with
    | nil => rw [multi, FixVCMacroSlashes]; exact .nil
    | cons c cs =>
      by_cases hk : ∃ m ∈ vcMacros, m.1 <+: c :: cs
      · obtain ⟨m, hm, u, hu⟩ := hk
        have T := macro_table.1 m hm
        have hlen : u.length ≤ n := by
          have := congrArg List.length hu
          have h0 : 0 < m.1.length := List.length_pos_iff.mpr T.1
          simp at this hs; omega
        rw [← hu, multi_macro hm T.1 (fun k hk hkm => goodList_clear goodList_vcMacros k hk m hm hkm),
          fix_clear T.2.1 T.2.2.1]
        exact .renamed ((mem_renamedMacros _).mpr hm) (ih u hlen)
      · have hno : ∀ m ∈ vcMacros, ¬ m.1 <+: c :: cs := fun m hm hp => hk ⟨m, hm, hp⟩
        by_cases hx : ∃ x ∈ slashMacros, x <+: c :: cs
        · obtain ⟨x, hx, u, hu⟩ := hx
          have hxl : x.length = 9 := by
            simp only [slashMacros, List.mem_cons, List.not_mem_nil, or_false] at hx
            rcases hx with rfl | rfl <;> rfl
          have hd := (List.dropWhile_sublist (fun x => x = '\\' || x = '/') (l := u)).length_le
          have hlen : (u.dropWhile fun x => x = '\\' || x = '/').length ≤ n := by
            have := congrArg List.length hu
            simp at this hs; omega
          rw [← hu, multi_clear (fun m hm => ((macro_table.1 m hm).2.2.2.2.2 x hx).1), fix_macro hx,
            dropWhile_multi]
          have := MacrosConverted.slashes (sl := u.takeWhile fun x => x = '\\' || x = '/') hx
            (by
              intro c hc
              simpa using (List.all_eq_true.mp (List.all_takeWhile (l := u)) c hc))
            (by
              intro c hc
              have := List.head?_dropWhile_not (fun x => decide (x = '\\') || decide (x = '/')) u
              rw [hc] at this
              simpa using this) (ih _ hlen)
          rwa [List.append_assoc, List.takeWhile_append_dropWhile] at this
        · have hns : ∀ x ∈ slashMacros, ¬ x <+: c :: cs := fun x h hp => hx ⟨x, h, hp⟩
          rw [multi_char hno, fix_char]
          · exact .char (fun m hm => hno m ((mem_renamedMacros m).mp hm)) hns
              (ih cs (by simp at hs; omega))
          · intro x hxm hp
            apply hns x hxm
            have hxne : x ≠ [] := by
              simp only [slashMacros, List.mem_cons, List.not_mem_nil, or_false] at hxm
              rcases hxm with rfl | rfl <;> simp
            obtain ⟨a, b, hab⟩ := List.exists_cons_of_ne_nil hxne
            rw [hab, List.cons_prefix_cons] at hp ⊢
            refine ⟨hp.1, prefix_multi ?_ cs hp.2⟩
            intro m hm
            have h5 := (macro_table.1 m hm).2.2.2.2.1
            have h6 := macro_table.2 m hm x hxm
            rw [hab] at h6
            cases h2 : m.2 with
            | nil => rw [h2] at h5; simp at h5
            | cons d e =>
              rw [h2] at h5
              simp only [List.head?_cons, Option.some.injEq] at h5
              refine ⟨d, e, rfl, ?_⟩
              rcases h5 with rfl | rfl
              · exact h6.1
              · exact h6.2

/-- All macros start with a dollar sign. -/
theorem no_macro {s : Str} (h : '$' ∉ s) : MacrosConverted s s := by
  induction s with
  | nil => exact .nil
  | cons c cs ih =>
    have h1 : ∀ x : Str, x.head? = some '$' → ¬ x <+: c :: cs := by
      intro x hx hp
      cases x with
      | nil => simp at hx
      | cons a b =>
        simp only [List.head?_cons, Option.some.injEq] at hx
        rw [List.cons_prefix_cons] at hp
        exact h (by rw [← hx, hp.1]; exact List.mem_cons_self)
    refine .char (fun m hm => h1 _ (macro_table.1 m ((mem_renamedMacros m).mp hm)).2.2.2.1) ?_
      (ih fun hm => h (List.mem_cons_of_mem _ hm))
    intro m hm
    simp only [slashMacros, List.mem_cons, List.not_mem_nil, or_false] at hm
    rcases hm with rfl | rfl <;> exact h1 _ rfl

theorem macrosConverted (s : Str) : MacrosConverted s (ConvertVCMacrosToMSBuild s) := by
  unfold ConvertVCMacrosToMSBuild
  split
  · rw [foldl_replace_multi vcMacros goodList_vcMacros]
    exact fix_multi_spec s.length s (Nat.le_refl _)
  · exact no_macro ‹_›

/-- A split of a text into a prefix of one kind and a rest of another is unique. -/
theorem run_unique {P : Char → Prop} : ∀ {a b s t : Str}, a ++ s = b ++ t →
    (∀ c ∈ a, P c) → (∀ c ∈ b, P c) → (∀ c, s.head? = some c → ¬ P c) →
    (∀ c, t.head? = some c → ¬ P c) → a = b ∧ s = t := by
  intro a
  induction a with
  | nil =>
    intro b s t h _ hb hs _
    cases b with
    | nil => exact ⟨rfl, h⟩
    | cons y ys =>
      simp at h; subst h
      exact absurd (hb y List.mem_cons_self) (hs y rfl)
  | cons x xs ih =>
    intro b s t h ha hb hs ht
    cases b with
    | nil =>
      simp at h; subst h
      exact absurd (ha x List.mem_cons_self) (ht x rfl)
    | cons y ys =>
      simp only [List.cons_append, List.cons.injEq] at h
      obtain ⟨h1, h2⟩ := ih h.2 (fun c hc => ha c (List.mem_cons_of_mem _ hc))
        (fun c hc => hb c (List.mem_cons_of_mem _ hc)) hs ht
      exact ⟨by rw [h.1, h1], h2⟩

theorem renamed_incomparable : ∀ m ∈ renamedMacros, ∀ k ∈ renamedMacros,
    (m.1 <+: k.1 ∨ k.1 <+: m.1) → m = k := by decide +kernel

theorem renamed_slash_incomparable : ∀ m ∈ renamedMacros, ∀ k ∈ slashMacros,
    ¬ (m.1 <+: k ∨ k <+: m.1) := by decide +kernel

theorem slash_incomparable : ∀ m ∈ slashMacros, ∀ k ∈ slashMacros,
    (m <+: k ∨ k <+: m) → m = k := by decide +kernel

theorem append_comparable {a b s t : Str} (h : a ++ s = b ++ t) : a <+: b ∨ b <+: a :=
  List.prefix_or_prefix_of_prefix ⟨s, h⟩ ⟨t, rfl⟩

theorem macrosConverted_unique {s o1 o2 : Str} (h1 : MacrosConverted s o1)
    (h2 : MacrosConverted s o2) : o1 = o2 := by
  induction h1 generalizing o2 with
  | nil =>
    generalize hx : ([] : Str) = x at h2
    cases h2 with
    | nil => rfl
    | renamed hm _ =>
      have := (List.append_eq_nil_iff.mp hx.symm).1
      exact absurd this (macro_table.1 _ ((mem_renamedMacros _).mp hm)).1
    | slashes hm _ _ _ =>
      have h0 := (List.append_eq_nil_iff.mp (List.append_eq_nil_iff.mp hx.symm).1).1
      simp only [slashMacros, List.mem_cons, List.not_mem_nil, or_false] at hm
      rcases hm with rfl | rfl <;> cases h0
    | char _ _ _ => cases hx
  | @renamed old new s out hm _ ih =>
    generalize hx : old ++ s = x at h2
    have hne := (macro_table.1 _ ((mem_renamedMacros _).mp hm)).1
    cases h2 with
    | nil => exact absurd (List.append_eq_nil_iff.mp hx).1 hne
    | renamed hm' h' =>
      have := renamed_incomparable _ hm _ hm' (append_comparable hx)
      obtain ⟨rfl, rfl⟩ := Prod.mk.inj this
      have := List.append_cancel_left hx
      subst this
      rw [ih h']
    | slashes hm' _ _ _ =>
      rw [List.append_assoc] at hx
      exact absurd (append_comparable hx) (renamed_slash_incomparable _ hm _ hm')
    | char h _ _ => exact absurd ⟨s, hx⟩ (h _ hm)
  | @slashes m sl s out hm hsl hs _ ih =>
    generalize hx : m ++ sl ++ s = x at h2
    cases h2 with
    | nil =>
      have h0 := (List.append_eq_nil_iff.mp (List.append_eq_nil_iff.mp hx).1).1
      simp only [slashMacros, List.mem_cons, List.not_mem_nil, or_false] at hm
      rcases hm with rfl | rfl <;> cases h0
    | renamed hm' h' =>
      rw [List.append_assoc] at hx
      exact absurd (append_comparable hx).symm (renamed_slash_incomparable _ hm' _ hm)
    | slashes hm' hsl' hs' h' =>
      rw [List.append_assoc, List.append_assoc] at hx
      have := slash_incomparable _ hm _ hm' (append_comparable hx)
      subst this
      have := List.append_cancel_left hx
      obtain ⟨_, rfl⟩ := run_unique (P := fun c => c = '\\' ∨ c = '/') this hsl hsl'
        (fun c hc h => by have := hs c hc; tauto) (fun c hc h => by have := hs' c hc; tauto)
      rw [ih h']
    | char _ h _ => rw [List.append_assoc] at hx; exact absurd ⟨_, hx⟩ (h _ hm)
  | @char c s out ha hb _ ih =>
    generalize hx : c :: s = x at h2 ha hb
    cases h2 with
    | nil => cases hx
    | renamed hm' _ => exact absurd (List.prefix_append _ _) (ha _ hm')
    | slashes hm' _ _ _ =>
      exact absurd (by rw [List.append_assoc]; exact List.prefix_append _ _) (hb _ hm')
    | char _ _ h' =>
      cases hx
      rw [ih h']

theorem macrosConverted_iff (s t : Str) :
    MacrosConverted s t ↔ ConvertVCMacrosToMSBuild s = t :=
  ⟨fun h => macrosConverted_unique (macrosConverted s) h, fun h => h ▸ macrosConverted s⟩

end Gyp
