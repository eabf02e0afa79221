import Verif.Spec.Canonical
import Verif.Props.VersionText
import Verif.Props.VersionOrder
/-
Facts for C123.
-/
namespace Gyp
open Spec

/-! ### Letters -/

theorem nameSep_iff {c : Char} : isSep c = true ↔ NameSep c := isSep_iff

theorem ascii_lower_facts {c : Char} (h : c.toNat < 128) :
    lowerChar c = [c.toLower] ∧ isSep c.toLower = isSep c ∧ c.toLower.toLower = c.toLower ∧ c.toLower.toNat < 128 := by
  have e : ∀ n : Fin 128, lowerChar (Char.ofNat n) = [(Char.ofNat n).toLower] ∧
      isSep (Char.ofNat n).toLower = isSep (Char.ofNat n) ∧
      (Char.ofNat n).toLower.toLower = (Char.ofNat n).toLower ∧ (Char.ofNat n).toLower.toNat < 128 := by
    decide +kernel
  have := e ⟨c.toNat, h⟩
  simpa using this

theorem ascii_alnum_lower {c : Char} (h : NameChar c) :
    c.toNat < 128 ∧ smallAlnum c.toLower = true ∧ isSep c = false := by
  have hn : c.toNat < 128 := by
    unfold NameChar at h
    simp only [char_le_nat] at h
    have e1 : 'z'.toNat = 122 := rfl
    have e2 : 'Z'.toNat = 90 := rfl
    have e3 : '9'.toNat = 57 := rfl
    omega
  have e : ∀ n : Fin 128, (('a' ≤ Char.ofNat n ∧ Char.ofNat n ≤ 'z') ∨ ('A' ≤ Char.ofNat n ∧ Char.ofNat n ≤ 'Z') ∨
      ('0' ≤ Char.ofNat n ∧ Char.ofNat n ≤ '9')) →
      smallAlnum (Char.ofNat n).toLower = true ∧ isSep (Char.ofNat n) = false := by decide +kernel
  have := e ⟨c.toNat, hn⟩
  simp only [Char.ofNat_toNat] at this
  exact ⟨hn, this h⟩

theorem lowerStr_ascii {s : Str} (h : ∀ c ∈ s, c.toNat < 128) : lowerStr s = s.map Char.toLower := by
  induction s with
  | nil => rfl
  | cons c s ih =>
    have := (ascii_lower_facts (h c (by simp))).1
    have i := ih fun x hx => h x (by simp [hx])
    unfold lowerStr at i ⊢
    simp [this, i]

theorem collapse_ascii : ∀ (b : Bool) (s : Str), (∀ c ∈ s, c.toNat < 128) → ∀ c ∈ collapseSeps b s, c.toNat < 128
  | _, [], _, c, hc => by simp [collapseSeps] at hc
  | b, x :: s, h, c, hc => by
    have hs : ∀ c ∈ s, c.toNat < 128 := fun y hy => h y (by simp [hy])
    unfold collapseSeps at hc
    split at hc
    · split at hc
      · exact collapse_ascii true s hs c hc
      · rcases List.mem_cons.mp hc with rfl | hc
        · decide
        · exact collapse_ascii true s hs c hc
    · rcases List.mem_cons.mp hc with rfl | hc
      · exact h _ (by simp)
      · exact collapse_ascii false s hs c hc

theorem canonical_map {s : Str} (h : ∀ c ∈ s, c.toNat < 128) :
    canonicalizeName s = (collapseSeps false s).map Char.toLower :=
  lowerStr_ascii (collapse_ascii _ _ h)

/-! ### Same names -/

theorem collapse_run : ∀ (r : Str) (b : Bool) (s : Str), r ≠ [] → (∀ c ∈ r, NameSep c) →
    collapseSeps b (r ++ s) = (if b then [] else ['-']) ++ collapseSeps true s
  | [], _, _, h, _ => absurd rfl h
  | [c], b, s, _, h => by
    have := nameSep_iff.mpr (h c (by simp))
    cases b <;> simp [collapseSeps, this]
  | c :: d :: r, b, s, _, h => by
    have hc := nameSep_iff.mpr (h c (by simp))
    have i := collapse_run (d :: r) true s (by simp) fun x hx => h x (List.mem_cons_of_mem _ hx)
    simp only [List.cons_append, if_pos, List.nil_append] at i
    cases b <;> simp [collapseSeps, hc, ← i]

theorem same_collapse {s t : Str} (h : SameName s t) (b : Bool) :
    (collapseSeps b s).map Char.toLower = (collapseSeps b t).map Char.toLower := by
  induction h generalizing b with
  | nil => rfl
  | char ha hb he _ ih =>
    rename_i x y _ _ _
    have h1 : isSep x = false := by rw [Bool.eq_false_iff]; exact fun e => ha (nameSep_iff.mp e)
    have h2 : isSep y = false := by rw [Bool.eq_false_iff]; exact fun e => hb (nameSep_iff.mp e)
    simp [collapseSeps, h1, h2, he, ih]
  | seps h1 h2 h3 h4 _ ih =>
    rw [collapse_run _ _ _ h1 h3, collapse_run _ _ _ h2 h4]
    simp [ih]

theorem collapse_flag {s : Str} (h : ∀ c, s.head? = some c → isSep c = false) (b : Bool) :
    collapseSeps b s = collapseSeps false s := by
  cases s with
  | nil => cases b <;> rfl
  | cons c s => simp [collapseSeps, h c rfl]

theorem run_split {c : Char} {s : Str} (h : isSep c = true) :
    ∃ r t, c :: s = r ++ t ∧ r ≠ [] ∧ (∀ x ∈ r, NameSep x) ∧ (∀ x, t.head? = some x → isSep x = false) ∧
      t.length ≤ s.length := by
  refine ⟨c :: s.takeWhile isSep, s.dropWhile isSep, by simp, by simp, ?_, ?_, (List.dropWhile_suffix _).length_le⟩
  · intro x hx
    rcases List.mem_cons.mp hx with rfl | hx
    · exact nameSep_iff.mp h
    · exact nameSep_iff.mp (mem_takeWhile_of hx)
  · intro x hx
    have := List.head?_dropWhile_not isSep s
    rw [hx] at this
    simpa using this

theorem lower_ne_dash {c : Char} (h : c.toNat < 128) (hs : isSep c = false) : c.toLower ≠ '-' := by
  intro e
  have := (ascii_lower_facts h).2.1
  rw [e, hs] at this
  exact absurd this (by decide)

theorem collapse_same : ∀ (n : Nat) (s t : Str), s.length ≤ n → (∀ c ∈ s, c.toNat < 128) → (∀ c ∈ t, c.toNat < 128) →
    (collapseSeps false s).map Char.toLower = (collapseSeps false t).map Char.toLower → SameName s t := by
  intro n
  induction n with
  | zero =>
    intro s t hl _ _ h
    have : s = [] := List.length_eq_zero_iff.mp (by omega)
    subst this
    cases t with
    | nil => exact .nil
    | cons c t =>
      by_cases hc : isSep c = true <;> simp [collapseSeps, hc] at h
  | succ n ih =>
    intro s t hl hs ht h
    cases s with
    | nil =>
      cases t with
      | nil => exact .nil
      | cons c t => by_cases hc : isSep c = true <;> simp [collapseSeps, hc] at h
    | cons c s =>
      cases t with
      | nil => by_cases hc : isSep c = true <;> simp [collapseSeps, hc] at h
      | cons d t =>
        have hdash : '-'.toLower = '-' := by decide
        cases hc : isSep c <;> cases hd : isSep d
        · simp [collapseSeps, hc, hd] at h
          refine .char (fun e => ?_) (fun e => ?_) h.1 (ih s t (by simp at hl; omega) (fun x hx => hs x (by simp [hx]))
            (fun x hx => ht x (by simp [hx])) (by simpa using h.2))
          · rw [← nameSep_iff, hc] at e; cases e
          · rw [← nameSep_iff, hd] at e; cases e
        · simp [collapseSeps, hc, hd, hdash] at h
          exact absurd h.1 (lower_ne_dash (hs c (by simp)) hc)
        · simp [collapseSeps, hc, hd, hdash] at h
          exact absurd h.1.symm (lower_ne_dash (ht d (by simp)) hd)
        · obtain ⟨r, s', e1, r1, r2, r3, r4⟩ := run_split (s := s) hc
          obtain ⟨r', t', e2, q1, q2, q3, q4⟩ := run_split (s := t) hd
          rw [e1] at hs h ⊢
          rw [e2] at ht h ⊢
          rw [collapse_run _ _ _ r1 r2, collapse_run _ _ _ q1 q2, collapse_flag r3, collapse_flag q3] at h
          simp only [List.map_append, List.append_cancel_left_eq] at h
          exact .seps r1 q1 r2 q2 (ih s' t' (by simp at hl; omega) (fun x hx => hs x (by simp [hx]))
            (fun x hx => ht x (by simp [hx])) h)

/-! ### Canonical names are canonical -/

theorem collapse_twice : ∀ (b : Bool) (s : Str), collapseSeps b (collapseSeps b s) = collapseSeps b s
  | _, [] => by simp [collapseSeps]
  | b, c :: s => by
    cases hc : isSep c
    · simp [collapseSeps, hc, collapse_twice false s]
    · have : isSep '-' = true := rfl
      cases b <;> simp [collapseSeps, hc, this, collapse_twice true s]

theorem collapse_lower : ∀ (b : Bool) (s : Str), (∀ c ∈ s, c.toNat < 128) →
    collapseSeps b (s.map Char.toLower) = (collapseSeps b s).map Char.toLower
  | _, [], _ => by simp [collapseSeps]
  | b, c :: s, h => by
    have h1 := (ascii_lower_facts (h c (by simp))).2.1
    have hs : ∀ x ∈ s, x.toNat < 128 := fun x hx => h x (by simp [hx])
    have hd : '-'.toLower = '-' := by decide
    cases hc : isSep c
    · simp [collapseSeps, hc, h1, collapse_lower false s hs]
    · cases b <;> simp [collapseSeps, hc, h1, hd, collapse_lower true s hs]

theorem canonical_ascii {s : Str} (h : ∀ c ∈ s, c.toNat < 128) : ∀ c ∈ canonicalizeName s, c.toNat < 128 := by
  rw [canonical_map h]
  intro c hc
  obtain ⟨x, hx, rfl⟩ := List.mem_map.mp hc
  exact (ascii_lower_facts (collapse_ascii _ _ h x hx)).2.2.2

theorem canonical_twice {s : Str} (h : ∀ c ∈ s, c.toNat < 128) :
    canonicalizeName (canonicalizeName s) = canonicalizeName s := by
  rw [canonical_map (canonical_ascii h), canonical_map h, collapse_lower _ _ (collapse_ascii _ _ h), collapse_twice,
    List.map_map]
  exact List.map_congr_left fun c hc => (ascii_lower_facts (collapse_ascii _ _ h c hc)).2.2.1

theorem noDouble_cons {x : Char} {l : Str} (h1 : ∀ a b, l ≠ a ++ c!"--" ++ b) (h2 : x = '-' → l.head? ≠ some '-') :
    ∀ a b, x :: l ≠ a ++ c!"--" ++ b := by
  intro a b e
  cases a with
  | nil =>
    simp only [List.nil_append, List.cons_append, List.cons.injEq] at e
    exact h2 e.1 (by rw [e.2]; rfl)
  | cons y a =>
    simp only [List.cons_append, List.cons.injEq] at e
    exact h1 a b (by rw [e.2])

theorem collapse_noDouble : ∀ (s : Str) (b : Bool), (∀ c ∈ s, c.toNat < 128) →
    (∀ p q, (collapseSeps b s).map Char.toLower ≠ p ++ c!"--" ++ q) ∧
    ((collapseSeps true s).map Char.toLower).head? ≠ some '-'
  | [], _, _ => by simp [collapseSeps]
  | c :: s, b, h => by
    have hs : ∀ x ∈ s, x.toNat < 128 := fun x hx => h x (by simp [hx])
    have hd : '-'.toLower = '-' := by decide
    obtain ⟨i1, i2⟩ := collapse_noDouble s true hs
    obtain ⟨i3, -⟩ := collapse_noDouble s false hs
    cases hc : isSep c
    · have hne := lower_ne_dash (h c (by simp)) hc
      simp only [collapseSeps, hc, Bool.false_eq_true, if_false, List.map_cons]
      exact ⟨noDouble_cons i3 fun e => absurd e hne, by simpa using hne⟩
    · refine ⟨?_, by simpa [collapseSeps, hc] using i2⟩
      cases b
      · simp only [collapseSeps, hc, Bool.false_eq_true, if_false, if_true, List.map_cons, hd]
        exact noDouble_cons i1 fun _ => i2
      · simpa [collapseSeps, hc] using i1

theorem collapse_last : ∀ (s : Str) (b : Bool) {c : Char}, s.getLast? = some c → isSep c = false →
    (collapseSeps b s).getLast? = some c
  | [], _, _, h, _ => by simp at h
  | [x], b, c, h, hc => by
    simp only [List.getLast?_singleton, Option.some.injEq] at h
    subst h
    simp [collapseSeps, hc]
  | x :: y :: s, b, c, h, hc => by
    rw [List.getLast?_cons_cons] at h
    have i1 := collapse_last (y :: s) true h hc
    have i2 := collapse_last (y :: s) false h hc
    have key : ∀ {z : Char} {l : Str}, l.getLast? = some c → (z :: l).getLast? = some c := by
      intro z l hl
      simp [List.getLast?_cons, hl]
    rw [collapseSeps]
    split
    · split
      · exact i1
      · exact key i1
    · exact key i2

theorem collapse_mem : ∀ (s : Str) (b : Bool) {c : Char}, c ∈ collapseSeps b s → c = '-' ∨ c ∈ s ∧ isSep c = false
  | [], _, _, h => by simp [collapseSeps] at h
  | x :: s, b, c, h => by
    unfold collapseSeps at h
    have lift : c = '-' ∨ c ∈ s ∧ isSep c = false → c = '-' ∨ c ∈ x :: s ∧ isSep c = false :=
      fun h => h.imp id fun h => ⟨by simp [h.1], h.2⟩
    split at h
    · split at h
      · exact lift (collapse_mem s _ h)
      · rcases List.mem_cons.mp h with rfl | h
        · exact .inl rfl
        · exact lift (collapse_mem s _ h)
    · rename_i hx
      rcases List.mem_cons.mp h with rfl | h
      · exact .inr ⟨by simp, by simpa using hx⟩
      · exact lift (collapse_mem s _ h)

theorem validName_ascii {s : Str} (h : ValidName s) : ∀ c ∈ s, c.toNat < 128 := by
  intro c hc
  rcases h.1 c hc with h | h
  · exact (ascii_alnum_lower h).1
  · rcases h with rfl | rfl | rfl <;> decide

theorem smallAlnum_iff {c : Char} : smallAlnum c = true ↔ 'a' ≤ c ∧ c ≤ 'z' ∨ '0' ≤ c ∧ c ≤ '9' := by
  simp [smallAlnum]

theorem nameAlnum_iff {c : Char} : nameAlnum c = true ↔ NameChar c := by
  simp [nameAlnum, NameChar, or_assoc]

theorem smallAlnum_ne_dash {c : Char} (h : smallAlnum c = true) : c ≠ '-' := by
  rintro rfl
  exact absurd h (by decide)

theorem canonical_normal {s : Str} (h : ValidName s) : NormalName (canonicalizeName s) := by
  have ha := validName_ascii h
  rw [canonical_map ha]
  refine ⟨?_, ?_, ?_, (collapse_noDouble s false ha).1⟩
  · intro c hc
    obtain ⟨x, hx, rfl⟩ := List.mem_map.mp hc
    rcases collapse_mem s false hx with rfl | ⟨hm, hs⟩
    · exact .inr (.inr (by decide))
    · rcases h.1 x hm with hn | hn
      · rcases smallAlnum_iff.mp (ascii_alnum_lower hn).2.1 with e | e
        · exact .inl e
        · exact .inr (.inl e)
      · rw [← nameSep_iff, hs] at hn; cases hn
  · obtain ⟨c, h1, h2⟩ := h.2.1
    have hf := ascii_alnum_lower h2
    cases s with
    | nil => cases h1
    | cons x s =>
      simp only [List.head?_cons, Option.some.injEq] at h1
      subst h1
      exact ⟨x.toLower, by simp [collapseSeps, hf.2.2], smallAlnum_ne_dash hf.2.1⟩
  · obtain ⟨c, h1, h2⟩ := h.2.2
    have hf := ascii_alnum_lower h2
    exact ⟨c.toLower, by simp [List.getLast?_map, collapse_last s false h1 hf.2.2], smallAlnum_ne_dash hf.2.1⟩

theorem collapse_id : ∀ (s : Str) (b : Bool), (∀ c ∈ s, smallAlnum c = true ∨ c = '-') →
    (∀ p q, s ≠ p ++ c!"--" ++ q) → (b = true → s.head? ≠ some '-') → collapseSeps b s = s
  | [], b, _, _, _ => by simp [collapseSeps]
  | c :: s, b, h, hd, hb => by
    have hs : ∀ c ∈ s, smallAlnum c = true ∨ c = '-' := fun x hx => h x (by simp [hx])
    have hd' : ∀ p q, s ≠ p ++ c!"--" ++ q := fun p q e => hd (c :: p) q (by rw [e]; simp)
    rcases h c (by simp) with hc | rfl
    · have : isSep c = false := by
        rw [Bool.eq_false_iff]
        intro e
        rcases isSep_iff.mp e with rfl | rfl | rfl <;> exact absurd hc (by decide)
      simp [collapseSeps, this, collapse_id s false hs hd' (by simp)]
    · have hdash : isSep '-' = true := rfl
      cases b with
      | true => exact absurd rfl (hb rfl)
      | false =>
        have : s.head? ≠ some '-' := by
          intro e
          cases s with
          | nil => cases e
          | cons y s =>
            simp only [List.head?_cons, Option.some.injEq] at e
            subst e
            exact hd [] s rfl
        simp [collapseSeps, hdash, collapse_id s true hs hd' fun _ => this]

theorem normal_chars {s : Str} (h : NormalName s) : ∀ c ∈ s, smallAlnum c = true ∨ c = '-' := by
  intro c hc
  rcases h.1 c hc with e | e | e
  · exact .inl (smallAlnum_iff.mpr (.inl e))
  · exact .inl (smallAlnum_iff.mpr (.inr e))
  · exact .inr e

theorem smallAlnum_char {c : Char} (h : smallAlnum c = true) : NameChar c ∧ c.toLower = c := by
  rcases smallAlnum_iff.mp h with e | e
  · exact ⟨.inl e, lower_id (.inl e)⟩
  · exact ⟨.inr (.inr e), lower_id (.inr e)⟩

theorem normal_valid {s : Str} (h : NormalName s) : ValidName s := by
  have hc := normal_chars h
  have key : ∀ c ∈ s, c ≠ '-' → NameChar c := fun c hm hn => (smallAlnum_char ((hc c hm).resolve_right hn)).1
  refine ⟨fun c hm => ?_, ?_, ?_⟩
  · rcases hc c hm with e | e
    · exact .inl (smallAlnum_char e).1
    · exact .inr (.inl e)
  · obtain ⟨c, h1, h2⟩ := h.2.1
    exact ⟨c, h1, key c (List.mem_of_mem_head? h1) h2⟩
  · obtain ⟨c, h1, h2⟩ := h.2.2.1
    exact ⟨c, h1, key c (List.mem_of_getLast? h1) h2⟩

theorem normal_fixed {s : Str} (h : NormalName s) : canonicalizeName s = s := by
  rw [canonical_map (validName_ascii (normal_valid h)), collapse_id s false (normal_chars h) h.2.2.2 (by simp)]
  conv_rhs => rw [← List.map_id s]
  refine List.map_congr_left fun c hc => ?_
  rcases normal_chars h c hc with e | rfl
  · exact (smallAlnum_char e).2
  · decide

/-! ### The patterns -/

theorem validTail_iff : ∀ (s : Str), validTail s = true ↔
    (∀ c ∈ s, NameChar c ∨ NameSep c) ∧ ∃ c, s.getLast? = some c ∧ NameChar c
  | [] => by simp [validTail]
  | [c] => by
    simp only [validTail, nameAlnum_iff, List.mem_singleton, forall_eq, List.getLast?_singleton, Option.some.injEq,
      exists_eq_left']
    exact ⟨fun h => ⟨.inl h, h⟩, fun h => h.2⟩
  | c :: d :: s => by
    rw [validTail, Bool.and_eq_true, validTail_iff (d :: s), Bool.or_eq_true, nameAlnum_iff, nameSep_iff,
      List.getLast?_cons_cons, List.forall_mem_cons (p := fun c => NameChar c ∨ NameSep c) (a := c), and_assoc]
    simp

theorem validCore_iff (s : Str) : validCore s = true ↔ ValidName s := by
  unfold ValidName
  match s with
  | [] => simp [validCore]
  | [c] =>
    simp only [validCore, nameAlnum_iff, List.mem_singleton, forall_eq, List.getLast?_singleton, Option.some.injEq,
      exists_eq_left', List.head?_cons]
    exact ⟨fun h => ⟨.inl h, h, h⟩, fun h => h.2.1⟩
  | c :: d :: s =>
    rw [validCore, Bool.and_eq_true, validTail_iff (d :: s), nameAlnum_iff, List.getLast?_cons_cons,
      List.forall_mem_cons (p := fun c => NameChar c ∨ NameSep c) (a := c)]
    · simp only [List.head?_cons, Option.some.injEq, exists_eq_left']
      tauto
    · simp

theorem matchLine_plain {core : Str → Bool} {s : Str} (h : '\n' ∉ s) : matchLine core s = core s := by
  unfold matchLine
  have : s.getLast? ≠ some '\n' := fun e => h (List.mem_of_getLast? e)
  simp [this]

theorem startsWith_dd {s : Str} : startsWith s c!"--" = true ↔ ∃ t, s = c!"--" ++ t := by
  unfold startsWith
  rw [List.isPrefixOf_iff_prefix]
  exact ⟨fun ⟨t, h⟩ => ⟨t, h.symm⟩, fun ⟨t, h⟩ => ⟨t, h.symm⟩⟩

theorem normalizedTail_iff : ∀ (s : Str), (∀ p q, s ≠ p ++ c!"--" ++ q) → (normalizedTail s = true ↔
    (∀ c ∈ s, smallAlnum c = true ∨ c = '-') ∧ ∃ c, s.getLast? = some c ∧ smallAlnum c = true)
  | [], _ => by simp [normalizedTail]
  | [c], _ => by
    simp only [normalizedTail, List.mem_singleton, forall_eq, List.getLast?_singleton, Option.some.injEq,
      exists_eq_left']
    exact ⟨fun h => ⟨.inl h, h⟩, fun h => h.2⟩
  | c :: d :: s, h => by
    have h' : ∀ p q, d :: s ≠ p ++ c!"--" ++ q := fun p q e => h (c :: p) q (by rw [e]; simp)
    have hn : startsWith (d :: s) c!"--" = false := by
      rw [Bool.eq_false_iff]
      intro e
      obtain ⟨t, e⟩ := startsWith_dd.mp e
      exact h' [] t e
    rw [normalizedTail, hn, Bool.and_eq_true, normalizedTail_iff (d :: s) h', List.getLast?_cons_cons,
      List.forall_mem_cons (p := fun c => smallAlnum c = true ∨ c = '-') (a := c)]
    · simp only [Bool.not_false, Bool.and_true, Bool.or_eq_true, decide_eq_true_eq]
      tauto
    · simp

theorem normalizedCore_iff {s : Str} (h : ∀ p q, s ≠ p ++ c!"--" ++ q) : normalizedCore s = true ↔ NormalName s := by
  have spell : ∀ l : Str, (∀ c ∈ l, smallAlnum c = true ∨ c = '-') ↔
      ∀ c ∈ l, 'a' ≤ c ∧ c ≤ 'z' ∨ '0' ≤ c ∧ c ≤ '9' ∨ c = '-' := by
    intro l
    refine forall₂_congr fun c _ => ?_
    rw [smallAlnum_iff, or_assoc]
  have last : ∀ l : Str, (∀ c ∈ l, smallAlnum c = true ∨ c = '-') →
      ((∃ c, l.getLast? = some c ∧ smallAlnum c = true) ↔ ∃ c, l.getLast? = some c ∧ c ≠ '-') := by
    intro l hl
    refine exists_congr fun c => and_congr_right fun hc => ?_
    exact ⟨smallAlnum_ne_dash, fun hn => (hl c (List.mem_of_getLast? hc)).resolve_right hn⟩
  unfold NormalName
  rw [← spell]
  match s with
  | [] => simp [normalizedCore]
  | [c] =>
    simp only [normalizedCore, List.mem_singleton, forall_eq, List.getLast?_singleton, Option.some.injEq,
      exists_eq_left', List.head?_cons]
    constructor
    · exact fun e => ⟨.inl e, smallAlnum_ne_dash e, smallAlnum_ne_dash e, h⟩
    · exact fun e => e.1.resolve_right e.2.1
  | c :: d :: s =>
    have h' : ∀ p q, d :: s ≠ p ++ c!"--" ++ q := fun p q e => h (c :: p) q (by rw [e]; simp)
    rw [normalizedCore, Bool.and_eq_true, normalizedTail_iff (d :: s) h']
    · simp only [List.head?_cons, Option.some.injEq, exists_eq_left']
      rw [List.getLast?_cons_cons, List.forall_mem_cons (p := fun c => smallAlnum c = true ∨ c = '-') (a := c)]
      constructor
      · rintro ⟨a, b, e⟩
        exact ⟨⟨.inl a, b⟩, smallAlnum_ne_dash a, (last _ b).mp e, h⟩
      · rintro ⟨⟨a, b⟩, e, f, -⟩
        exact ⟨a.resolve_right e, b, (last _ b).mpr f⟩
    · simp

/-! ### Versions -/

/-- Without zeros at the end, but with the first number. -/
def trimZeros : List Nat → List Nat
  | [] => []
  | n :: r => n :: (r.reverse.dropWhile (· = 0)).reverse

/-- The version with its release trimmed. -/
def trimVer (v : Ver) : Ver := { v with release := trimZeros v.release }

theorem dropZeroDots_stop {s : Str} (h : ∀ r, s ≠ '0' :: '.' :: r) : dropZeroDots s = s := by
  unfold dropZeroDots
  split
  · exact absurd rfl (h _)
  · rfl

theorem natStr_no_dot (n : Nat) : '.' ∉ natStr n := by
  intro h
  have := (natStr_digits n).2.1 _ h
  exact absurd this (by decide)

theorem joinDot_snoc (r : List Nat) (n m : Nat) : joinWith c!"." ((n :: (r ++ [m])).map natStr) =
    joinWith c!"." ((n :: r).map natStr) ++ '.' :: natStr m := by
  induction r generalizing n with
  | nil => simp [joinWith]
  | cons x r ih =>
    have i := ih x
    have e : ∀ l : List Nat, joinWith c!"." ((n :: x :: l).map natStr) =
        natStr n ++ '.' :: joinWith c!"." ((x :: l).map natStr) := by
      intro l
      simp [joinWith]
    rw [List.cons_append, e, i, e]
    simp

theorem trim_text (n : Nat) (r : List Nat) : (dropZeroDots (joinWith c!"." ((n :: r.reverse).map natStr)).reverse).reverse =
    joinWith c!"." ((n :: (r.dropWhile (· = 0)).reverse).map natStr) := by
  induction r with
  | nil =>
    rw [dropZeroDots_stop]
    · simp
    · intro r e
      have : '.' ∈ (joinWith c!"." ((n :: [].reverse).map natStr)).reverse := by rw [e]; simp
      simp only [List.reverse_nil, List.map_cons, List.map_nil, joinWith, List.mem_reverse] at this
      exact natStr_no_dot n this
  | cons m r ih =>
    rw [List.reverse_cons, joinDot_snoc]
    by_cases hm : m = 0
    · subst hm
      have e0 : natStr 0 = ['0'] := rfl
      rw [e0]
      simp only [List.reverse_append, List.reverse_cons, List.reverse_nil, List.nil_append, List.cons_append,
        List.dropWhile_cons, decide_true, if_true]
      rw [dropZeroDots]
      exact ih
    · rw [List.dropWhile_cons, if_neg (by simpa using hm), dropZeroDots_stop]
      · rw [List.reverse_reverse, List.reverse_cons, joinDot_snoc]
      · intro s e
        have hd := natStr_digits m
        have hnd := natStr_no_dot m
        rw [List.reverse_append, List.reverse_cons, List.append_assoc] at e
        generalize hz : (natStr m).reverse = z at e
        have hzd : '.' ∉ z := by rw [← hz]; simpa using hnd
        match z with
        | [] =>
          have : natStr m = [] := by simpa using hz
          exact hd.1 this
        | [x] =>
          simp only [List.cons_append, List.nil_append, List.cons.injEq] at e
          have : natStr m = ['0'] := by
            have := congrArg List.reverse hz
            simpa [e.1] using this
          have hv := hd.2.2
          rw [this] at hv
          exact hm (by rw [← hv]; rfl)
        | x :: y :: z =>
          simp only [List.cons_append, List.cons.injEq] at e
          exact hzd (by rw [e.2.1]; simp)

theorem canonicalVer_show {v : Ver} (h : v.release ≠ []) : canonicalVer v = (trimVer v).show := by
  unfold canonicalVer Ver.show
  have : (dropZeroDots (showRelease v).reverse).reverse = showRelease (trimVer v) := by
    unfold showRelease trimVer
    cases hr : v.release with
    | nil => exact absurd hr h
    | cons n r =>
      have := trim_text n r.reverse
      simpa [trimZeros] using this
  rw [this]
  rfl

theorem trim_valid {v : Ver} (h : ValidVersion v) : ValidVersion (trimVer v) := by
  refine ⟨?_, h.pre, h.post, h.dev, h.loc⟩
  have := h.release
  unfold trimVer
  cases hr : v.release with
  | nil => exact absurd hr this
  | cons n r => simp [trimZeros]

theorem trim_key (r : List Nat) : releaseKey (trimZeros r) = releaseKey r := by
  cases r with
  | nil => rfl
  | cons n r =>
    have key : ∀ l : List Nat, ((l.dropWhile (· = 0)) ++ [n]).dropWhile (· = 0) = (l ++ [n]).dropWhile (· = 0) := by
      intro l
      induction l with
      | nil => rfl
      | cons m l ih =>
        by_cases hm : m = 0
        · simp only [List.dropWhile_cons, hm, decide_true, if_true, List.cons_append]
          exact ih
        · simp [hm]
    unfold releaseKey trimZeros
    simp only [List.reverse_cons, List.reverse_reverse, key]

theorem trim_same (v : Ver) : (trimVer v).eq v = true := by
  rw [ver_eq_iff]
  unfold Ver.key
  rw [show releaseKey (trimVer v).release = releaseKey v.release from trim_key v.release]
  rfl

/-- Equal keys and both not empty: equal when trimmed. -/
theorem trim_unique {a b : List Nat} (ha : a ≠ []) (hb : b ≠ []) (h : releaseKey a = releaseKey b) :
    trimZeros a = trimZeros b := by
  unfold releaseKey at h
  simp only [VKey.tup.injEq] at h
  have h := List.map_injective_iff.mpr (fun x y e => by injection e) h
  have drop : ∀ l : List Nat, ∀ n, ((l.dropWhile (· = 0)) ++ [n]).dropWhile (· = 0) = (l ++ [n]).dropWhile (· = 0) := by
    intro l n
    induction l with
    | nil => rfl
    | cons m l ih =>
      by_cases hm : m = 0
      · simp only [List.dropWhile_cons, hm, decide_true, if_true, List.cons_append]
        exact ih
      · simp [hm]
  have form : ∀ n (r : List Nat), (((n :: r).reverse.dropWhile (· = 0)).reverse = [] ∧ trimZeros (n :: r) = [0]) ∨
      (((n :: r).reverse.dropWhile (· = 0)).reverse ≠ [] ∧
        ((n :: r).reverse.dropWhile (· = 0)).reverse = trimZeros (n :: r)) := by
    intro n r
    have e : (n :: r).reverse.dropWhile (· = 0) = ((r.reverse.dropWhile (· = 0)) ++ [n]).dropWhile (· = 0) := by
      rw [drop, List.reverse_cons]
    rw [e]
    have et : trimZeros (n :: r) = n :: (r.reverse.dropWhile (· = 0)).reverse := rfl
    rw [et]
    generalize hd : r.reverse.dropWhile (· = 0) = z
    cases z with
    | nil =>
      by_cases hn : n = 0
      · left; simp [hn]
      · right; simp [hn]
    | cons m l =>
      have hm : m ≠ 0 := by
        have := List.head?_dropWhile_not (fun x : Nat => decide (x = 0)) r.reverse
        rw [hd] at this
        simpa using this
      right
      simp [hm]
  cases a with
  | nil => exact absurd rfl ha
  | cons n r =>
    cases b with
    | nil => exact absurd rfl hb
    | cons m s =>
      rcases form n r with ⟨f1, f2⟩ | ⟨f1, f2⟩ <;> rcases form m s with ⟨g1, g2⟩ | ⟨g1, g2⟩
      · rw [f2, g2]
      · rw [h] at f1; exact absurd f1 g1
      · rw [h] at f1; exact absurd g1 f1
      · rw [← f2, ← g2, h]

end Gyp
