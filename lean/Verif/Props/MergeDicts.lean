import Verif.Props.MergeLists
import Verif.Proofs.Graph
/-
C22: what each kind of entry does when one dictionary is merged into another.
-/
namespace Gyp
open Spec

/-- The key an entry writes to: list keys lose their policy character. -/
def entryKey (e : Str × Val) : Str :=
  match e.2 with
  | .list _ => (policyOf e.1).2
  | _ => e.1

theorem policyOf_replace (b : Str) : policyOf (b ++ ['=']) = (.replace, b) := by
  simp [policyOf]
theorem policyOf_prepend (b : Str) : policyOf (b ++ ['+']) = (.prepend, b) := by
  simp [policyOf]
theorem policyOf_default (b : Str) : policyOf (b ++ ['?']) = (.setDefault, b) := by
  simp [policyOf]

/-- How a key and its policy and base are related. -/
theorem policyOf_cases (k : Str) :
    (policyOf k = (.append, k)) ∨
    (∃ b, k = b ++ ['='] ∧ policyOf k = (.replace, b)) ∨
    (∃ b, k = b ++ ['+'] ∧ policyOf k = (.prepend, b)) ∨
    (∃ b, k = b ++ ['?'] ∧ policyOf k = (.setDefault, b)) := by
  rcases List.eq_nil_or_concat k with rfl | ⟨b, x, rfl⟩
  · exact Or.inl rfl
  · rw [List.concat_eq_append]
    by_cases h1 : x = '='
    · subst h1; exact Or.inr (Or.inl ⟨b, rfl, policyOf_replace b⟩)
    · by_cases h2 : x = '+'
      · subst h2; exact Or.inr (Or.inr (Or.inl ⟨b, rfl, policyOf_prepend b⟩))
      · by_cases h3 : x = '?'
        · subst h3; exact Or.inr (Or.inr (Or.inr ⟨b, rfl, policyOf_default b⟩))
        · left
          unfold policyOf
          rw [List.getLast?_concat]
          split <;> simp_all

/-- What a successful list entry did. -/
theorem mergeEntry_list {c : MergeCtx} {fk : List Str} {k : Str} {tgt tgt' : Dict} {l : List Val}
    (h : mergeEntry c fk k tgt (.list l) = .ok tgt') :
    (∀ old, tgt.get? k = some old → ∃ o, old = .list o) ∧ k ≠ [] ∧
    (∀ x ∈ incompatibleKeys (policyOf k).1 (policyOf k).2, x ∉ fk) ∧
    (((policyOf k).1 = .setDefault ∧ (∃ v, tgt.get? (policyOf k).2 = some v) ∧ tgt' = tgt) ∨
      ∃ o r, (((policyOf k).1 = .replace ∧ o = []) ∨
          (tgt.get? (policyOf k).2 = none ∧ o = []) ∨
          ((policyOf k).1 ≠ .setDefault ∧ tgt.get? (policyOf k).2 = some (.list o))) ∧
        ((policyOf k).1 = .replace → o = []) ∧
        MergeLists c o l (IsPathSection c.pathSections (policyOf k).2)
          ((policyOf k).1 ≠ .prepend) = .ok r ∧
        tgt' = tgt.set (policyOf k).2 (.list r)) := by
  unfold mergeEntry at h
  split at h
  · cases h
  rename_i hbad
  split at h
  · cases h
  rename_i hk
  refine ⟨?_, hk, ?_⟩
  · intro old hold
    rw [hold] at hbad
    cases old <;> simp [badMerge] at hbad
    exact ⟨_, rfl⟩
  simp only at h
  cases hf : (incompatibleKeys (policyOf k).1 (policyOf k).2).find? (· ∈ fk) with
  | some bad => rw [hf] at h; cases h
  | none =>
    refine ⟨?_, ?_⟩
    · intro x hx hxf
      have := List.find?_eq_none.mp hf x hx
      simp [hxf] at this
    · rw [hf] at h
      simp only at h
      generalize policyOf k = pk at h
      obtain ⟨p, base⟩ := pk
      simp only at h ⊢
      have fin : ∀ o, ((match mergeListLoop c (IsPathSection c.pathSections base) (p ≠ .prepend) l
          (MLState.start o) with
          | .ok st => .ok (tgt.set base (.list st.tgt))
          | .error e => .error e) : Except MergeErr Dict) = .ok tgt' →
          ∃ r, MergeLists c o l (IsPathSection c.pathSections base) (p ≠ .prepend) = .ok r ∧
            tgt' = tgt.set base (.list r) := by
        intro o h
        unfold MergeLists
        cases hm : mergeListLoop c (IsPathSection c.pathSections base) (p ≠ .prepend) l
          (MLState.start o) with
        | error e => rw [hm] at h; cases h
        | ok st =>
          rw [hm] at h
          cases h
          exact ⟨st.tgt, rfl, rfl⟩
      cases hg : Dict.get? tgt base with
      | none =>
        rw [hg] at h
        cases p <;> (obtain ⟨r, h1, h2⟩ := fin [] h; exact Or.inr ⟨[], r, by simp, by simp, h1, h2⟩)
      | some v =>
        rw [hg] at h
        cases p with
        | replace =>
          obtain ⟨r, h1, h2⟩ := fin [] h
          exact Or.inr ⟨[], r, by simp, by simp, h1, h2⟩
        | setDefault =>
          cases h
          exact Or.inl ⟨rfl, ⟨v, rfl⟩, rfl⟩
        | prepend =>
          cases v with
          | list o =>
            obtain ⟨r, h1, h2⟩ := fin o h
            exact Or.inr ⟨o, r, by simp, by simp, h1, h2⟩
          | _ => cases h
        | append =>
          cases v with
          | list o =>
            obtain ⟨r, h1, h2⟩ := fin o h
            exact Or.inr ⟨o, r, by simp, by simp, h1, h2⟩
          | _ => cases h

/-- What a successful `dict` entry did. -/
theorem mergeEntry_dict {c : MergeCtx} {fk : List Str} {k : Str} {tgt tgt' : Dict} {d : Dict}
    (h : mergeEntry c fk k tgt (.dict d) = .ok tgt') :
    ∃ o r, ((tgt.get? k = none ∧ o = []) ∨ tgt.get? k = some (.dict o)) ∧
      MergeDicts c o d = .ok r ∧ tgt' = tgt.set k (.dict r) := by
  unfold mergeEntry at h
  split at h
  · cases h
  rename_i hbad
  cases hg : Dict.get? tgt k with
  | none =>
    rw [hg] at h
    simp only at h
    split at h
    · rename_i r hr
      cases h
      exact ⟨[], r, by simp, hr, rfl⟩
    · cases h
  | some v =>
    rw [hg] at h hbad
    cases v with
    | dict o =>
      simp only at h
      split at h
      · rename_i r hr
        cases h
        exact ⟨o, r, by simp, hr, rfl⟩
      · cases h
    | _ => simp [badMerge] at hbad

/-- What a text value becomes under a key. -/
def scalarUnder (c : MergeCtx) (k : Str) : Val → Val
  | .str s => .str (if IsPathSection c.pathSections k then MakePathRelative c s else s)
  | v => v

/-- What a successful `str` or `int` entry did. -/
theorem mergeEntry_scalar {c : MergeCtx} {fk : List Str} {k : Str} {tgt tgt' : Dict} {v : Val}
    (hv : v.isScalar = true) (h : mergeEntry c fk k tgt v = .ok tgt') :
    (∀ old, tgt.get? k = some old → old.isScalar = true) ∧
      tgt' = tgt.set k (scalarUnder c k v) := by
  cases v with
  | str s =>
    unfold mergeEntry at h
    split at h
    · cases h
    rename_i hbad
    refine ⟨?_, ?_⟩
    · intro old hold
      rw [hold] at hbad
      cases old <;> simp [badMerge] at hbad <;> rfl
    · unfold scalarUnder
      split at h <;> (rename_i hp; cases h; simp [hp])
  | int i =>
    unfold mergeEntry at h
    split at h
    · cases h
    rename_i hbad
    split at h
    · cases h
    refine ⟨?_, by cases h; rfl⟩
    intro old hold
    rw [hold] at hbad
    cases old <;> simp [badMerge] at hbad <;> rfl
  | _ => cases hv

theorem mergeEntry_other {c : MergeCtx} {fk : List Str} {k : Str} {tgt tgt' : Dict}
    (h : mergeEntry c fk k tgt .other = .ok tgt') : False := by
  unfold mergeEntry at h
  split at h <;> cases h

/-- An entry writes only its own key. -/
theorem mergeEntry_frame {c : MergeCtx} {fk : List Str} {k : Str} {v : Val} {tgt tgt' : Dict}
    (h : mergeEntry c fk k tgt v = .ok tgt') (x : Str) (hx : x ≠ entryKey (k, v)) :
    tgt'.get? x = tgt.get? x := by
  cases v with
  | str s =>
    obtain ⟨-, rfl⟩ := mergeEntry_scalar rfl h
    exact Dict.get?_set_ne _ _ hx
  | int i =>
    obtain ⟨-, rfl⟩ := mergeEntry_scalar rfl h
    exact Dict.get?_set_ne _ _ hx
  | dict d =>
    obtain ⟨o, r, -, -, rfl⟩ := mergeEntry_dict h
    exact Dict.get?_set_ne _ _ hx
  | list l =>
    obtain ⟨-, -, -, ⟨-, -, rfl⟩ | ⟨o, r, -, -, -, rfl⟩⟩ := mergeEntry_list h
    · rfl
    · exact Dict.get?_set_ne _ _ hx
  | other => exact (mergeEntry_other h).elim

/-- The keys after an entry. -/
theorem mergeEntry_keys {c : MergeCtx} {fk : List Str} {k : Str} {v : Val} {tgt tgt' : Dict}
    (h : mergeEntry c fk k tgt v = .ok tgt') :
    tgt'.keys = listAdd tgt.keys (entryKey (k, v)) := by
  have hset : ∀ (b : Str) (w : Val), (tgt.set b w).keys = listAdd tgt.keys b := by
    intro b w
    rw [Dict.keys_set]
    unfold listAdd
    by_cases h : b ∈ tgt.keys <;> simp [h]
  cases v with
  | str s => obtain ⟨-, rfl⟩ := mergeEntry_scalar rfl h; exact hset _ _
  | int i => obtain ⟨-, rfl⟩ := mergeEntry_scalar rfl h; exact hset _ _
  | dict d => obtain ⟨o, r, -, -, rfl⟩ := mergeEntry_dict h; exact hset _ _
  | list l =>
    obtain ⟨-, -, -, ⟨-, ⟨v, hv⟩, rfl⟩ | ⟨o, r, -, -, -, rfl⟩⟩ := mergeEntry_list h
    · have : (policyOf k).2 ∈ tgt'.keys := by
        rw [← Dict.get?_isSome, hv]; rfl
      exact (listAdd_of_mem this).symm
    · exact hset _ _
  | other => exact (mergeEntry_other h).elim

theorem mergeDictLoop_cons {c : MergeCtx} {fk : List Str} {k : Str} {v : Val} {rest tgt r : Dict} :
    mergeDictLoop c fk ((k, v) :: rest) tgt = .ok r ↔
      ∃ t, mergeEntry c fk k tgt v = .ok t ∧ mergeDictLoop c fk rest t = .ok r := by
  conv_lhs => unfold mergeDictLoop
  cases h : mergeEntry c fk k tgt v with
  | error e => simp
  | ok t => simp

theorem mergeDictLoop_append {c : MergeCtx} {fk : List Str} {a b tgt r : Dict} :
    mergeDictLoop c fk (a ++ b) tgt = .ok r ↔
      ∃ t, mergeDictLoop c fk a tgt = .ok t ∧ mergeDictLoop c fk b t = .ok r := by
  induction a generalizing tgt with
  | nil =>
    constructor
    · intro h; exact ⟨tgt, by unfold mergeDictLoop; rfl, h⟩
    · rintro ⟨t, h1, h2⟩
      unfold mergeDictLoop at h1
      cases h1; exact h2
  | cons e a ih =>
    obtain ⟨k, v⟩ := e
    rw [List.cons_append, mergeDictLoop_cons]
    simp only [ih, mergeDictLoop_cons]
    constructor
    · rintro ⟨t, h1, u, h2, h3⟩; exact ⟨u, ⟨t, h1, h2⟩, h3⟩
    · rintro ⟨u, ⟨t, h1, h2⟩, h3⟩; exact ⟨t, h1, u, h2, h3⟩

theorem mergeDictLoop_frame {c : MergeCtx} {fk : List Str} {fro tgt r : Dict} (x : Str)
    (h : mergeDictLoop c fk fro tgt = .ok r) (hx : ∀ e ∈ fro, entryKey e ≠ x) :
    r.get? x = tgt.get? x := by
  induction fro generalizing tgt with
  | nil => unfold mergeDictLoop at h; cases h; rfl
  | cons e fro ih =>
    obtain ⟨k, v⟩ := e
    obtain ⟨t, h1, h2⟩ := mergeDictLoop_cons.mp h
    rw [ih h2 fun e he => hx e (by simp [he]), mergeEntry_frame h1 x (hx (k, v) (by simp)).symm]

/-- C22: keys that no entry is about keep their value. -/
theorem C22_untouched (c : MergeCtx) (tgt fro r : Dict) (h : MergeDicts c tgt fro = .ok r) (x : Str)
    (hx : x ∉ fro.keys)
    (hx' : ∀ l, (x ++ c!"=", .list l) ∉ fro ∧ (x ++ c!"+", .list l) ∉ fro ∧
      (x ++ c!"?", .list l) ∉ fro) :
    r.get? x = tgt.get? x := by
  apply mergeDictLoop_frame x h
  rintro ⟨k, v⟩ he hk
  have hkm : k ∈ fro.keys := List.mem_map_of_mem (f := Prod.fst) he
  cases v with
  | list l =>
    unfold entryKey at hk
    simp only at hk
    rcases policyOf_cases k with hp | ⟨b, rfl, hp⟩ | ⟨b, rfl, hp⟩ | ⟨b, rfl, hp⟩ <;>
      rw [hp] at hk <;> simp only at hk <;> subst hk
    · exact hx hkm
    · exact (hx' l).1 he
    · exact (hx' l).2.1 he
    · exact (hx' l).2.2 he
  | _ => exact hx (hk ▸ hkm)

/-- C22: the keys afterwards, in order: the old ones, then the new ones in the order of
their first mention. -/
theorem C22_keys (c : MergeCtx) (tgt fro r : Dict) (h : MergeDicts c tgt fro = .ok r) :
    r.keys = (fro.map entryKey).foldl listAdd tgt.keys := by
  unfold MergeDicts at h
  generalize fro.keys = fk at h
  induction fro generalizing tgt with
  | nil => unfold mergeDictLoop at h; cases h; rfl
  | cons e fro ih =>
    obtain ⟨k, v⟩ := e
    obtain ⟨t, h1, h2⟩ := mergeDictLoop_cons.mp h
    rw [ih t h2, mergeEntry_keys h1]; rfl

/-- Entries that come after a scalar or dictionary under `k` cannot change it. -/
theorem keeps_nonlist {c : MergeCtx} {fk : List Str} {post tgt r : Dict} {k : Str} {v : Val}
    (h : mergeDictLoop c fk post tgt = .ok r) (hk : k ∈ fk) (hn : k ∉ post.keys)
    (hv : tgt.get? k = some v) (hl : ∀ l, v ≠ .list l) : r.get? k = some v := by
  induction post generalizing tgt with
  | nil => unfold mergeDictLoop at h; cases h; exact hv
  | cons e post ih =>
    obtain ⟨k', v'⟩ := e
    obtain ⟨t, h1, h2⟩ := mergeDictLoop_cons.mp h
    simp only [Dict.keys, List.map_cons, List.mem_cons, not_or] at hn
    apply ih h2 hn.2
    by_cases he : k = entryKey (k', v')
    · cases v' with
      | list l =>
        obtain ⟨-, -, hinc, hcase⟩ := mergeEntry_list h1
        unfold entryKey at he
        simp only at he
        rcases policyOf_cases k' with hp | ⟨b, rfl, hp⟩ | ⟨b, rfl, hp⟩ | ⟨b, rfl, hp⟩ <;>
          rw [hp] at he hinc hcase <;> simp only at he hinc hcase <;> subst he
        · exact absurd rfl hn.1
        · exact absurd hk (hinc k (by simp [incompatibleKeys]))
        · rcases hcase with ⟨h, -⟩ | ⟨o, r', h, -⟩
          · cases h
          · rcases h with ⟨h, -⟩ | ⟨h, -⟩ | ⟨-, h⟩
            · cases h
            · rw [hv] at h; cases h
            · rw [hv] at h; exact absurd (Option.some.inj h) (hl o)
        · exact absurd hk (hinc k (by simp [incompatibleKeys]))
      | _ => exact absurd he hn.1
    · rw [mergeEntry_frame h1 k he, hv]

/-- Entries before the one for `k` leave its value or make it a list. -/
theorem before_or_list {c : MergeCtx} {fk : List Str} {pre tgt r : Dict} {k : Str}
    (h : mergeDictLoop c fk pre tgt = .ok r) (hn : k ∉ pre.keys) :
    r.get? k = tgt.get? k ∨ ∃ l, r.get? k = some (.list l) := by
  induction pre generalizing tgt with
  | nil => unfold mergeDictLoop at h; cases h; exact Or.inl rfl
  | cons e pre ih =>
    obtain ⟨k', v'⟩ := e
    obtain ⟨t, h1, h2⟩ := mergeDictLoop_cons.mp h
    simp only [Dict.keys, List.map_cons, List.mem_cons, not_or] at hn
    rcases ih h2 hn.2 with h3 | h3
    · rw [h3]
      by_cases he : k = entryKey (k', v')
      · cases v' with
        | list l =>
          unfold entryKey at he
          simp only at he
          obtain ⟨-, -, -, ⟨-, -, rfl⟩ | ⟨o, r', -, -, -, rfl⟩⟩ := mergeEntry_list h1
          · exact Or.inl rfl
          · right
            rw [he]
            exact ⟨r', Dict.get?_set_self _ _ _⟩
        | _ => exact absurd he hn.1
      · exact Or.inl (mergeEntry_frame h1 k he)
    · exact Or.inr h3

theorem split_entry {d : Dict} (hn : d.keys.Nodup) {k : Str} {v : Val} (h : (k, v) ∈ d) :
    ∃ pre post, d = pre ++ (k, v) :: post ∧ k ∉ Dict.keys pre ∧ k ∉ Dict.keys post := by
  obtain ⟨pre, post, rfl⟩ := List.append_of_mem h
  refine ⟨pre, post, rfl, ?_⟩
  simp only [Dict.keys, List.map_append, List.map_cons, List.nodup_append, List.nodup_cons] at hn
  refine ⟨fun hp => ?_, hn.2.1.1⟩
  exact hn.2.2 k hp k (by simp) rfl

/-- C22: a string or number replaces the old value, which must not have been a list or a
dictionary; a string under a key that holds paths is adjusted to the new file. -/
theorem C22_scalar (c : MergeCtx) (tgt fro r : Dict) (hn : fro.keys.Nodup)
    (h : MergeDicts c tgt fro = .ok r) (k : Str) (v : Val) (hv : v.isScalar = true)
    (hm : (k, v) ∈ fro) :
    r.get? k = some (scalarUnder c k v) ∧
      (∀ old, tgt.get? k = some old → old.isScalar = true) := by
  obtain ⟨pre, post, rfl, hpre, hpost⟩ := split_entry hn hm
  unfold MergeDicts at h
  obtain ⟨t, h1, h2⟩ := mergeDictLoop_append.mp h
  obtain ⟨u, h3, h4⟩ := mergeDictLoop_cons.mp h2
  obtain ⟨h5, rfl⟩ := mergeEntry_scalar hv h3
  refine ⟨keeps_nonlist h4 (by simp [Dict.keys]) hpost (Dict.get?_set_self _ _ _) ?_, ?_⟩
  · intro l
    cases v <;> simp [scalarUnder] at hv ⊢ <;> cases hv
  · intro old hold
    rcases before_or_list h1 hpre with h6 | ⟨l, h6⟩
    · exact h5 old (h6.trans hold)
    · exact absurd (h5 _ h6) (by simp [Val.isScalar])

/-- C22: a dictionary is merged into the dictionary under the same key, an absent one
counting as empty; anything else there is an error. -/
theorem C22_dict (c : MergeCtx) (tgt fro r : Dict) (hn : fro.keys.Nodup)
    (h : MergeDicts c tgt fro = .ok r) (k : Str) (d : Dict) (hm : (k, .dict d) ∈ fro) :
    ∃ old sub, (tgt.get? k = none ∧ old = [] ∨ tgt.get? k = some (.dict old)) ∧
      MergeDicts c old d = .ok sub ∧ r.get? k = some (.dict sub) := by
  obtain ⟨pre, post, rfl, hpre, hpost⟩ := split_entry hn hm
  unfold MergeDicts at h
  obtain ⟨t, h1, h2⟩ := mergeDictLoop_append.mp h
  obtain ⟨u, h3, h4⟩ := mergeDictLoop_cons.mp h2
  obtain ⟨o, sub, h5, h6, rfl⟩ := mergeEntry_dict h3
  refine ⟨o, sub, ?_, h6,
    keeps_nonlist h4 (by simp [Dict.keys]) hpost (Dict.get?_set_self _ _ _) (by simp)⟩
  rcases before_or_list h1 hpre with h7 | ⟨l, h7⟩
  · rwa [h7] at h5
  · rw [h7] at h5; simp at h5

/-- Nothing but the entry `(k', .list l)` writes its base key. -/
theorem list_alone {c : MergeCtx} {pre post tgt r : Dict} {fk : List Str} {k' b : Str} {l : List Val}
    (h : mergeDictLoop c fk (pre ++ (k', .list l) :: post) tgt = .ok r)
    (hb : (policyOf k').2 = b)
    (hpre : ∀ e ∈ pre, entryKey e ≠ b) (hpost : ∀ e ∈ post, entryKey e ≠ b) :
    ∃ t u, mergeEntry c fk k' t (.list l) = .ok u ∧ t.get? b = tgt.get? b ∧ r.get? b = u.get? b := by
  obtain ⟨t, h1, h2⟩ := mergeDictLoop_append.mp h
  obtain ⟨u, h3, h4⟩ := mergeDictLoop_cons.mp h2
  exact ⟨t, u, h3, mergeDictLoop_frame b h1 hpre, mergeDictLoop_frame b h4 hpost⟩

/-- The entries that could write a key without being a list entry with policy. -/
theorem writers {e : Str × Val} {b : Str} (h : entryKey e = b) :
    e.1 = b ∨ (∃ l, e.2 = .list l) ∧ (e.1 = b ++ ['='] ∨ e.1 = b ++ ['+'] ∨ e.1 = b ++ ['?']) := by
  obtain ⟨k, v⟩ := e
  cases v with
  | list l =>
    unfold entryKey at h
    simp only at h
    rcases policyOf_cases k with hp | ⟨b', rfl, hp⟩ | ⟨b', rfl, hp⟩ | ⟨b', rfl, hp⟩ <;>
      rw [hp] at h <;> simp only at h <;> subst h <;> simp
  | _ => exact Or.inl h

/-- Every list entry of a successful merge has no incompatible key beside it. -/
theorem compatible {c : MergeCtx} {fro tgt r : Dict} {fk : List Str}
    (h : mergeDictLoop c fk fro tgt = .ok r) {k : Str} {l : List Val} (hm : (k, .list l) ∈ fro) :
    ∀ x ∈ incompatibleKeys (policyOf k).1 (policyOf k).2, x ∉ fk := by
  obtain ⟨pre, post, rfl⟩ := List.append_of_mem hm
  obtain ⟨t, h1, h2⟩ := mergeDictLoop_append.mp h
  obtain ⟨u, h3, h4⟩ := mergeDictLoop_cons.mp h2
  exact (mergeEntry_list h3).2.2.1

/-- C22: `key=` replaces: afterwards the key holds the new list, merged into an empty
one, whatever was there before. -/
theorem C22_replace (c : MergeCtx) (tgt fro r : Dict) (hn : fro.keys.Nodup)
    (h : MergeDicts c tgt fro = .ok r) (k : Str) (l : List Val) (hm : (k ++ c!"=", .list l) ∈ fro) :
    ∃ new, MergeLists c [] l (IsPathSection c.pathSections k) true = .ok new ∧
      r.get? k = some (.list new) := by
  have hp := policyOf_replace k
  have hc := compatible h hm
  rw [hp] at hc
  obtain ⟨pre, post, rfl, hpre, hpost⟩ := split_entry hn hm
  have hothers : ∀ e ∈ pre ++ (k ++ c!"=", .list l) :: post, e.1 ≠ k ++ c!"=" → entryKey e ≠ k := by
    rintro ⟨k', v'⟩ he hne hk
    have hkm : k' ∈ Dict.keys (pre ++ (k ++ c!"=", .list l) :: post) :=
      List.mem_map_of_mem (f := Prod.fst) he
    rcases writers hk with rfl | ⟨⟨l', rfl⟩, rfl | rfl | rfl⟩
    · exact hc k' (by simp [incompatibleKeys]) hkm
    · exact hne rfl
    · have := compatible h he
      rw [policyOf_prepend] at this
      exact this (k ++ ['=']) (by simp [incompatibleKeys]) (List.mem_map_of_mem (f := Prod.fst) hm)
    · exact hc (k ++ ['?']) (by simp [incompatibleKeys]) hkm
  obtain ⟨t, u, h3, -, h5⟩ := list_alone h (b := k) (by rw [hp])
    (fun e he => hothers e (by simp [he]) fun e' => hpre (e' ▸ List.mem_map_of_mem (f := Prod.fst) he))
    (fun e he => hothers e (by simp [he]) fun e' => hpost (e' ▸ List.mem_map_of_mem (f := Prod.fst) he))
  obtain ⟨-, -, -, hcase⟩ := mergeEntry_list h3
  rw [hp] at hcase
  rcases hcase with ⟨h, -⟩ | ⟨o, new, -, ho, hm2, rfl⟩
  · cases h
  · rw [ho rfl] at hm2
    exact ⟨new, hm2, h5.trans (Dict.get?_set_self _ _ _)⟩

/-- C22: `key?` sets the list only when the key is absent. -/
theorem C22_set_default (c : MergeCtx) (tgt fro r : Dict) (hn : fro.keys.Nodup)
    (h : MergeDicts c tgt fro = .ok r) (k : Str) (l : List Val) (hm : (k ++ c!"?", .list l) ∈ fro) :
    (∀ old, tgt.get? k = some old → r.get? k = some old) ∧
    (tgt.get? k = none → ∃ new,
      MergeLists c [] l (IsPathSection c.pathSections k) true = .ok new ∧
      r.get? k = some (.list new)) := by
  have hp := policyOf_default k
  have hc := compatible h hm
  rw [hp] at hc
  obtain ⟨pre, post, rfl, hpre, hpost⟩ := split_entry hn hm
  have hothers : ∀ e ∈ pre ++ (k ++ c!"?", .list l) :: post, e.1 ≠ k ++ c!"?" → entryKey e ≠ k := by
    rintro ⟨k', v'⟩ he hne hk
    have hkm : k' ∈ Dict.keys (pre ++ (k ++ c!"?", .list l) :: post) :=
      List.mem_map_of_mem (f := Prod.fst) he
    rcases writers hk with rfl | ⟨⟨l', rfl⟩, rfl | rfl | rfl⟩
    · exact hc k' (by simp [incompatibleKeys]) hkm
    · exact hc (k ++ ['=']) (by simp [incompatibleKeys]) hkm
    · exact hc (k ++ ['+']) (by simp [incompatibleKeys]) hkm
    · exact hne rfl
  obtain ⟨t, u, h3, h4, h5⟩ := list_alone h (b := k) (by rw [hp])
    (fun e he => hothers e (by simp [he]) fun e' => hpre (e' ▸ List.mem_map_of_mem (f := Prod.fst) he))
    (fun e he => hothers e (by simp [he]) fun e' => hpost (e' ▸ List.mem_map_of_mem (f := Prod.fst) he))
  obtain ⟨-, -, -, hcase⟩ := mergeEntry_list h3
  rw [hp] at hcase
  simp only [ne_eq, not_true_eq_false, false_and, or_false] at hcase
  rcases hcase with ⟨-, ⟨v, hv⟩, rfl⟩ | ⟨o, new, ho, -, hm2, rfl⟩
  · refine ⟨fun old hold => by rw [h5, h4, hold], fun hnone => ?_⟩
    rw [h4, hnone] at hv; cases hv
  · rcases ho with ⟨h, -⟩ | ⟨hnone, rfl⟩
    · cases h
    · refine ⟨fun old hold => ?_, fun _ => ⟨new, by simpa using hm2, h5.trans (Dict.get?_set_self _ _ _)⟩⟩
      rw [h4, hold] at hnone; cases hnone

/-- C22: a plain list key without `key+` beside it appends; the old value must be absent
or a list. -/
theorem C22_append (c : MergeCtx) (tgt fro r : Dict) (hn : fro.keys.Nodup)
    (h : MergeDicts c tgt fro = .ok r) (k : Str) (l : List Val) (hm : (k, .list l) ∈ fro)
    (hplain : ∀ b, k ≠ b ++ c!"=" ∧ k ≠ b ++ c!"+" ∧ k ≠ b ++ c!"?")
    (halone : k ++ c!"+" ∉ fro.keys) :
    ∃ old new, (tgt.get? k = none ∧ old = [] ∨ tgt.get? k = some (.list old)) ∧
      MergeLists c old l (IsPathSection c.pathSections k) true = .ok new ∧
      r.get? k = some (.list new) := by
  have hp : policyOf k = (.append, k) := by
    rcases policyOf_cases k with hp | ⟨b, e, -⟩ | ⟨b, e, -⟩ | ⟨b, e, -⟩
    · exact hp
    · exact absurd e (hplain b).1
    · exact absurd e (hplain b).2.1
    · exact absurd e (hplain b).2.2
  have hc := compatible h hm
  rw [hp] at hc
  obtain ⟨pre, post, rfl, hpre, hpost⟩ := split_entry hn hm
  have hothers : ∀ e ∈ pre ++ (k, .list l) :: post, e.1 ≠ k → entryKey e ≠ k := by
    rintro ⟨k', v'⟩ he hne hk
    have hkm : k' ∈ Dict.keys (pre ++ (k, .list l) :: post) :=
      List.mem_map_of_mem (f := Prod.fst) he
    rcases writers hk with rfl | ⟨⟨l', rfl⟩, rfl | rfl | rfl⟩
    · exact hne rfl
    · exact hc (k ++ ['=']) (by simp [incompatibleKeys]) hkm
    · exact halone hkm
    · exact hc (k ++ ['?']) (by simp [incompatibleKeys]) hkm
  obtain ⟨t, u, h3, h4, h5⟩ := list_alone h (b := k) (by rw [hp])
    (fun e he => hothers e (by simp [he]) fun e' => hpre (e' ▸ List.mem_map_of_mem (f := Prod.fst) he))
    (fun e he => hothers e (by simp [he]) fun e' => hpost (e' ▸ List.mem_map_of_mem (f := Prod.fst) he))
  obtain ⟨-, -, -, hcase⟩ := mergeEntry_list h3
  rw [hp] at hcase
  rcases hcase with ⟨h, -⟩ | ⟨o, new, ho, -, hm2, rfl⟩
  · cases h
  · refine ⟨o, new, ?_, by simpa using hm2, h5.trans (Dict.get?_set_self _ _ _)⟩
    rw [← h4]
    rcases ho with ⟨h, -⟩ | h | ⟨-, h⟩
    · cases h
    · exact Or.inl h
    · exact Or.inr h

/-- C22: `key+` without `key` beside it prepends; the old value must be absent or a
list. -/
theorem C22_prepend (c : MergeCtx) (tgt fro r : Dict) (hn : fro.keys.Nodup)
    (h : MergeDicts c tgt fro = .ok r) (k : Str) (l : List Val) (hm : (k ++ c!"+", .list l) ∈ fro)
    (halone : k ∉ fro.keys) :
    ∃ old new, (tgt.get? k = none ∧ old = [] ∨ tgt.get? k = some (.list old)) ∧
      MergeLists c old l (IsPathSection c.pathSections k) false = .ok new ∧
      r.get? k = some (.list new) := by
  have hp := policyOf_prepend k
  have hc := compatible h hm
  rw [hp] at hc
  obtain ⟨pre, post, rfl, hpre, hpost⟩ := split_entry hn hm
  have hothers : ∀ e ∈ pre ++ (k ++ c!"+", .list l) :: post, e.1 ≠ k ++ c!"+" → entryKey e ≠ k := by
    rintro ⟨k', v'⟩ he hne hk
    have hkm : k' ∈ Dict.keys (pre ++ (k ++ c!"+", .list l) :: post) :=
      List.mem_map_of_mem (f := Prod.fst) he
    rcases writers hk with rfl | ⟨⟨l', rfl⟩, rfl | rfl | rfl⟩
    · exact halone hkm
    · exact hc (k ++ ['=']) (by simp [incompatibleKeys]) hkm
    · exact hne rfl
    · exact hc (k ++ ['?']) (by simp [incompatibleKeys]) hkm
  obtain ⟨t, u, h3, h4, h5⟩ := list_alone h (b := k) (by rw [hp])
    (fun e he => hothers e (by simp [he]) fun e' => hpre (e' ▸ List.mem_map_of_mem (f := Prod.fst) he))
    (fun e he => hothers e (by simp [he]) fun e' => hpost (e' ▸ List.mem_map_of_mem (f := Prod.fst) he))
  obtain ⟨-, -, -, hcase⟩ := mergeEntry_list h3
  rw [hp] at hcase
  rcases hcase with ⟨h, -⟩ | ⟨o, new, ho, -, hm2, rfl⟩
  · cases h
  · refine ⟨o, new, ?_, by simpa using hm2, h5.trans (Dict.get?_set_self _ _ _)⟩
    rw [← h4]
    rcases ho with ⟨h, -⟩ | h | ⟨-, h⟩
    · cases h
    · exact Or.inl h
    · exact Or.inr h

/-- C22: append and prepend may stand together; each is applied to the list, in the
order in which they are written. -/
theorem C22_append_and_prepend (c : MergeCtx) (tgt fro r : Dict) (hn : fro.keys.Nodup)
    (h : MergeDicts c tgt fro = .ok r) (k : Str) (la lp : List Val)
    (hplain : ∀ b, k ≠ b ++ c!"=" ∧ k ≠ b ++ c!"+" ∧ k ≠ b ++ c!"?")
    (first second : Str × Val) (pre mid post : Dict)
    (hf : fro = pre ++ first :: mid ++ second :: post)
    (hords : first = (k, .list la) ∧ second = (k ++ c!"+", .list lp) ∨
      first = (k ++ c!"+", .list lp) ∧ second = (k, .list la)) :
    ∃ old m new, (tgt.get? k = none ∧ old = [] ∨ tgt.get? k = some (.list old)) ∧
      r.get? k = some (.list new) ∧
      let p := IsPathSection c.pathSections k
      (first.1 = k ∧ MergeLists c old la p true = .ok m ∧ MergeLists c m lp p false = .ok new ∨
       first.1 ≠ k ∧ MergeLists c old lp p false = .ok m ∧ MergeLists c m la p true = .ok new) := by
  have hpa : policyOf k = (.append, k) := by
    rcases policyOf_cases k with hp | ⟨b, e, -⟩ | ⟨b, e, -⟩ | ⟨b, e, -⟩
    · exact hp
    · exact absurd e (hplain b).1
    · exact absurd e (hplain b).2.1
    · exact absurd e (hplain b).2.2
  have hpp := policyOf_prepend k
  have hma : (k, .list la) ∈ fro := by
    rcases hords with ⟨rfl, rfl⟩ | ⟨rfl, rfl⟩ <;> simp [hf]
  have hmp : (k ++ c!"+", .list lp) ∈ fro := by
    rcases hords with ⟨rfl, rfl⟩ | ⟨rfl, rfl⟩ <;> simp [hf]
  have hca := compatible h hma
  rw [hpa] at hca
  have hothers : ∀ e ∈ fro, e.1 ≠ k → e.1 ≠ k ++ ['+'] → entryKey e ≠ k := by
    rintro ⟨k', v'⟩ he hne hne2 hk
    have hkm : k' ∈ Dict.keys fro := List.mem_map_of_mem (f := Prod.fst) he
    rcases writers hk with rfl | ⟨⟨l', rfl⟩, rfl | rfl | rfl⟩
    · exact hne rfl
    · exact hca (k ++ ['=']) (by simp [incompatibleKeys]) hkm
    · exact hne2 rfl
    · exact hca (k ++ ['?']) (by simp [incompatibleKeys]) hkm
  have hkeys : ∀ e, (e ∈ pre ∨ e ∈ mid ∨ e ∈ post) → e.1 ≠ first.1 ∧ e.1 ≠ second.1 := by
    rw [hf] at hn
    simp only [Dict.keys, List.map_append, List.map_cons, List.nodup_append, List.nodup_cons,
      List.mem_append, List.mem_cons, List.append_assoc, List.cons_append] at hn
    obtain ⟨-, ⟨⟨h1, ⟨-, ⟨h2, -⟩, h3⟩⟩, h4⟩⟩ := hn
    rintro e (he | he | he)
    · have he' := List.mem_map_of_mem (f := Prod.fst) he
      exact ⟨h4 _ he' _ (Or.inl rfl), h4 _ he' _ (Or.inr (Or.inr (Or.inl rfl)))⟩
    · have he' := List.mem_map_of_mem (f := Prod.fst) he
      refine ⟨fun e' => h1 (Or.inl (e' ▸ he')), h3 _ he' _ (Or.inl rfl)⟩
    · have he' := List.mem_map_of_mem (f := Prod.fst) he
      refine ⟨fun e' => h1 (Or.inr (Or.inr (e' ▸ he'))), fun e' => h2 (e' ▸ he')⟩
  have hfree : ∀ e, (e ∈ pre ∨ e ∈ mid ∨ e ∈ post) → entryKey e ≠ k := by
    intro e he
    have hkk := hkeys e he
    have hmem : e ∈ fro := by
      rw [hf]
      rcases he with he | he | he <;> simp [he]
    rcases hords with ⟨rfl, rfl⟩ | ⟨rfl, rfl⟩
    · exact hothers e hmem hkk.1 hkk.2
    · exact hothers e hmem hkk.2 hkk.1
  unfold MergeDicts at h
  rw [show mergeDictLoop c fro.keys fro tgt =
    mergeDictLoop c fro.keys (pre ++ first :: mid ++ second :: post) tgt from by rw [← hf]] at h
  rw [List.append_assoc] at h
  obtain ⟨t1, g1, h⟩ := mergeDictLoop_append.mp h
  rw [List.cons_append] at h
  obtain ⟨t2, g2, h⟩ := mergeDictLoop_cons.mp (show mergeDictLoop c fro.keys ((first.1, first.2) :: _) _ = _ from h)
  obtain ⟨t3, g3, h⟩ := mergeDictLoop_append.mp h
  obtain ⟨t4, g4, h⟩ := mergeDictLoop_cons.mp (show mergeDictLoop c fro.keys ((second.1, second.2) :: _) _ = _ from h)
  have e1 := mergeDictLoop_frame k g1 fun e he => hfree e (Or.inl he)
  have e3 := mergeDictLoop_frame k g3 fun e he => hfree e (Or.inr (Or.inl he))
  have e5 := mergeDictLoop_frame k h fun e he => hfree e (Or.inr (Or.inr he))
  have hne : k ++ ['+'] ≠ k := by simp
  rcases hords with ⟨rfl, rfl⟩ | ⟨rfl, rfl⟩
  · obtain ⟨-, -, -, ca⟩ := mergeEntry_list g2
    obtain ⟨-, -, -, cp⟩ := mergeEntry_list g4
    simp only [hpa] at ca
    simp only [hpp] at cp
    rcases ca with ⟨hx, -⟩ | ⟨o, m, ho, -, hm1, rfl⟩
    · cases hx
    rcases cp with ⟨hx, -⟩ | ⟨o', new, ho', -, hm2, rfl⟩
    · cases hx
    have hcur : t3.get? k = some (.list m) := e3.trans (Dict.get?_set_self _ _ _)
    have ho'' : o' = m := by
      rcases ho' with ⟨hx, -⟩ | ⟨hx, -⟩ | ⟨-, hx⟩
      · cases hx
      · rw [hcur] at hx; cases hx
      · rw [hcur] at hx; cases hx; rfl
    subst ho''
    refine ⟨o, o', new, ?_, e5.trans (Dict.get?_set_self _ _ _), Or.inl ⟨rfl, by simpa using hm1, by simpa using hm2⟩⟩
    rw [← e1]
    rcases ho with ⟨hx, -⟩ | hx | ⟨-, hx⟩
    · cases hx
    · exact Or.inl hx
    · exact Or.inr hx
  · obtain ⟨-, -, -, cp⟩ := mergeEntry_list g2
    obtain ⟨-, -, -, ca⟩ := mergeEntry_list g4
    simp only [hpa] at ca
    simp only [hpp] at cp
    rcases cp with ⟨hx, -⟩ | ⟨o, m, ho, -, hm1, rfl⟩
    · cases hx
    rcases ca with ⟨hx, -⟩ | ⟨o', new, ho', -, hm2, rfl⟩
    · cases hx
    have hcur : t3.get? k = some (.list m) := e3.trans (Dict.get?_set_self _ _ _)
    have ho'' : o' = m := by
      rcases ho' with ⟨hx, -⟩ | ⟨hx, -⟩ | ⟨-, hx⟩
      · cases hx
      · rw [hcur] at hx; cases hx
      · rw [hcur] at hx; cases hx; rfl
    subst ho''
    refine ⟨o, o', new, ?_, e5.trans (Dict.get?_set_self _ _ _), Or.inr ⟨hne, by simpa using hm1, by simpa using hm2⟩⟩
    rw [← e1]
    rcases ho with ⟨hx, -⟩ | hx | ⟨-, hx⟩
    · cases hx
    · exact Or.inl hx
    · exact Or.inr hx

/-- C22: contradictory policies for one list are rejected: replacing together with
anything else, setting a default together with anything else. -/
theorem C22_contradictory (c : MergeCtx) (tgt fro r : Dict) (k : Str) (l : List Val)
    (h : (k ++ c!"=", .list l) ∈ fro ∧ (k ∈ fro.keys ∨ k ++ c!"?" ∈ fro.keys) ∨
      (k ++ c!"+", .list l) ∈ fro ∧ (k ++ c!"=" ∈ fro.keys ∨ k ++ c!"?" ∈ fro.keys) ∨
      (k ++ c!"?", .list l) ∈ fro ∧
        (k ∈ fro.keys ∨ k ++ c!"=" ∈ fro.keys ∨ k ++ c!"+" ∈ fro.keys) ∨
      (k, .list l) ∈ fro ∧ (∀ b, k ≠ b ++ c!"=" ∧ k ≠ b ++ c!"+" ∧ k ≠ b ++ c!"?") ∧
        (k ++ c!"=" ∈ fro.keys ∨ k ++ c!"?" ∈ fro.keys)) :
    MergeDicts c tgt fro ≠ .ok r := by
  intro hr
  rcases h with ⟨hm, h⟩ | ⟨hm, h⟩ | ⟨hm, h⟩ | ⟨hm, hplain, h⟩
  · have := compatible hr hm
    rw [policyOf_replace] at this
    rcases h with h | h
    · exact this _ (by simp [incompatibleKeys]) h
    · exact this _ (by simp [incompatibleKeys]) h
  · have := compatible hr hm
    rw [policyOf_prepend] at this
    rcases h with h | h
    · exact this _ (by simp [incompatibleKeys]) h
    · exact this _ (by simp [incompatibleKeys]) h
  · have := compatible hr hm
    rw [policyOf_default] at this
    rcases h with h | h | h
    · exact this _ (by simp [incompatibleKeys]) h
    · exact this _ (by simp [incompatibleKeys]) h
    · exact this _ (by simp [incompatibleKeys]) h
  · have hp : policyOf k = (.append, k) := by
      rcases policyOf_cases k with hp | ⟨b, e, -⟩ | ⟨b, e, -⟩ | ⟨b, e, -⟩
      · exact hp
      · exact absurd e (hplain b).1
      · exact absurd e (hplain b).2.1
      · exact absurd e (hplain b).2.2
    have := compatible hr hm
    rw [hp] at this
    rcases h with h | h
    · exact this _ (by simp [incompatibleKeys]) h
    · exact this _ (by simp [incompatibleKeys]) h

/-! ### When merging succeeds -/

/-- A key without a list policy. -/
def PlainKey (k : Str) : Prop := k ≠ [] ∧ ∀ b, k ≠ b ++ c!"=" ∧ k ≠ b ++ c!"+" ∧ k ≠ b ++ c!"?"

/-- `Fits same old new`: the new value may be merged onto the old one (`none`: there is
none).  Strings and numbers go onto strings and numbers, lists of strings and numbers onto
lists, dictionaries onto dictionaries when their values fit.  `same` says that both come
from the same file; otherwise there must be no numbers. -/
inductive Fits (same : Prop) : Option Val → Val → Prop
  | str {old : Option Val} (s : Str) : (∀ o, old = some o → o.isScalar = true) → Fits same old (.str s)
  | int {old : Option Val} (i : Int) : (∀ o, old = some o → o.isScalar = true) → same →
    Fits same old (.int i)
  | list {old : Option Val} (l : List Val) : (∀ o, old = some o → ∃ l', o = .list l') →
    (∀ v ∈ l, (∃ s, v = .str s) ∨ same ∧ ∃ i, v = .int i) → Fits same old (.list l)
  | dict (old : Option Val) (od d : Dict) :
    (old = none ∧ od = [] ∨ old = some (.dict od)) → d.keys.Nodup →
    (∀ e ∈ d, PlainKey e.1) → (∀ e ∈ d, Fits same (Dict.get? od e.1) e.2) →
    Fits same old (.dict d)

theorem mergeListLoop_succeeds (c : MergeCtx) (isPaths append : Bool) (l : List Val)
    (h : ∀ v ∈ l, (∃ s, v = .str s) ∨ c.toFile = c.froFile ∧ ∃ i, v = .int i) :
    ∀ st, ∃ st', mergeListLoop c isPaths append l st = .ok st' := by
  induction l with
  | nil => intro st; exact ⟨st, by simp [mergeListLoop]⟩
  | cons v l ih =>
    intro st
    unfold mergeListLoop
    rcases h v (by simp) with ⟨s, rfl⟩ | ⟨hs, i, rfl⟩
    · rw [mergeItem]
      exact ih (fun w hw => h w (by simp [hw])) _
    · rw [mergeItem, if_neg (by simp [hs])]
      exact ih (fun w hw => h w (by simp [hw])) _

theorem plainKey_policy {k : Str} (hk : PlainKey k) : policyOf k = (.append, k) := by
  rcases policyOf_cases k with hp | ⟨b, e, -⟩ | ⟨b, e, -⟩ | ⟨b, e, -⟩
  · exact hp
  · exact absurd e (hk.2 b).1
  · exact absurd e (hk.2 b).2.1
  · exact absurd e (hk.2 b).2.2

theorem entryKey_plain {k : Str} {v : Val} (hk : PlainKey k) : entryKey (k, v) = k := by
  cases v with
  | list l => simp [entryKey, plainKey_policy hk]
  | _ => rfl

theorem mergeDictLoop_succeeds (c : MergeCtx) (fk : List Str) (od d : Dict)
    (hn : d.keys.Nodup) (hk : ∀ e ∈ d, PlainKey e.1)
    (hs : ∀ e ∈ d, ∀ tgt : Dict, Dict.get? tgt e.1 = Dict.get? od e.1 →
      ∃ t, mergeEntry c fk e.1 tgt e.2 = .ok t) :
    ∀ tgt : Dict, (∀ e ∈ d, Dict.get? tgt e.1 = Dict.get? od e.1) →
      ∃ r, mergeDictLoop c fk d tgt = .ok r := by
  induction d with
  | nil => intro tgt _; exact ⟨tgt, by simp [mergeDictLoop]⟩
  | cons e d ih =>
    intro tgt hf
    obtain ⟨k, v⟩ := e
    obtain ⟨t, ht⟩ := hs (k, v) (by simp) tgt (hf (k, v) (by simp))
    simp only [Dict.keys, List.map_cons, List.nodup_cons] at hn
    unfold mergeDictLoop
    simp only at ht
    rw [ht]
    simp only
    apply ih hn.2 (fun e he => hk e (by simp [he])) (fun e he => hs e (by simp [he]))
    intro e he
    have hne : e.1 ≠ entryKey (k, v) := by
      rw [entryKey_plain (hk (k, v) (by simp))]
      rintro rfl
      exact hn.1 (List.mem_map_of_mem he)
    rw [mergeEntry_frame ht e.1 hne]
    exact hf e (by simp [he])

theorem mergeEntry_succeeds (c : MergeCtx) {old : Option Val} {v : Val}
    (h : Fits (c.toFile = c.froFile) old v) :
    ∀ (fk : List Str) (k : Str) (tgt : Dict), PlainKey k →
      (∀ x ∈ fk, PlainKey x) → Dict.get? tgt k = old → ∃ t, mergeEntry c fk k tgt v = .ok t := by
  induction h with
  | @str old s ho =>
    intro fk k tgt _ _ hg
    unfold mergeEntry
    rw [if_neg]
    · split <;> exact ⟨_, rfl⟩
    · rw [hg]
      cases old with
      | none => simp
      | some o => have := ho o rfl; cases o <;> simp_all [Val.isScalar, badMerge]
  | @int old i ho same =>
    intro fk k tgt _ _ hg
    unfold mergeEntry
    rw [if_neg, if_neg]
    · exact ⟨_, rfl⟩
    · simp [same]
    · rw [hg]
      cases old with
      | none => simp
      | some o => have := ho o rfl; cases o <;> simp_all [Val.isScalar, badMerge]
  | @list old l ho hl =>
    intro fk k tgt hk hfk hg
    unfold mergeEntry
    have hfind : (incompatibleKeys .append k).find? (· ∈ fk) = none := by
      rw [List.find?_eq_none]
      intro x hx hm
      have hm : x ∈ fk := by simpa using hm
      have := (hfk x hm).2 k
      simp [incompatibleKeys] at hx
      rcases hx with rfl | rfl
      · exact this.1 rfl
      · exact this.2.2 rfl
    rw [if_neg, if_neg hk.1, plainKey_policy hk]
    · simp only
      rw [hfind]
      cases old with
      | none =>
        rw [hg]
        obtain ⟨st, hst⟩ := mergeListLoop_succeeds c (IsPathSection c.pathSections k) true l hl
          (MLState.start [])
        simp [hst]
      | some o =>
        obtain ⟨l', rfl⟩ := ho o rfl
        rw [hg]
        obtain ⟨st, hst⟩ := mergeListLoop_succeeds c (IsPathSection c.pathSections k) true l hl
          (MLState.start l')
        simp [hst]
    · rw [hg]
      cases old with
      | none => simp
      | some o => obtain ⟨l', rfl⟩ := ho o rfl; simp [badMerge]
  | dict old od d ho hn hp hfit ih =>
    intro fk k tgt hk hfk hg
    have hrec : ∃ r, mergeDictLoop c (d.map Prod.fst) d od = .ok r := by
      apply mergeDictLoop_succeeds c _ od d hn hp
      · intro e he tgt' hg'
        apply ih e he _ _ _ (hp e he) _ hg'
        intro x hx
        obtain ⟨e', he', rfl⟩ := List.mem_map.mp hx
        exact hp e' he'
      · intro e he; rfl
    obtain ⟨r, hr⟩ := hrec
    unfold mergeEntry
    rw [if_neg]
    · rcases ho with ⟨rfl, rfl⟩ | rfl
      · simp [hg, hr]
      · simp [hg, hr]
    · rcases ho with ⟨rfl, rfl⟩ | rfl <;> simp [hg, badMerge]

/-- C22: dictionaries whose values are of matching kinds, under keys without policies, can
always be merged; in particular numbers replace strings and strings numbers. -/
theorem C22_succeeds (c : MergeCtx) (tgt fro : Dict) (hn : fro.keys.Nodup)
    (hk : ∀ e ∈ fro, PlainKey e.1)
    (hf : ∀ e ∈ fro, Fits (c.toFile = c.froFile) (Dict.get? tgt e.1) e.2) :
    ∃ r, MergeDicts c tgt fro = .ok r := by
  unfold MergeDicts
  apply mergeDictLoop_succeeds c _ tgt fro hn hk
  · intro e he tgt' hg
    apply mergeEntry_succeeds c (hf e he) _ _ _ (hk e he) _ hg
    intro x hx
    obtain ⟨e', he', rfl⟩ := List.mem_map.mp hx
    exact hk e' he'
  · intro e he; rfl

/-- A number onto a string, a string onto a number and a nested dictionary. -/
example : Fits True (some (.dict [(c!"a", .str c!"x"), (c!"b", .int 1)]))
    (.dict [(c!"a", .int 2), (c!"b", .str c!"y"), (c!"c", .list [.int 1, .str c!"z"])]) := by
  refine .dict _ [(c!"a", .str c!"x"), (c!"b", .int 1)] _ (Or.inr rfl) (by decide) ?_ ?_
  · have hp : ∀ x : Char, x ≠ '=' ∧ x ≠ '+' ∧ x ≠ '?' → PlainKey [x] := by
      intro x hx
      refine ⟨by simp, fun b => ⟨?_, ?_, ?_⟩⟩ <;> intro h <;>
        have := congrArg List.getLast? h <;> simp at this <;> simp_all
    intro e he
    simp at he
    rcases he with rfl | rfl | rfl <;> exact hp _ (by decide)
  · intro e he
    simp at he
    rcases he with rfl | rfl | rfl
    · exact .int 2 (by simp [Dict.get?, Val.isScalar]) trivial
    · exact .str _ (by simp [Dict.get?, Val.isScalar])
    · exact .list _ (by simp [Dict.get?]) (by simp)

/-! ### A sample with every kind of entry -/

def mergeTo : Dict :=
  [(c!"type", .str c!"none"), (c!"sources", .list [.str c!"a.c"]),
   (c!"defines", .list [.str c!"A", .str c!"B"]), (c!"libs", .list [.str c!"l"]),
   (c!"xcode", .dict [(c!"X", .str c!"1"), (c!"Y", .str c!"2")]), (c!"keep", .int 3)]

def mergeFro : Dict :=
  [(c!"type", .str c!"executable"), (c!"sources", .list [.str c!"b.c", .str c!"../x.c"]),
   (c!"defines+", .list [.str c!"C", .str c!"B"]), (c!"libs=", .list [.str c!"m"]),
   (c!"flags?", .list [.str c!"-g"]), (c!"xcode", .dict [(c!"Y", .str c!"3")])]

example : MergeDicts ⟨[], basePathSections, c!"p/a.gyp", c!"q/b.gyp"⟩ mergeTo mergeFro =
    .ok [(c!"type", .str c!"executable"),
      (c!"sources", .list [.str c!"a.c", .str c!"../q/b.c", .str c!"../x.c"]),
      (c!"defines", .list [.str c!"C", .str c!"B", .str c!"A"]), (c!"libs", .list [.str c!"m"]),
      (c!"xcode", .dict [(c!"X", .str c!"1"), (c!"Y", .str c!"3")]), (c!"keep", .int 3),
      (c!"flags", .list [.str c!"-g"])] := rfl

example : MergeDicts ⟨[], [], c!"f", c!"f"⟩ [] [(c!"a=", .list []), (c!"a", .list [])] =
    .error (.incompatible c!"a=" c!"a") := rfl

example : MergeDicts ⟨[], [], c!"f", c!"f"⟩ [(c!"a", .dict [])] [(c!"a", .list [])] =
    .error (.typeClash c!"a") := rfl

end Gyp
