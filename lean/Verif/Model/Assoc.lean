import Verif.Basic
/-
Dictionaries with an arbitrary value type, in insertion order (Python `dict`, and the
JavaScript objects whose keys are not array indices).
-/
namespace Gyp

/-- `d.get(k)`. -/
def aget {α : Type} : List (Str × α) → Str → Option α
  | [], _ => none
  | (k', v) :: d, k => if k' = k then some v else aget d k

/-- `d[k] = v`: a new key goes to the end. -/
def aset {α : Type} : List (Str × α) → Str → α → List (Str × α)
  | [], k, v => [(k, v)]
  | (k', v') :: d, k, v => if k' = k then (k, v) :: d else (k', v') :: aset d k v

/-- `list(d)`. -/
def akeys {α : Type} (d : List (Str × α)) : List Str := d.map Prod.fst

theorem aget_aset {α : Type} (d : List (Str × α)) (k : Str) (v : α) (k' : Str) :
    aget (aset d k v) k' = if k' = k then some v else aget d k' := by
  induction d with
  | nil =>
    by_cases h : k' = k
    · subst h; simp [aset, aget]
    · have h' : k ≠ k' := fun e => h e.symm
      simp [aset, aget, h, h']
  | cons p d ih =>
    obtain ⟨a, w⟩ := p
    unfold aset
    by_cases ha : a = k
    · subst ha
      rw [if_pos rfl]
      by_cases h : k' = a
      · subst h; simp [aget]
      · have h' : a ≠ k' := fun e => h e.symm
        simp [aget, h, h']
    · rw [if_neg ha]
      simp only [aget]
      by_cases h : a = k'
      · subst h
        rw [if_pos rfl, if_neg ha, if_pos rfl]
      · rw [if_neg h, ih, if_neg h]

theorem mem_akeys_aset {α : Type} (d : List (Str × α)) (k : Str) (v : α) (k' : Str) :
    k' ∈ akeys (aset d k v) ↔ k' = k ∨ k' ∈ akeys d := by
  induction d with
  | nil => simp [aset, akeys]
  | cons p d ih =>
    obtain ⟨a, w⟩ := p
    unfold aset
    by_cases ha : a = k
    · subst ha
      simp [akeys]
    · rw [if_neg ha]
      simp only [akeys, List.map_cons, List.mem_cons] at ih ⊢
      rw [ih]
      tauto

theorem aget_isSome {α : Type} (d : List (Str × α)) (k : Str) :
    (aget d k).isSome = true ↔ k ∈ akeys d := by
  induction d with
  | nil => simp [aget, akeys]
  | cons p d ih =>
    obtain ⟨a, w⟩ := p
    simp only [aget, akeys, List.map_cons, List.mem_cons] at ih ⊢
    by_cases h : a = k
    · simp [h]
    · rw [if_neg h, ih]
      exact ⟨Or.inr, fun hk => hk.resolve_left fun e => h e.symm⟩

theorem aget_some_mem {α : Type} {d : List (Str × α)} {k : Str} {v : α} (h : aget d k = some v) :
    (k, v) ∈ d := by
  induction d with
  | nil => cases h
  | cons p d ih =>
    obtain ⟨a, w⟩ := p
    simp only [aget] at h
    by_cases ha : a = k
    · rw [if_pos ha] at h; cases h; simp [ha]
    · rw [if_neg ha] at h; simp [ih h]

theorem aget_of_mem {α : Type} {d : List (Str × α)} (hn : (akeys d).Nodup) {k : Str} {v : α}
    (h : (k, v) ∈ d) : aget d k = some v := by
  induction d with
  | nil => cases h
  | cons p d ih =>
    obtain ⟨a, w⟩ := p
    simp only [akeys, List.map_cons, List.nodup_cons] at hn
    rcases List.mem_cons.mp h with e | h
    · cases e; simp [aget]
    · have : a ≠ k := by
        intro e
        subst e
        exact hn.1 (List.mem_map.mpr ⟨_, h, rfl⟩)
      simp only [aget]
      rw [if_neg this]
      exact ih hn.2 h

theorem akeys_aset_nodup {α : Type} {d : List (Str × α)} (hn : (akeys d).Nodup) (k : Str) (v : α) :
    (akeys (aset d k v)).Nodup := by
  induction d with
  | nil => simp [aset, akeys]
  | cons p d ih =>
    obtain ⟨a, w⟩ := p
    simp only [akeys, List.map_cons, List.nodup_cons] at hn
    unfold aset
    by_cases ha : a = k
    · subst ha
      simpa [akeys] using hn
    · rw [if_neg ha]
      simp only [akeys, List.map_cons, List.nodup_cons]
      refine ⟨?_, ih hn.2⟩
      intro h
      rcases (mem_akeys_aset d k v a).mp h with e | h
      · exact ha e
      · exact hn.1 h

theorem aset_new {α : Type} {d : List (Str × α)} {k : Str} (h : k ∉ akeys d) (v : α) :
    aset d k v = d ++ [(k, v)] := by
  induction d with
  | nil => rfl
  | cons p d ih =>
    obtain ⟨a, w⟩ := p
    simp only [akeys, List.map_cons, List.mem_cons, not_or] at h
    unfold aset
    rw [if_neg (fun e => h.1 e.symm), ih h.2]
    rfl

/-- After a run of assignments the last one to a key counts. -/
theorem aget_foldl_aset {α : Type} (l : List (Str × α)) (d : List (Str × α)) (k : Str) :
    aget (l.foldl (fun d p => aset d p.1 p.2) d) k =
      match aget l.reverse k with
      | some v => some v
      | none => aget d k := by
  have happ : ∀ (a b : List (Str × α)), aget (a ++ b) k =
      match aget a k with | some v => some v | none => aget b k := by
    intro a b
    induction a with
    | nil => rfl
    | cons p a ih =>
      obtain ⟨x, w⟩ := p
      simp only [List.cons_append, aget]
      by_cases h : x = k
      · rw [if_pos h, if_pos h]
      · rw [if_neg h, if_neg h, ih]
  induction l generalizing d with
  | nil => rfl
  | cons p l ih =>
    rw [List.foldl_cons, ih, List.reverse_cons, happ, aget_aset]
    cases aget l.reverse k with
    | some v => rfl
    | none =>
      simp only [aget]
      by_cases h : k = p.1
      · rw [if_pos h, if_pos h.symm]
      · rw [if_neg h, if_neg (fun e => h e.symm)]

end Gyp
