import Verif.Basic
/-
The data gyp works on: what a build file evaluates to.
-/
namespace Gyp

/-- A Python value found in a build file after loading: `str`, `int`, `list`, `dict`
(with string keys, in insertion order) or something else (`None`, `bool`, `float`, ...),
which the code rejects wherever it looks at types. -/
inductive Val where
  | str (s : Str)
  | int (i : Int)
  | list (l : List Val)
  | dict (d : List (Str × Val))
  | other
deriving Inhabited

/-- A Python `dict` with string keys, in insertion order. -/
abbrev Dict := List (Str × Val)

/-- `d.get(k)` / `d[k]`. -/
def Dict.get? : Dict → Str → Option Val
  | [], _ => none
  | (k', v) :: d, k => if k' = k then some v else Dict.get? d k

/-- `list(d)`. -/
def Dict.keys (d : Dict) : List Str := d.map Prod.fst

/-- `d[k] = v`: an existing key keeps its position, a new one goes to the end. -/
def Dict.set : Dict → Str → Val → Dict
  | [], k, v => [(k, v)]
  | (k', v') :: d, k, v => if k' = k then (k, v) :: d else (k', v') :: Dict.set d k v

/-- `del d[k]` for a key that is present (no effect otherwise). -/
def Dict.del (d : Dict) (k : Str) : Dict := d.filter (·.1 ≠ k)

/-- `isinstance(v, (str, int))`, or rather `type(v) in (str, int)`. -/
def Val.isScalar : Val → Bool
  | .str _ => true
  | .int _ => true
  | _ => false

/-- `a == b` where one side is a `str` or `int` (never equal across types). -/
def Val.scalarEq : Val → Val → Bool
  | .str a, .str b => a = b
  | .int a, .int b => a = b
  | _, _ => false

/-- `x in l` for a `str` or `int` `x`. -/
def Val.inList (x : Val) (l : List Val) : Bool := l.any (Val.scalarEq x)

/-! ### Facts -/

theorem Dict.get?_isSome (d : Dict) (k : Str) : (d.get? k).isSome ↔ k ∈ d.keys := by
  induction d with
  | nil => simp [Dict.get?, Dict.keys]
  | cons e d ih =>
    obtain ⟨k', v⟩ := e
    unfold Dict.get?
    by_cases h : k' = k
    · simp [h, Dict.keys]
    · rw [if_neg h, ih]
      simp [Dict.keys, Ne.symm h]

theorem Dict.get?_eq_none (d : Dict) (k : Str) : d.get? k = none ↔ k ∉ d.keys := by
  rw [← Dict.get?_isSome]; simp

theorem Dict.get?_some_mem {d : Dict} {k : Str} {v : Val} (h : d.get? k = some v) : (k, v) ∈ d := by
  induction d with
  | nil => cases h
  | cons e d ih =>
    obtain ⟨k', v'⟩ := e
    unfold Dict.get? at h
    by_cases hk : k' = k
    · rw [if_pos hk] at h
      cases h; subst hk; simp
    · rw [if_neg hk] at h
      exact List.mem_cons_of_mem _ (ih h)

theorem Dict.get?_of_mem {d : Dict} (hn : d.keys.Nodup) {k : Str} {v : Val} (h : (k, v) ∈ d) :
    d.get? k = some v := by
  induction d with
  | nil => cases h
  | cons e d ih =>
    obtain ⟨k', v'⟩ := e
    have hn' : k' ∉ Dict.keys d ∧ (Dict.keys d).Nodup := List.nodup_cons.mp hn
    unfold Dict.get?
    rcases List.mem_cons.mp h with h | h
    · cases h; simp
    · have : k' ≠ k := fun e => hn'.1 (e ▸ List.mem_map_of_mem (f := Prod.fst) h)
      rw [if_neg this]
      exact ih hn'.2 h

theorem Dict.get?_set_self (d : Dict) (k : Str) (v : Val) : (d.set k v).get? k = some v := by
  induction d with
  | nil => simp [Dict.set, Dict.get?]
  | cons e d ih =>
    obtain ⟨k', v'⟩ := e
    unfold Dict.set
    by_cases h : k' = k
    · simp [h, Dict.get?]
    · simp [h, Dict.get?, ih]

theorem Dict.get?_set_ne (d : Dict) {k k' : Str} (v : Val) (h : k' ≠ k) :
    (d.set k v).get? k' = d.get? k' := by
  induction d with
  | nil => simp [Dict.set, Dict.get?, Ne.symm h]
  | cons e d ih =>
    obtain ⟨k1, v1⟩ := e
    unfold Dict.set
    by_cases h1 : k1 = k
    · subst h1; simp [Dict.get?, Ne.symm h]
    · simp [h1, Dict.get?, ih]

theorem Dict.keys_set (d : Dict) (k : Str) (v : Val) :
    (d.set k v).keys = if k ∈ d.keys then d.keys else d.keys ++ [k] := by
  induction d with
  | nil => simp [Dict.set, Dict.keys]
  | cons e d ih =>
    obtain ⟨k', v'⟩ := e
    unfold Dict.set
    by_cases h : k' = k
    · simp [h, Dict.keys]
    · rw [if_neg h]
      unfold Dict.keys at *
      simp only [List.map_cons, ih, List.mem_cons]
      by_cases hk : k ∈ List.map Prod.fst d
      · simp [hk]
      · simp [hk, Ne.symm h]

theorem Dict.set_nodup {d : Dict} (hn : d.keys.Nodup) (k : Str) (v : Val) :
    (d.set k v).keys.Nodup := by
  rw [Dict.keys_set]
  by_cases h : k ∈ d.keys
  · rwa [if_pos h]
  · rw [if_neg h]
    rw [List.nodup_append]
    refine ⟨hn, by simp, ?_⟩
    intro a ha b hb
    rw [List.mem_singleton] at hb
    rintro rfl
    exact h (hb ▸ ha)

theorem Dict.get?_del_self (d : Dict) (k : Str) : (d.del k).get? k = none := by
  rw [Dict.get?_eq_none]
  simp [Dict.del, Dict.keys]

theorem Dict.get?_del_ne (d : Dict) {k k' : Str} (h : k' ≠ k) :
    (d.del k).get? k' = d.get? k' := by
  induction d with
  | nil => rfl
  | cons e d ih =>
    obtain ⟨k1, v1⟩ := e
    by_cases h1 : k1 = k
    · subst h1
      have : Dict.del ((k1, v1) :: d) k1 = Dict.del d k1 := by simp [Dict.del]
      rw [this, ih]
      simp [Dict.get?, Ne.symm h]
    · have : Dict.del ((k1, v1) :: d) k = (k1, v1) :: Dict.del d k := by simp [Dict.del, h1]
      rw [this]
      simp only [Dict.get?, ih]

theorem Dict.del_keys (d : Dict) (k : Str) : (d.del k).keys = d.keys.filter (· ≠ k) := by
  unfold Dict.del Dict.keys
  rw [List.filter_map]; rfl

theorem Val.scalarEq_iff {x y : Val} (h : x.isScalar = true) : x.scalarEq y = true ↔ x = y := by
  cases x <;> cases y <;> simp_all [Val.scalarEq, Val.isScalar]

theorem Val.inList_iff {x : Val} (h : x.isScalar = true) (l : List Val) :
    x.inList l = true ↔ x ∈ l := by
  unfold Val.inList
  rw [List.any_eq_true]
  constructor
  · rintro ⟨y, hy, e⟩
    rw [(Val.scalarEq_iff h).mp e]; exact hy
  · intro hx
    exact ⟨x, hx, (Val.scalarEq_iff h).mpr rfl⟩

end Gyp
