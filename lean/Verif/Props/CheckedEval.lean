import Verif.Model.CheckedEval
/-
C26: strict reading of a build file.
-/
namespace Gyp

mutual
/-- The literal of a value made of strings, lists and dictionaries. -/
def literal : Val → PyAst
  | .str s => .str s
  | .list l => .list (literals l)
  | .dict d => .dict (literalEntries d)
  | _ => .other
def literals : List Val → List PyAst
  | [] => []
  | v :: vs => literal v :: literals vs
def literalEntries : List (Str × Val) → List (Option Str × PyAst)
  | [] => []
  | (k, v) :: d => (some k, literal v) :: literalEntries d
end

/-- Values made of strings, lists and dictionaries only, no dictionary having a key
twice. -/
inductive PlainData : Val → Prop
  | str (s : Str) : PlainData (.str s)
  | list (l : List Val) : (∀ v ∈ l, PlainData v) → PlainData (.list l)
  | dict (d : List (Str × Val)) : (d.map Prod.fst).Nodup → (∀ e ∈ d, PlainData e.2) →
    PlainData (.dict d)

/-- Some dictionary in the tree has a key twice. -/
inductive RepeatsKey : PyAst → Prop
  | here {a b c : List (Option Str × PyAst)} {k : Str} {x y : PyAst} :
    RepeatsKey (.dict (a ++ (some k, x) :: b ++ (some k, y) :: c))
  | dict {l : List (Option Str × PyAst)} {e : Option Str × PyAst} : e ∈ l → RepeatsKey e.2 →
    RepeatsKey (.dict l)
  | list {l : List PyAst} {x : PyAst} : x ∈ l → RepeatsKey x → RepeatsKey (.list l)

/-- Something else than a dictionary with string keys, a list or a string is in the
tree. -/
inductive HasOther : PyAst → Prop
  | here : HasOther .other
  | key {l : List (Option Str × PyAst)} {x : PyAst} : (none, x) ∈ l → HasOther (.dict l)
  | dict {l : List (Option Str × PyAst)} {e : Option Str × PyAst} : e ∈ l → HasOther e.2 →
    HasOther (.dict l)
  | list {l : List PyAst} {x : PyAst} : x ∈ l → HasOther x → HasOther (.list l)

theorem literals_eq (l : List Val) : literals l = l.map literal := by
  induction l with
  | nil => rfl
  | cons v l ih => simp [literals, ih]

theorem literalEntries_eq (d : List (Str × Val)) :
    literalEntries d = d.map fun e => (some e.1, literal e.2) := by
  induction d with
  | nil => rfl
  | cons e d ih => obtain ⟨k, v⟩ := e; simp [literalEntries, ih]

theorem set_new (d : Dict) (k : Str) (v : Val) (h : Dict.get? d k = none) :
    Dict.set d k v = d ++ [(k, v)] := by
  induction d with
  | nil => rfl
  | cons e d ih =>
    obtain ⟨k', v'⟩ := e
    unfold Dict.get? at h
    by_cases hk : k' = k
    · rw [if_pos hk] at h; cases h
    · rw [if_neg hk] at h
      simp [Dict.set, hk, ih h]

mutual
theorem CheckNode_sound (idx : Nat → Str) : ∀ (n : PyAst) (kp : List Str) (v : Val),
    CheckNode idx n kp = .ok v → PlainData v ∧ n = literal v
  | .dict entries, kp, v, h => by
    unfold CheckNode at h
    cases hc : checkEntries idx entries kp [] with
    | error e => rw [hc] at h; cases h
    | ok d =>
      rw [hc] at h
      cases h
      obtain ⟨d', h1, h2, h3, h4⟩ := checkEntries_sound idx entries kp [] d List.nodup_nil hc
      rw [List.nil_append] at h1
      subst h1
      refine ⟨.dict _ h2 h3, ?_⟩
      rw [literal, literalEntries_eq, h4]
  | .list elts, kp, v, h => by
    unfold CheckNode at h
    cases hc : checkElts idx elts kp 0 with
    | error e => rw [hc] at h; cases h
    | ok l =>
      rw [hc] at h
      cases h
      obtain ⟨h1, h2⟩ := checkElts_sound idx elts kp 0 l hc
      refine ⟨.list _ h1, ?_⟩
      rw [literal, literals_eq, h2]
  | .str s, kp, v, h => by
    unfold CheckNode at h
    cases h
    exact ⟨.str s, rfl⟩
  | .other, kp, v, h => by
    unfold CheckNode at h
    cases h
theorem checkEntries_sound (idx : Nat → Str) : ∀ (l : List (Option Str × PyAst)) (kp : List Str)
    (d r : Dict), d.keys.Nodup → checkEntries idx l kp d = .ok r →
    ∃ d', r = d ++ d' ∧ ((d ++ d').map Prod.fst).Nodup ∧ (∀ e ∈ d', PlainData e.2) ∧
      l = d'.map fun e => (some e.1, literal e.2)
  | [], kp, d, r, hn, h => by
    unfold checkEntries at h
    cases h
    exact ⟨[], by simp, by rw [List.append_nil]; exact hn, by simp, rfl⟩
  | (none, x) :: rest, kp, d, r, hn, h => by
    unfold checkEntries at h
    cases h
  | (some key, value) :: rest, kp, d, r, hn, h => by
    unfold checkEntries at h
    by_cases hk : (Dict.get? d key).isSome = true
    · rw [if_pos hk] at h; cases h
    · rw [if_neg hk] at h
      have hnone : Dict.get? d key = none := by simpa using hk
      cases hv : CheckNode idx value (kp ++ [key]) with
      | error e => rw [hv] at h; cases h
      | ok v =>
        rw [hv] at h
        simp only at h
        rw [set_new d key v hnone] at h
        obtain ⟨p1, p2⟩ := CheckNode_sound idx value _ v hv
        have hn' : (Dict.keys (d ++ [(key, v)])).Nodup := by
          have : key ∉ Dict.keys d := (Dict.get?_eq_none d key).mp hnone
          unfold Dict.keys at hn this ⊢
          rw [List.map_append, List.nodup_append]
          refine ⟨hn, by simp, ?_⟩
          intro a ha b hb
          simp at hb
          rintro rfl
          rw [hb] at ha
          exact this ha
        obtain ⟨d', h1, h2, h3, h4⟩ := checkEntries_sound idx rest kp _ r hn' h
        refine ⟨(key, v) :: d', by rw [h1]; simp, by simpa using h2, ?_, ?_⟩
        · intro e he
          rcases List.mem_cons.mp he with rfl | he
          · exact p1
          · exact h3 e he
        · rw [List.map_cons, ← h4, p2]
theorem checkElts_sound (idx : Nat → Str) : ∀ (l : List PyAst) (kp : List Str) (i : Nat)
    (r : List Val), checkElts idx l kp i = .ok r → (∀ v ∈ r, PlainData v) ∧ l = r.map literal
  | [], kp, i, r, h => by
    unfold checkElts at h
    cases h
    simp
  | child :: rest, kp, i, r, h => by
    unfold checkElts at h
    cases hv : CheckNode idx child (kp ++ [idx i]) with
    | error e => rw [hv] at h; cases h
    | ok v =>
      rw [hv] at h
      simp only at h
      cases hr : checkElts idx rest kp (i + 1) with
      | error e => rw [hr] at h; cases h
      | ok vs =>
        rw [hr] at h
        cases h
        obtain ⟨p1, p2⟩ := CheckNode_sound idx child _ v hv
        obtain ⟨h1, h2⟩ := checkElts_sound idx rest kp (i + 1) vs hr
        refine ⟨?_, by rw [List.map_cons, ← h2, p2]⟩
        intro w hw
        rcases List.mem_cons.mp hw with rfl | hw
        · exact p1
        · exact h1 w hw
end

theorem checkElts_complete (idx : Nat → Str) (l : List Val)
    (h : ∀ v ∈ l, ∀ kp, CheckNode idx (literal v) kp = .ok v) :
    ∀ (kp : List Str) (i : Nat), checkElts idx (l.map literal) kp i = .ok l := by
  induction l with
  | nil => intro kp i; rfl
  | cons v l ih =>
    intro kp i
    rw [List.map_cons, checkElts, h v (by simp)]
    simp only
    rw [ih (fun w hw => h w (by simp [hw]))]

theorem checkEntries_complete (idx : Nat → Str) (l : List (Str × Val))
    (h : ∀ e ∈ l, ∀ kp, CheckNode idx (literal e.2) kp = .ok e.2) (kp : List Str) :
    ∀ d : Dict, ((d ++ l).map Prod.fst).Nodup →
      checkEntries idx (l.map fun e => (some e.1, literal e.2)) kp d = .ok (d ++ l) := by
  induction l with
  | nil => intro d _; simp [checkEntries]
  | cons e l ih =>
    intro d hn
    obtain ⟨k, v⟩ := e
    have hk : Dict.get? d k = none := by
      rw [Dict.get?_eq_none]
      intro hm
      rw [List.map_append, List.nodup_append] at hn
      exact hn.2.2 k hm k (by simp) rfl
    rw [List.map_cons, checkEntries, if_neg (by simp [hk]), h (k, v) (by simp)]
    simp only
    rw [set_new d k v hk, ih (fun w hw => h w (by simp [hw])) _ (by simpa using hn)]
    simp

/-- C26: strict reading accepts exactly the literals of plain data without repeated keys,
and yields the data that is written. -/
theorem C26_accepts (idx : Nat → Str) (n : PyAst) (kp : List Str) (v : Val) :
    CheckNode idx n kp = .ok v ↔ PlainData v ∧ n = literal v := by
  constructor
  · exact CheckNode_sound idx n kp v
  · rintro ⟨h, rfl⟩
    induction h generalizing kp with
    | str s => rfl
    | list l _ ih =>
      rw [literal, literals_eq, CheckNode, checkElts_complete idx l (fun v hv kp => ih v hv kp)]
    | dict d hn _ ih =>
      rw [literal, literalEntries_eq, CheckNode,
        checkEntries_complete idx d (fun e he kp => ih e he kp) kp [] (by simpa using hn)]
      rfl

/-- C26: a repeated key is rejected wherever it is. -/
theorem C26_repeated (idx : Nat → Str) (n : PyAst) (h : RepeatsKey n) (kp : List Str) :
    ∃ e, CheckNode idx n kp = .error e := by
  cases hc : CheckNode idx n kp with
  | error e => exact ⟨e, rfl⟩
  | ok v =>
    exfalso
    obtain ⟨h1, h2⟩ := CheckNode_sound idx n kp v hc
    clear hc
    induction h generalizing v with
    | @here a b c k x y =>
      cases h1 with
      | str s => cases h2
      | list l _ => rw [literal] at h2; cases h2
      | dict d hn _ =>
        rw [literal, literalEntries_eq] at h2
        have h3 := PyAst.dict.inj h2
        have h4 := congrArg (List.map Prod.fst) h3
        rw [List.map_map] at h4
        have h5 : (List.map (Prod.fst ∘ fun e : Str × Val => (some e.1, literal e.2)) d).Nodup := by
          have : (Prod.fst ∘ fun e : Str × Val => (some e.1, literal e.2)) =
              (Option.some ∘ Prod.fst) := rfl
          rw [this, ← List.map_map]
          exact List.Pairwise.map _ (fun a b hab e => hab (Option.some.inj e)) hn
        rw [← h4] at h5
        simp only [List.map_append, List.map_cons, List.nodup_append] at h5
        exact h5.2.2 (some k) (by simp) (some k) (by simp) rfl
    | @dict l e he _ ih =>
      cases h1 with
      | str s => cases h2
      | list l _ => rw [literal] at h2; cases h2
      | dict d hn hp =>
        rw [literal, literalEntries_eq] at h2
        obtain rfl := PyAst.dict.inj h2
        obtain ⟨e', he', rfl⟩ := List.mem_map.mp he
        exact ih e'.2 (hp e' he') rfl
    | @list l x hx _ ih =>
      cases h1 with
      | str s => cases h2
      | dict d _ _ => rw [literal] at h2; cases h2
      | list l hp =>
        rw [literal, literals_eq] at h2
        obtain rfl := PyAst.list.inj h2
        obtain ⟨v', hv', rfl⟩ := List.mem_map.mp hx
        exact ih v' (hp v' hv') rfl

/-- C26: anything else than dictionaries, lists and strings is rejected wherever it is. -/
theorem C26_other (idx : Nat → Str) (n : PyAst) (h : HasOther n) (kp : List Str) :
    ∃ e, CheckNode idx n kp = .error e := by
  cases hc : CheckNode idx n kp with
  | error e => exact ⟨e, rfl⟩
  | ok v =>
    exfalso
    obtain ⟨h1, h2⟩ := CheckNode_sound idx n kp v hc
    clear hc
    induction h generalizing v with
    | here =>
      cases h1 with
      | str s => cases h2
      | list l _ => rw [literal] at h2; cases h2
      | dict d _ _ => rw [literal] at h2; cases h2
    | @key l x hx =>
      cases h1 with
      | str s => cases h2
      | list l _ => rw [literal] at h2; cases h2
      | dict d hn hp =>
        rw [literal, literalEntries_eq] at h2
        obtain rfl := PyAst.dict.inj h2
        obtain ⟨e', he', h⟩ := List.mem_map.mp hx
        cases h
    | @dict l e he _ ih =>
      cases h1 with
      | str s => cases h2
      | list l _ => rw [literal] at h2; cases h2
      | dict d hn hp =>
        rw [literal, literalEntries_eq] at h2
        obtain rfl := PyAst.dict.inj h2
        obtain ⟨e', he', rfl⟩ := List.mem_map.mp he
        exact ih e'.2 (hp e' he') rfl
    | @list l x hx _ ih =>
      cases h1 with
      | str s => cases h2
      | dict d _ _ => rw [literal] at h2; cases h2
      | list l hp =>
        rw [literal, literals_eq] at h2
        obtain rfl := PyAst.list.inj h2
        obtain ⟨v', hv', rfl⟩ := List.mem_map.mp hx
        exact ih v' (hp v' hv') rfl

/-- C26: a file is read exactly when it consists of one such expression. -/
theorem C26_file (idx : Nat → Str) (body : List (Option PyAst)) (v : Val) :
    CheckedEval idx body = .ok v ↔ PlainData v ∧ body = [some (literal v)] := by
  unfold CheckedEval
  split
  · rename_i e
    rw [C26_accepts]
    simp
  · rename_i h
    constructor
    · intro h; cases h
    · rintro ⟨_, rfl⟩
      exact absurd rfl (h _)

/-- A nested literal. -/
example : CheckedEval (fun _ => []) [some (.dict [(some c!"targets", .list [.dict
      [(some c!"target_name", .str c!"a"), (some c!"sources", .list [.str c!"x.c"])]])])] =
    .ok (.dict [(c!"targets", .list [.dict [(c!"target_name", .str c!"a"),
      (c!"sources", .list [.str c!"x.c"])]])]) := rfl

/-- A key repeated inside a list inside a dictionary. -/
example : RepeatsKey (.dict [(some c!"targets", .list [.dict
      [(some c!"a", .str c!"1"), (some c!"a", .str c!"2")]])]) :=
  have h : RepeatsKey (.dict [(some c!"a", .str c!"1"), (some c!"a", .str c!"2")]) :=
    .here (a := []) (b := []) (c := [])
  .dict List.mem_cons_self (.list List.mem_cons_self h)

/-- The message names the place. -/
example : CheckNode (fun n => Nat.toDigits 10 n) (.dict [(some c!"targets", .list [.dict
      [(some c!"a", .str c!"1"), (some c!"a", .str c!"2")]])]) [] =
    .error (.repeated c!"a" 3 [c!"targets", c!"0"]) := rfl

end Gyp
