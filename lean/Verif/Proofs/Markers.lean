import Verif.Spec.Markers
/-
Proofs about environment markers.
-/
namespace Gyp
open Spec

variable {α : Type}

mutual
/-- The part for an atom. -/
def partAtom : MAtom α → MPart α
  | .item a => .item a
  | .paren e => .sub (partsOr e)

/-- The parts for comparisons joined by `and`. -/
def partsAnd : MAnd α → List (MPart α)
  | .one t => [partAtom t]
  | .more t rest => partAtom t :: .word false :: partsAnd rest

/-- The parts for a marker. -/
def partsOr : MOr α → List (MPart α)
  | .one a => partsAnd a
  | .more a rest => partsAnd a ++ .word true :: partsOr rest
end

theorem parseMore_stop {n : Nat} {ts : List (MTok α)} (hn : 0 < n) (h : ∀ o r, ts ≠ .word o :: r) :
    parseMore n ts = some ([], ts) := by
  cases n with
  | zero => omega
  | succ n =>
    cases ts with
    | nil => rw [parseMore]; intro o r hx; cases hx
    | cons t ts =>
      cases t with
      | word o => exact absurd rfl (h o ts)
      | item a => rw [parseMore]; intro o r hx; cases hx
      | lpar => rw [parseMore]; intro o r hx; cases hx
      | rpar => rw [parseMore]; intro o r hx; cases hx

mutual
theorem parse_atom : ∀ (t : MAtom α) (n : Nat) (rest : List (MTok α)), 2 * (t.tokens ++ rest).length ≤ n →
    parseAtom n (t.tokens ++ rest) = some (partAtom t, rest)
  | .item a, n, rest, h => by
    cases n with
    | zero => simp [MAtom.tokens] at h
    | succ n => simp [MAtom.tokens, partAtom, parseAtom]
  | .paren e, n, rest, h => by
    cases n with
    | zero => simp [MAtom.tokens] at h
    | succ n =>
      have ht : (MAtom.paren e).tokens ++ rest = .lpar :: (e.tokens ++ (.rpar :: rest)) := by simp [MAtom.tokens]
      rw [ht] at h ⊢
      have hl : 2 * (e.tokens ++ (.rpar :: rest)).length + 1 ≤ n := by
        rw [List.length_cons] at h
        omega
      have := parse_or e n (.rpar :: rest) [] (.rpar :: rest) hl fun m hm =>
        parseMore_stop (by omega) fun o r hx => by cases hx
      rw [parseAtom, this]
      simp [partAtom]

theorem parse_and : ∀ (a : MAnd α) (n : Nat) (rest : List (MTok α)) (ps : List (MPart α)) (r : List (MTok α)),
    2 * (a.tokens ++ rest).length + 1 ≤ n → (∀ m, 2 * rest.length + 1 ≤ m → parseMore m rest = some (ps, r)) →
    parseMarker n (a.tokens ++ rest) = some (partsAnd a ++ ps, r) ∧
    ∀ o, parseMore (n + 2) (.word o :: (a.tokens ++ rest)) = some (.word o :: (partsAnd a ++ ps), r)
  | .one t, n, rest, ps, r, h, hr => by
    have et : (MAnd.one t).tokens = t.tokens := by simp [MAnd.tokens]
    rw [et] at h ⊢
    have hlen : rest.length ≤ (t.tokens ++ rest).length := by simp
    refine ⟨?_, fun o => ?_⟩
    · cases n with
      | zero => omega
      | succ n =>
        have hpos : 0 < t.tokens.length := by cases t <;> simp [MAtom.tokens]
        have hl2 : (t.tokens ++ rest).length = t.tokens.length + rest.length := List.length_append
        rw [parseMarker, parse_atom t n rest (by omega)]
        simp only
        rw [hr n (by omega)]
        simp [partsAnd]
    · rw [parseMore, parse_atom t (n + 1) rest (by omega)]
      simp only
      rw [hr (n + 1) (by omega)]
      simp [partsAnd]
  | .more t a, n, rest, ps, r, h, hr => by
    have et : (MAnd.more t a).tokens ++ rest = t.tokens ++ (.word false :: (a.tokens ++ rest)) := by
      simp [MAnd.tokens]
    rw [et] at h ⊢
    have hpos : 0 < t.tokens.length := by cases t <;> simp [MAtom.tokens]
    have hl2 : (t.tokens ++ (.word false :: (a.tokens ++ rest))).length =
        t.tokens.length + ((a.tokens ++ rest).length + 1) := by rw [List.length_append, List.length_cons]
    have ih : ∀ m, 2 * (MTok.word false :: (a.tokens ++ rest)).length + 1 ≤ m →
        parseMore m (.word false :: (a.tokens ++ rest)) = some (.word false :: (partsAnd a ++ ps), r) := by
      intro m hm
      rw [List.length_cons] at hm
      obtain ⟨m', rfl⟩ : ∃ m', m = m' + 2 := ⟨m - 2, by omega⟩
      exact (parse_and a m' rest ps r (by omega) hr).2 false
    have hc : (MTok.word (α := α) false :: (a.tokens ++ rest)).length = (a.tokens ++ rest).length + 1 := List.length_cons
    refine ⟨?_, fun o => ?_⟩
    · cases n with
      | zero => omega
      | succ n =>
        rw [parseMarker, parse_atom t n _ (by omega)]
        simp only
        rw [ih n (by omega)]
        simp [partsAnd]
    · rw [parseMore, parse_atom t (n + 1) _ (by omega)]
      simp only
      rw [ih (n + 1) (by omega)]
      simp [partsAnd]

theorem parse_or : ∀ (e : MOr α) (n : Nat) (rest : List (MTok α)) (ps : List (MPart α)) (r : List (MTok α)),
    2 * (e.tokens ++ rest).length + 1 ≤ n → (∀ m, 2 * rest.length + 1 ≤ m → parseMore m rest = some (ps, r)) →
    parseMarker n (e.tokens ++ rest) = some (partsOr e ++ ps, r)
  | .one a, n, rest, ps, r, h, hr => by
    have et : (MOr.one a).tokens = a.tokens := by simp [MOr.tokens]
    rw [et] at h ⊢
    have ep : partsOr (.one a) = partsAnd a := by simp [partsOr]
    rw [ep]
    exact (parse_and a n rest ps r h hr).1
  | .more a e, n, rest, ps, r, h, hr => by
    have et : (MOr.more a e).tokens ++ rest = a.tokens ++ (.word true :: (e.tokens ++ rest)) := by
      simp [MOr.tokens]
    rw [et] at h ⊢
    have ep : partsOr (.more a e) ++ ps = partsAnd a ++ (.word true :: (partsOr e ++ ps)) := by simp [partsOr]
    rw [ep]
    refine (parse_and a n _ _ r h fun m hm => ?_).1
    exact parse_or_more e m rest ps r hm hr

theorem parse_or_more : ∀ (e : MOr α) (n : Nat) (rest : List (MTok α)) (ps : List (MPart α)) (r : List (MTok α)),
    2 * (MTok.word true :: (e.tokens ++ rest)).length + 1 ≤ n →
    (∀ m, 2 * rest.length + 1 ≤ m → parseMore m rest = some (ps, r)) →
    parseMore n (.word true :: (e.tokens ++ rest)) = some (.word true :: (partsOr e ++ ps), r)
  | .one a, n, rest, ps, r, h, hr => by
    have et : (MOr.one a).tokens = a.tokens := by simp [MOr.tokens]
    have ep : partsOr (.one a) = partsAnd a := by simp [partsOr]
    rw [et] at h ⊢
    rw [ep]
    rw [List.length_cons] at h
    obtain ⟨n', rfl⟩ : ∃ n', n = n' + 2 := ⟨n - 2, by omega⟩
    exact (parse_and a n' rest ps r (by omega) hr).2 true
  | .more a e, n, rest, ps, r, h, hr => by
    have et : (MOr.more a e).tokens ++ rest = a.tokens ++ (.word true :: (e.tokens ++ rest)) := by
      simp [MOr.tokens]
    have ep : partsOr (.more a e) ++ ps = partsAnd a ++ (.word true :: (partsOr e ++ ps)) := by simp [partsOr]
    rw [et] at h ⊢
    rw [ep]
    rw [List.length_cons] at h
    obtain ⟨n', rfl⟩ : ∃ n', n = n' + 2 := ⟨n - 2, by omega⟩
    refine (parse_and a n' _ _ r (by omega) fun m hm => ?_).2 true
    exact parse_or_more e m rest ps r hm hr
end

theorem parseFull_tokens (e : MOr α) : parseFullMarker e.tokens = some (partsOr e) := by
  unfold parseFullMarker
  have := parse_or e (2 * e.tokens.length + 1) [] [] [] (by simp) fun m hm =>
    parseMore_stop (by omega) fun o r hx => by cases hx
  rw [List.append_nil] at this
  rw [this]
  simp

/-! ### Only what the grammar gives -/

/-- An atom and what follows it, as a marker. -/
theorem regroup : ∀ (l : List (Bool × MAtom α)) (t : MAtom α), ∃ e : MOr α,
    e.tokens = t.tokens ++ l.flatMap (fun x => .word x.1 :: x.2.tokens) ∧
    partsOr e = partAtom t :: l.flatMap (fun x => [.word x.1, partAtom x.2])
  | [], t => ⟨.one (.one t), by simp [MOr.tokens, MAnd.tokens], by simp [partsOr, partsAnd]⟩
  | (true, u) :: l, t => by
    obtain ⟨e, h1, h2⟩ := regroup l u
    exact ⟨.more (.one t) e, by simp [MOr.tokens, MAnd.tokens, h1], by simp [partsOr, partsAnd, h2]⟩
  | (false, u) :: l, t => by
    obtain ⟨e, h1, h2⟩ := regroup l u
    cases e with
    | one a =>
      simp only [MOr.tokens, partsOr] at h1 h2
      exact ⟨.one (.more t a), by simp [MOr.tokens, MAnd.tokens, h1], by simp [partsOr, partsAnd, h2]⟩
    | more a e =>
      simp only [MOr.tokens, partsOr] at h1 h2
      refine ⟨.more (.more t a) e, ?_, ?_⟩
      · simp only [MOr.tokens, MAnd.tokens, List.append_assoc, List.cons_append, h1, List.flatMap_cons]
      · simp only [partsOr, partsAnd, List.cons_append, h2, List.flatMap_cons, List.nil_append]

theorem parse_sound : ∀ (n : Nat),
    (∀ (ts : List (MTok α)) p rest, parseAtom n ts = some (p, rest) → ∃ t, ts = t.tokens ++ rest ∧ p = partAtom t) ∧
    (∀ (ts : List (MTok α)) ps rest, parseMarker n ts = some (ps, rest) →
      ∃ e : MOr α, ts = e.tokens ++ rest ∧ ps = partsOr e) ∧
    (∀ (ts : List (MTok α)) ps rest, parseMore n ts = some (ps, rest) → ∃ l : List (Bool × MAtom α),
      ts = l.flatMap (fun x => .word x.1 :: x.2.tokens) ++ rest ∧
      ps = l.flatMap (fun x => [.word x.1, partAtom x.2]))
  | 0 => by simp [parseAtom, parseMarker, parseMore]
  | n + 1 => by
    obtain ⟨iA, iM, iR⟩ := parse_sound n
    refine ⟨?_, ?_, ?_⟩
    · intro ts p rest h
      cases ts with
      | nil => simp [parseAtom] at h
      | cons t ts =>
        cases t with
        | item a =>
          simp [parseAtom] at h
          obtain ⟨rfl, rfl⟩ := h
          exact ⟨.item a, by simp [MAtom.tokens], by simp [partAtom]⟩
        | word o => simp [parseAtom] at h
        | rpar => simp [parseAtom] at h
        | lpar =>
          rw [parseAtom] at h
          cases hm : parseMarker n ts with
          | none => rw [hm] at h; cases h
          | some x =>
            obtain ⟨ps, r⟩ := x
            rw [hm] at h
            obtain ⟨e, h1, h2⟩ := iM ts ps r hm
            cases r with
            | nil => cases h
            | cons t r =>
              cases t with
              | rpar =>
                simp at h
                obtain ⟨rfl, rfl⟩ := h
                exact ⟨.paren e, by simp [MAtom.tokens, h1], by simp [partAtom, h2]⟩
              | item a => cases h
              | word a => cases h
              | lpar => cases h
    · intro ts ps rest h
      rw [parseMarker] at h
      cases ha : parseAtom n ts with
      | none => rw [ha] at h; cases h
      | some x =>
        obtain ⟨p, r⟩ := x
        rw [ha] at h
        obtain ⟨t, t1, t2⟩ := iA ts p r ha
        cases hm : parseMore n r with
        | none => simp [hm] at h
        | some y =>
          obtain ⟨qs, r'⟩ := y
          simp [hm] at h
          obtain ⟨rfl, rfl⟩ := h
          obtain ⟨l, l1, l2⟩ := iR r qs r' hm
          obtain ⟨e, e1, e2⟩ := regroup l t
          exact ⟨e, by rw [t1, l1, e1, List.append_assoc], by rw [e2, t2, l2]⟩
    · intro ts ps rest h
      by_cases hw : ∃ o r, ts = .word o :: r
      · obtain ⟨o, ts, rfl⟩ := hw
        rw [parseMore] at h
        cases ha : parseAtom n ts with
        | none => rw [ha] at h; cases h
        | some x =>
          obtain ⟨p, r⟩ := x
          rw [ha] at h
          obtain ⟨t, t1, t2⟩ := iA ts p r ha
          cases hm : parseMore n r with
          | none => simp [hm] at h
          | some y =>
            obtain ⟨qs, r'⟩ := y
            simp [hm] at h
            obtain ⟨rfl, rfl⟩ := h
            obtain ⟨l, l1, l2⟩ := iR r qs r' hm
            exact ⟨(o, t) :: l, by simp [t1, l1], by simp [t2, l2]⟩
      · rw [parseMore_stop (by omega) fun o r hx => hw ⟨o, r, hx⟩] at h
        simp at h
        obtain ⟨rfl, rfl⟩ := h
        exact ⟨[], by simp, by simp⟩

/-! ### Values -/

/-- The values of atoms joined by `and`. -/
def valsAnd (ev : α → Option Bool) : MAnd α → Option (List Bool)
  | .one t => (t.value ev).map fun x => [x]
  | .more t rest => (t.value ev).bind fun x => (valsAnd ev rest).map fun xs => x :: xs

/-- The groups of a marker, the first and the others. -/
def valsOr (ev : α → Option Bool) : MOr α → Option (List Bool × List (List Bool))
  | .one a => (valsAnd ev a).map fun g => (g, [])
  | .more a rest => (valsAnd ev a).bind fun g => (valsOr ev rest).map fun gs => (g, gs.1 :: gs.2)

theorem value_valsAnd (ev : α → Option Bool) : ∀ a : MAnd α, a.value ev = (valsAnd ev a).map fun g => g.all id
  | .one t => by
    simp only [MAnd.value, valsAnd]
    cases t.value ev <;> simp
  | .more t rest => by
    simp only [MAnd.value, valsAnd, value_valsAnd ev rest]
    cases t.value ev <;> cases valsAnd ev rest <;> simp

theorem value_valsOr (ev : α → Option Bool) : ∀ e : MOr α,
    e.value ev = (valsOr ev e).map fun gs => (gs.1 :: gs.2).any fun g => g.all id
  | .one a => by
    simp only [MOr.value, valsOr, value_valsAnd]
    cases valsAnd ev a <;> simp
  | .more a rest => by
    simp only [MOr.value, valsOr, value_valsAnd, value_valsOr ev rest]
    cases valsAnd ev a <;> cases valsOr ev rest <;> simp

theorem groups_atom {ev : α → Option Bool} {t : MAtom α} (ps : List (MPart α)) (done : List (List Bool))
    (cur : List Bool) : markerGroups ev (partAtom t :: ps) done cur =
      (evalPart ev (partAtom t)).bind fun b => markerGroups ev ps done (cur ++ [b]) := by
  cases t with
  | item a =>
    simp only [partAtom]
    rw [markerGroups]
    · cases evalPart ev (.item a) <;> rfl
    · intro h; cases h
    · intro h; cases h
  | paren e =>
    simp only [partAtom]
    rw [markerGroups]
    · cases evalPart ev (.sub (partsOr e)) <;> rfl
    · intro h; cases h
    · intro h; cases h

mutual
theorem eval_atom (ev : α → Option Bool) : ∀ t : MAtom α, evalPart ev (partAtom t) = t.value ev
  | .item a => by simp [partAtom, evalPart, MAtom.value]
  | .paren e => by
    simp only [partAtom, evalPart, MAtom.value]
    have := groups_or ev e [] []
    rw [this, value_valsOr]
    cases valsOr ev e with
    | none => rfl
    | some gs => simp

theorem groups_and (ev : α → Option Bool) : ∀ (a : MAnd α) (ps : List (MPart α)) (done : List (List Bool))
    (cur : List Bool), markerGroups ev (partsAnd a ++ ps) done cur =
      (valsAnd ev a).bind fun g => markerGroups ev ps done (cur ++ g)
  | .one t, ps, done, cur => by
    simp only [partsAnd, List.cons_append, List.nil_append]
    rw [groups_atom, eval_atom ev t, valsAnd]
    cases t.value ev <;> rfl
  | .more t a, ps, done, cur => by
    simp only [partsAnd, List.cons_append]
    rw [groups_atom, eval_atom ev t, valsAnd]
    cases t.value ev with
    | none => rfl
    | some x =>
      simp only [Option.bind_some]
      rw [markerGroups]
      rw [groups_and ev a ps done (cur ++ [x])]
      cases valsAnd ev a <;> simp

theorem groups_or (ev : α → Option Bool) : ∀ (e : MOr α) (done : List (List Bool)) (cur : List Bool),
    markerGroups ev (partsOr e) done cur =
      (valsOr ev e).map fun gs => done ++ (cur ++ gs.1) :: gs.2
  | .one a, done, cur => by
    have := groups_and ev a [] done cur
    rw [List.append_nil] at this
    simp only [partsOr, valsOr]
    rw [this]
    cases valsAnd ev a with
    | none => rfl
    | some g => simp [markerGroups]
  | .more a e, done, cur => by
    simp only [partsOr, valsOr]
    rw [groups_and]
    cases valsAnd ev a with
    | none => rfl
    | some g =>
      simp only [Option.bind_some]
      rw [markerGroups]
      rw [groups_or ev e (done ++ [cur ++ g]) []]
      cases valsOr ev e with
      | none => rfl
      | some gs =>
        simp
end

theorem evaluate_parts (ev : α → Option Bool) (e : MOr α) : evaluateMarkers ev (partsOr e) = e.value ev := by
  unfold evaluateMarkers
  rw [groups_or, value_valsOr]
  cases valsOr ev e <;> simp

/-! ### Formatting -/

mutual
/-- Without brackets around single comparisons. -/
def stripAtom : MAtom α → MAtom α
  | .item a => .item a
  | .paren (.one (.one (.item a))) => .item a
  | .paren e => .paren (stripOr e)

/-- The same for each. -/
def stripAnd : MAnd α → MAnd α
  | .one t => .one (stripAtom t)
  | .more t rest => .more (stripAtom t) (stripAnd rest)

/-- The same for each. -/
def stripOr : MOr α → MOr α
  | .one a => .one (stripAnd a)
  | .more a rest => .more (stripAnd a) (stripOr rest)
end

mutual
theorem value_stripAtom (ev : α → Option Bool) : ∀ t : MAtom α, (stripAtom t).value ev = t.value ev
  | .item a => by simp [stripAtom]
  | .paren (.one (.one (.item a))) => by simp [stripAtom, MAtom.value, MOr.value, MAnd.value]
  | .paren (.one (.one (.paren e))) => by
    simp only [stripAtom, MAtom.value]
    exact value_stripOr ev _
  | .paren (.one (.more t a)) => by
    simp only [stripAtom, MAtom.value]
    exact value_stripOr ev _
  | .paren (.more a e) => by
    simp only [stripAtom, MAtom.value]
    exact value_stripOr ev _

theorem value_stripAnd (ev : α → Option Bool) : ∀ a : MAnd α, (stripAnd a).value ev = a.value ev
  | .one t => by simp [stripAnd, MAnd.value, value_stripAtom ev t]
  | .more t a => by simp [stripAnd, MAnd.value, value_stripAtom ev t, value_stripAnd ev a]

theorem value_stripOr (ev : α → Option Bool) : ∀ e : MOr α, (stripOr e).value ev = e.value ev
  | .one a => by simp [stripOr, MOr.value, value_stripAnd ev a]
  | .more a e => by simp [stripOr, MOr.value, value_stripAnd ev a, value_stripOr ev e]
end

theorem formatParts_append : ∀ (a b : List (MPart α)), formatParts (a ++ b) = formatParts a ++ formatParts b
  | [], b => by simp [formatParts]
  | p :: a, b => by simp [formatParts, formatParts_append a b]

theorem partsAnd_ne (a : MAnd α) : ∃ p ps, partsAnd a = p :: ps := by
  cases a <;> simp [partsAnd]

/-- Two or more parts are written one after the other. -/
theorem formatPart_long {first : Bool} {p q : MPart α} {ps : List (MPart α)} :
    formatPart first (.sub (p :: q :: ps)) =
      if first then formatParts (p :: q :: ps) else .lpar :: formatParts (p :: q :: ps) ++ [.rpar] := by
  rw [formatPart]
  · intro a h; cases h
  · intro a h; cases h

theorem partsOr_more (a : MAnd α) (e : MOr α) : ∃ p q ps, partsOr (.more a e) = p :: q :: ps := by
  obtain ⟨p, ps, h⟩ := partsAnd_ne a
  cases ps with
  | nil => exact ⟨p, .word true, partsOr e, by simp [partsOr, h]⟩
  | cons q ps => exact ⟨p, q, ps ++ .word true :: partsOr e, by simp [partsOr, h]⟩

theorem partsOr_and (t : MAtom α) (a : MAnd α) : ∃ p q ps, partsOr (.one (.more t a)) = p :: q :: ps :=
  ⟨partAtom t, .word false, partsAnd a, by simp [partsOr, partsAnd]⟩

mutual
theorem format_atom : ∀ t : MAtom α, t.NoDouble → formatPart false (partAtom t) = (stripAtom t).tokens
  | .item a, _ => by simp [partAtom, formatPart, stripAtom, MAtom.tokens]
  | .paren (.one (.one (.item a))), _ => by
    simp [partAtom, partsOr, partsAnd, formatPart, stripAtom, MAtom.tokens]
  | .paren (.one (.one (.paren e))), h => by simp [MAtom.NoDouble] at h
  | .paren (.one (.more t a)), h => by
    simp only [MAtom.NoDouble] at h
    have hf := format_or (.one (.more t a)) h
    obtain ⟨p, q, ps, e⟩ := partsOr_and t a
    simp only [partAtom, stripAtom, MAtom.tokens]
    rw [← hf, e, formatPart_long]
    simp
  | .paren (.more a e'), h => by
    simp only [MAtom.NoDouble] at h
    have hf := format_or (.more a e') h
    obtain ⟨p, q, ps, e⟩ := partsOr_more a e'
    simp only [partAtom, stripAtom, MAtom.tokens]
    rw [← hf, e, formatPart_long]
    simp

theorem format_and : ∀ a : MAnd α, a.NoDouble → formatParts (partsAnd a) = (stripAnd a).tokens
  | .one t, h => by
    simp only [MAnd.NoDouble] at h
    simp [partsAnd, formatParts, stripAnd, MAnd.tokens, format_atom t h]
  | .more t a, h => by
    simp only [MAnd.NoDouble] at h
    simp [partsAnd, formatParts, formatPart, stripAnd, MAnd.tokens, format_atom t h.1, format_and a h.2]

theorem format_or : ∀ e : MOr α, e.NoDouble → formatParts (partsOr e) = (stripOr e).tokens
  | .one a, h => by
    simp only [MOr.NoDouble] at h
    simp [partsOr, stripOr, MOr.tokens, format_and a h]
  | .more a e, h => by
    simp only [MOr.NoDouble] at h
    simp [partsOr, formatParts_append, formatParts, formatPart, stripOr, MOr.tokens, format_and a h.1, format_or e h.2]
end

/-- What a marker is written as: a marker with the same value. -/
theorem format_top (e : MOr α) (h : e.NoDouble) :
    ∃ e' : MOr α, formatMarker (partsOr e) = e'.tokens ∧ ∀ ev, e'.value ev = e.value ev := by
  unfold formatMarker
  have long : ∀ e : MOr α, e.NoDouble → (∃ p q ps, partsOr e = p :: q :: ps) →
      formatPart true (.sub (partsOr e)) = (stripOr e).tokens := by
    rintro e h ⟨p, q, ps, hp⟩
    rw [← format_or e h, hp, formatPart_long]
    simp
  match e, h with
  | .more a e, h => exact ⟨_, long _ h (partsOr_more a e), fun ev => value_stripOr ev _⟩
  | .one (.more t a), h => exact ⟨_, long _ h (partsOr_and t a), fun ev => value_stripOr ev _⟩
  | .one (.one (.item a)), _ =>
    exact ⟨.one (.one (.item a)), by simp [partsOr, partsAnd, partAtom, formatPart, MOr.tokens, MAnd.tokens, MAtom.tokens],
      fun _ => rfl⟩
  | .one (.one (.paren (.one (.one (.item a))))), _ =>
    exact ⟨.one (.one (.item a)), by
      simp [partsOr, partsAnd, partAtom, formatPart, MOr.tokens, MAnd.tokens, MAtom.tokens],
      fun _ => by simp [MOr.value, MAnd.value, MAtom.value]⟩
  | .one (.one (.paren (.one (.one (.paren e))))), h => simp [MOr.NoDouble, MAnd.NoDouble, MAtom.NoDouble] at h
  | .one (.one (.paren (.one (.more t a)))), h =>
    simp only [MOr.NoDouble, MAnd.NoDouble, MAtom.NoDouble] at h
    refine ⟨_, ?_, fun ev => value_stripOr ev (.one (.more t a))⟩
    rw [← long _ (by simpa only [MOr.NoDouble, MAnd.NoDouble] using h) (partsOr_and t a)]
    have : partsOr (.one (.one (.paren (.one (.more t a))))) = [.sub (partsOr (.one (.more t a)))] := by
      simp [partsOr, partsAnd, partAtom]
    rw [this, formatPart]
  | .one (.one (.paren (.more a e))), h =>
    simp only [MOr.NoDouble, MAnd.NoDouble, MAtom.NoDouble] at h
    refine ⟨_, ?_, fun ev => value_stripOr ev (.more a e)⟩
    rw [← long _ (by simpa only [MOr.NoDouble] using h) (partsOr_more a e)]
    have : partsOr (.one (.one (.paren (.more a e)))) = [.sub (partsOr (.more a e))] := by
      simp [partsOr, partsAnd, partAtom]
    rw [this, formatPart]

end Gyp
