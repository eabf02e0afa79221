import Verif.Proofs.Markers
/-
C121: environment markers: `and` binds closer than `or`, brackets closest; every comparison is made;
a marker is written as one that means the same, unless there are brackets right inside brackets.
-/
namespace Gyp
open Spec

/-- Comparisons are numbers, with a value for 0 to 3 and none for others. -/
def exEv (bits : List Bool) (n : Nat) : Option Bool := bits[n]?

/-- **C121 (what a marker means).** Every text of the grammar is read, and the marker holds where
the text says so: `and` binds closer than `or`, brackets closest, and where one comparison has no
value the whole has none, wherever it stands. -/
theorem C121_value {α : Type} (e : MOr α) :
    ∃ m, parseFullMarker e.tokens = some m ∧ ∀ ev, evaluateMarkers ev m = e.value ev :=
  ⟨_, parseFull_tokens e, fun ev => evaluate_parts ev e⟩

/-- `0 or 1 and (2 or 3)`. -/
def exMarker : MOr Nat :=
  .more (.one (.item 0)) (.one (.more (.item 1)
    (.one (.paren (.more (.one (.item 2)) (.one (.one (.item 3))))))))

example : exMarker.tokens =
    [.item 0, .word true, .item 1, .word false, .lpar, .item 2, .word true, .item 3, .rpar] := rfl
example : exMarker.value (exEv [true, false, false, false]) = some true := rfl
example : exMarker.value (exEv [false, false, true, true]) = some false := rfl
example : exMarker.value (exEv [false, true, false, true]) = some true := rfl
example : exMarker.value (exEv [true, true]) = none := rfl

/-- **C121 (nothing else is read).** What is read is a text of the grammar, with its meaning. -/
theorem C121_only {α : Type} {ts : List (MTok α)} {m : List (MPart α)} (h : parseFullMarker ts = some m) :
    ∃ e : MOr α, e.tokens = ts ∧ ∀ ev, evaluateMarkers ev m = e.value ev := by
  unfold parseFullMarker at h
  split at h
  · rename_i ps hp
    cases h
    obtain ⟨e, h1, h2⟩ := (parse_sound _).2.1 _ _ _ hp
    exact ⟨e, by simpa using h1.symm, fun ev => by rw [h2, evaluate_parts]⟩
  · exact absurd h (by simp)

example : parseFullMarker ([.item 0, .word true] : List (MTok Nat)) = none := rfl
example : parseFullMarker ([.item 0, .item 1] : List (MTok Nat)) = none := rfl
example : parseFullMarker ([.lpar, .item 0] : List (MTok Nat)) = none := rfl
example : (parseFullMarker exMarker.tokens).isSome = true := by rw [parseFull_tokens]; rfl

/-- **C121 (one meaning).** Two ways to take a text apart give one meaning. -/
theorem C121_unambiguous {α : Type} {e e' : MOr α} (h : e.tokens = e'.tokens) (ev : α → Option Bool) :
    e.value ev = e'.value ev := by
  have a := parseFull_tokens e
  rw [h, parseFull_tokens e'] at a
  rw [← evaluate_parts ev e, ← evaluate_parts ev e', Option.some.inj a]

/-- **C121 (written and read again, part).** Without brackets right inside brackets, a marker is
written as a text that is read as a marker with the same meaning.  Missing: markers with such
brackets, for which it is false (`C121_double`). -/
theorem C121_roundtrip_partial {α : Type} {e : MOr α} (h : e.NoDouble) {m : List (MPart α)}
    (hm : parseFullMarker e.tokens = some m) :
    ∃ m', parseFullMarker (formatMarker m) = some m' ∧ ∀ ev, evaluateMarkers ev m' = evaluateMarkers ev m := by
  rw [parseFull_tokens] at hm
  cases hm
  obtain ⟨e', h1, h2⟩ := format_top e h
  refine ⟨partsOr e', by rw [h1, parseFull_tokens], fun ev => ?_⟩
  rw [evaluate_parts, evaluate_parts, h2]

example : exMarker.NoDouble := by
  simp [exMarker, MOr.NoDouble, MAnd.NoDouble, MAtom.NoDouble]
example : (parseFullMarker exMarker.tokens).map formatMarker = some exMarker.tokens := rfl

/-- `0 and ((1 or 2))`. -/
def exDouble : MOr Nat :=
  .one (.more (.item 0) (.one (.paren (.one (.one (.paren
    (.more (.one (.item 1)) (.one (.one (.item 2))))))))))

/-- **C121 (what is not so).** `0 and ((1 or 2))` is written as `0 and 1 or 2`, which holds where 2
alone holds, though the marker does not. -/
theorem C121_double :
    (parseFullMarker exDouble.tokens).map formatMarker =
        some [.item 0, .word false, .item 1, .word true, .item 2] ∧
      (parseFullMarker exDouble.tokens).bind (evaluateMarkers (exEv [false, false, true])) = some false ∧
      (parseFullMarker ([.item 0, .word false, .item 1, .word true, .item 2] : List (MTok Nat))).bind
        (evaluateMarkers (exEv [false, false, true])) = some true :=
  ⟨rfl, rfl, rfl⟩

end Gyp
