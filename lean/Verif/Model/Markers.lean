import Verif.Basic
/-
Environment markers: `_parse_marker`, `_parse_marker_atom` of /repo/gyp/pylib/packaging/_parser.py
and `_format_marker`, `_evaluate_markers` of /repo/gyp/pylib/packaging/markers.py.  Simplified: a
comparison with its two sides is one token, what it gives in an environment is a parameter (`none`
is an exception), and blanks between tokens are left out.
-/
namespace Gyp

/-- _parser.py:264-308 the tokens: a comparison, `and` (false) or `or` (true), brackets. -/
inductive MTok (α : Type) where
  | item (a : α)
  | word (isOr : Bool)
  | lpar
  | rpar

/-- markers.py:199-213 a part of the list that stands for a marker. -/
inductive MPart (α : Type) where
  | item (a : α)
  | word (isOr : Bool)
  | sub (ps : List (MPart α))

mutual
/-- _parser.py:276-295 `_parse_marker_atom`.  The number bounds the depth of calls. -/
def parseAtom {α : Type} : Nat → List (MTok α) → Option (MPart α × List (MTok α))
  | 0, _ => none
  | _ + 1, .item a :: ts => some (.item a, ts)
  | n + 1, .lpar :: ts =>
    match parseMarker n ts with
    | some (ps, .rpar :: rest) => some (.sub ps, rest)
    | _ => none
  | _ + 1, _ => none

/-- _parser.py:264-273 `_parse_marker`. -/
def parseMarker {α : Type} : Nat → List (MTok α) → Option (List (MPart α) × List (MTok α))
  | 0, _ => none
  | n + 1, ts =>
    match parseAtom n ts with
    | none => none
    | some (p, rest) => (parseMore n rest).map fun x => (p :: x.1, x.2)

/-- _parser.py:269-272 the loop. -/
def parseMore {α : Type} : Nat → List (MTok α) → Option (List (MPart α) × List (MTok α))
  | 0, _ => none
  | n + 1, .word o :: ts =>
    match parseAtom n ts with
    | none => none
    | some (p, rest) => (parseMore n rest).map fun x => (.word o :: p :: x.1, x.2)
  | _ + 1, ts => some ([], ts)
end

/-- _parser.py:254-261 `parse_marker`: all tokens must be used. -/
def parseFullMarker {α : Type} (ts : List (MTok α)) : Option (List (MPart α)) :=
  match parseMarker (2 * ts.length + 1) ts with
  | some (ps, []) => some ps
  | _ => none

mutual
/-- markers.py:143-158 the value of a part. -/
def evalPart {α : Type} (ev : α → Option Bool) : MPart α → Option Bool
  | .item a => ev a
  | .word _ => none
  | .sub ps => (markerGroups ev ps [] []).map fun groups => groups.any fun g => g.all id

/-- markers.py:138-162 the groups, those before the last and the last. -/
def markerGroups {α : Type} (ev : α → Option Bool) : List (MPart α) → List (List Bool) → List Bool →
    Option (List (List Bool))
  | [], done, cur => some (done ++ [cur])
  | p :: ps, done, cur =>
    match p with
    | .word true => markerGroups ev ps (done ++ [cur]) []
    | .word false => markerGroups ev ps done cur
    | p =>
      match evalPart ev p with
      | none => none
      | some b => markerGroups ev ps done (cur ++ [b])
end

/-- markers.py:137-164 `_evaluate_markers`. -/
def evaluateMarkers {α : Type} (ev : α → Option Bool) (ps : List (MPart α)) : Option Bool :=
  (markerGroups ev ps [] []).map fun groups => groups.any fun g => g.all id

mutual
/-- markers.py:69-95 `_format_marker` of a part, as tokens.  A list with one part that is no word is
written as this part, and then as if it were the whole marker. -/
def formatPart {α : Type} (first : Bool) : MPart α → List (MTok α)
  | .item a => [.item a]
  | .word o => [.word o]
  | .sub [.item a] => [.item a]
  | .sub [.sub qs] => formatPart true (.sub qs)
  | .sub ps => if first then formatParts ps else .lpar :: formatParts ps ++ [.rpar]

/-- markers.py:85-90 the parts of a list, joined. -/
def formatParts {α : Type} : List (MPart α) → List (MTok α)
  | [] => []
  | p :: ps => formatPart false p ++ formatParts ps
end

/-- markers.py:219-220 `str` of a marker. -/
def formatMarker {α : Type} (ps : List (MPart α)) : List (MTok α) := formatPart true (.sub ps)

end Gyp
