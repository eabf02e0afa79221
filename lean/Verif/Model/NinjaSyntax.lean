import Verif.Basic
/-
`gyp/pylib/gyp/ninja_syntax.py`: escaping and the line writer.
-/
namespace Gyp

/-- ninja_syntax.py:15-16 `escape_path`. -/
def escape_path (word : Str) : Str :=
  replaceChar ':' c!"$:" (replaceChar ' ' c!"$ " (replaceStr c!"$ " c!"$$ " word))

/-- ninja_syntax.py:169-174 `escape`; `none` is the assertion failure on a
newline. -/
def ninjaEscape (s : Str) : Option Str :=
  if '\n' ∈ s then none else some (replaceChar '$' c!"$$" s)

/-- ninja_syntax.py:115-122 `_count_dollars_before_index(s, i)`: the loop runs
while `dollar_index > 0`, so a `$` at index 0 is never counted.  `j` is
`dollar_index`. -/
def countDollarsFrom (s : Str) : Nat → Nat
  | 0 => 0
  | j + 1 => if s[j + 1]? = some '$' then 1 + countDollarsFrom s j else 0

/-- See `countDollarsFrom`; `i - 1` for `i = 0` is `-1` in Python, for which the
loop does not run either. -/
def countDollars (s : Str) (i : Nat) : Nat := countDollarsFrom s (i - 1)

/-- ninja_syntax.py:133-137 the first search loop of `_line`: going left from
`n`, the first blank with an even number of dollars in front. -/
def searchLeft (text : Str) : Nat → Option Nat
  | 0 => none
  | n + 1 =>
    if text[n]? = some ' ' ∧ countDollars text n % 2 = 0 then some n
    else searchLeft text n

/-- ninja_syntax.py:139-148 the second search loop: going right from index `i`;
`fuel` is the number of characters left from `i`. -/
def searchRight (text : Str) (i : Nat) : Nat → Option Nat
  | 0 => none
  | fuel + 1 =>
    if text[i]? = some ' ' ∧ countDollars text i % 2 = 0 then some i
    else searchRight text (i + 1) fuel

/-- ninja_syntax.py:130-148 where to break a text with `avail` characters
available.  The two Python loops step from blank to blank with `rfind`/`find`;
here they step over every index, which visits the same blanks in the same order. -/
def breakAt (text : Str) (avail : Nat) : Option Nat :=
  match searchLeft text avail with
  | some i => some i
  | none => searchRight text avail (text.length - avail)

/-- `breakAt` yields an index inside the text. -/
theorem searchLeft_spec {text : Str} {n i : Nat} (h : searchLeft text n = some i) :
    i < n ∧ text[i]? = some ' ' ∧ countDollars text i % 2 = 0 := by
  induction n with
  | zero => cases h
  | succ n ih =>
    unfold searchLeft at h
    by_cases hc : text[n]? = some ' ' ∧ countDollars text n % 2 = 0
    · rw [if_pos hc] at h; cases h; exact ⟨by omega, hc⟩
    · rw [if_neg hc] at h; have := ih h; exact ⟨by omega, this.2⟩

theorem searchRight_spec {text : Str} {f j i : Nat} (h : searchRight text j f = some i) :
    j ≤ i ∧ text[i]? = some ' ' ∧ countDollars text i % 2 = 0 := by
  induction f generalizing j with
  | zero => cases h
  | succ n ih =>
    unfold searchRight at h
    by_cases hc : text[j]? = some ' ' ∧ countDollars text j % 2 = 0
    · rw [if_pos hc] at h; cases h; exact ⟨by omega, hc⟩
    · rw [if_neg hc] at h; have := ih h; exact ⟨by omega, this.2⟩

theorem breakAt_space {text : Str} {n i : Nat} (h : breakAt text n = some i) :
    text[i]? = some ' ' := by
  unfold breakAt at h
  cases hl : searchLeft text n with
  | some k => rw [hl] at h; cases h; exact (searchLeft_spec hl).2.1
  | none => rw [hl] at h; exact (searchRight_spec h).2.1

/-- ninja_syntax.py:124-159 the `while` loop of `_line` and the final write:
`lead` is `leading_space`, `contLead` the indentation of continuation lines,
`width` is `self.width`.  `avail` is truncated at 0 where Python's could be
negative; the theorems assume a width for which it is positive. -/
def lineLoop (width : Nat) (contLead : Str) (lead text : Str) : Str :=
  if lead.length + text.length > width then
    match h : breakAt text (width - lead.length - 2) with
    | none => lead ++ text ++ ['\n']
    | some i =>
      lead ++ text.take i ++ c!" $\n" ++ lineLoop width contLead contLead (text.drop (i + 1))
  else lead ++ text ++ ['\n']
termination_by text.length
decreasing_by
  have := breakAt_space h
  have : i < text.length := (List.getElem?_eq_some_iff.mp this).1
  simp [List.length_drop]; omega

/-- ninja_syntax.py:124-159 `_line(text, indent)`. -/
def ninjaLine (width : Nat) (text : Str) (indent : Nat) : Str :=
  lineLoop width (List.replicate (2 * (indent + 2)) ' ') (List.replicate (2 * indent) ' ') text

/-- ninja_syntax.py:31-36 `variable(key, value, indent)`, for a `str` value. -/
def ninjaVariable (width : Nat) (key value : Str) (indent : Nat) : Str :=
  ninjaLine width (key ++ c!" = " ++ value) indent

/-- ninja_syntax.py:31-36 `variable(key, value, indent)`, for a `list` value. -/
def ninjaVariableList (width : Nat) (key : Str) (values : List Str) (indent : Nat) : Str :=
  ninjaVariable width key (joinWith [' '] (values.filter (· ≠ []))) indent

/-- ninja_syntax.py:80-94 the text of a build statement before wrapping (inputs
given as lists). -/
def ninjaBuildText (outputs : List Str) (rule : Str) (inputs implicit orderOnly : List Str) :
    Str :=
  let allInputs := inputs.map escape_path ++
    (if implicit ≠ [] then c!"|" :: implicit.map escape_path else []) ++
    (if orderOnly ≠ [] then c!"||" :: orderOnly.map escape_path else [])
  c!"build " ++ joinWith [' '] (outputs.map escape_path) ++ c!": " ++
    joinWith [' '] (rule :: allInputs)

/-- ninja_syntax.py:74-95 `build(outputs, rule, inputs, implicit, order_only)`
without variables. -/
def ninjaBuild (width : Nat) (outputs : List Str) (rule : Str)
    (inputs implicit orderOnly : List Str) : Str :=
  ninjaLine width (ninjaBuildText outputs rule inputs implicit orderOnly) 0

end Gyp
