import Verif.Basic
/-
How MSBuild and Visual Studio 2008 read a list in a project file (not part of
/repo).
-/
namespace Gyp.Spec

/-- What MSBuild sees in a text: characters that stand for themselves, references
to properties `$(...)`, items `@(...)` and metadata `%(...)`, and wildcards. -/
inductive MsTok where
  | chr (c : Char)
  | wild (c : Char)
  | prop (name : Str)
  | item (name : Str)
  | metadata (name : Str)
deriving DecidableEq

def msHexDigit (c : Char) : Option Nat :=
  if '0' ≤ c ∧ c ≤ '9' then some (c.toNat - 48)
  else if 'A' ≤ c ∧ c ≤ 'F' then some (c.toNat - 55)
  else if 'a' ≤ c ∧ c ≤ 'f' then some (c.toNat - 87)
  else none

/-- The name in a reference: up to the closing parenthesis. -/
def refName (s : Str) : Option (Str × Str) :=
  match s with
  | [] => none
  | c :: cs => if c = ')' then some ([], cs) else (refName cs).map fun p => (c :: p.1, p.2)

theorem refName_len {s a b : Str} (h : refName s = some (a, b)) : b.length < s.length := by
  induction s generalizing a b with
  | nil => simp [refName] at h
  | cons c cs ih =>
    rw [refName] at h
    split at h
    · cases h; simp
    · cases e : refName cs with
      | none => simp [e] at h
      | some p =>
        obtain ⟨x, y⟩ := p
        simp [e] at h
        have := ih e
        simp only [List.length_cons]; rw [← h.2]; omega

/-- `%XX`: the character with that code. -/
def hexPair : Str → Option Char
  | a :: b :: _ =>
    match msHexDigit a, msHexDigit b with
    | some x, some y => some (Char.ofNat (16 * x + y))
    | _, _ => none
  | _ => none

/-- The tokens of a text, and where its list is separated (`none`). -/
def msbuildTokens (s : Str) : List (Option MsTok) :=
  match s with
  | [] => []
  | c :: cs =>
    if c = ';' then none :: msbuildTokens cs
    else if c = '%' ∧ (hexPair cs).isSome then
      ((hexPair cs).map MsTok.chr) :: msbuildTokens (cs.drop 2)
    else if c = '*' ∨ c = '?' then some (.wild c) :: msbuildTokens cs
    else
      match cs with
      | '(' :: rest =>
        if c = '%' ∨ c = '$' ∨ c = '@' then
          match h : refName rest with
          | some (name, after) =>
            have : after.length < (c :: '(' :: rest).length := by
              have := refName_len h; simp; omega
            some (if c = '%' then .metadata name else if c = '$' then .prop name else .item name) ::
              msbuildTokens after
          | none => some (.chr c) :: msbuildTokens ('(' :: rest)
        else some (.chr c) :: msbuildTokens ('(' :: rest)
      | cs => some (.chr c) :: msbuildTokens cs
termination_by s.length
decreasing_by all_goals first | assumption | (simp; done) | (simp; omega)

/-- The words between separators. -/
def tokenWords : List (Option MsTok) → List (List MsTok)
  | [] => [[]]
  | none :: ts => [] :: tokenWords ts
  | some t :: ts =>
    match tokenWords ts with
    | [] => [[t]]
    | w :: ws => (t :: w) :: ws

/-- Blanks at the ends of a word do not count. -/
def trimToks (w : List MsTok) : List MsTok :=
  let blank := fun t => t = MsTok.chr ' ' || t = MsTok.chr '\t' || t = MsTok.chr '\n'
  ((w.dropWhile blank).reverse.dropWhile blank).reverse

/-- The list MSBuild reads: the words between semicolons, without empty ones. -/
def msbuildList (s : Str) : List (List MsTok) :=
  ((tokenWords (msbuildTokens s)).map trimToks).filter (· ≠ [])

/-- A text that stands for itself. -/
def literalWord (s : Str) : List MsTok := s.map .chr

/-- The list Visual Studio 2008 reads: commas and semicolons outside of quotes
separate, every quote opens or closes (backslashes do not matter), quotes stay. -/
def vcprojList (q : Bool) : Str → List Str
  | [] => [[]]
  | c :: cs =>
    if (c = ',' ∨ c = ';') ∧ q = false then [] :: vcprojList q cs
    else
      match vcprojList (if c = '"' then !q else q) cs with
      | [] => [[c]]
      | w :: ws => (c :: w) :: ws

/-- What the compiler makes of a definition on its command line: `%%` is a percent
sign, and `\043` in the literals of C is a number sign. -/
def hashOctal : Str → Str
  | [] => []
  | '\\' :: '0' :: '4' :: '3' :: cs => '#' :: hashOctal cs
  | c :: cs => c :: hashOctal cs

example : msbuildList c!"A%3BB; C=$(x) ;;*%(D)" =
    [literalWord c!"A;B", literalWord c!"C=" ++ [.prop c!"x"], [.wild '*', .metadata c!"D"]] := by
  decide +kernel

example : vcprojList false c!"a\";\"b;c,\"d\"" = [c!"a\";\"b", c!"c", c!"\"d\""] := by decide

end Gyp.Spec
