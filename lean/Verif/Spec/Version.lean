import Verif.Model.Version
/-
The order of versions and how they are written (PEP 440), for properties C44 and C45.
-/
namespace Gyp.Spec

/-! ### Order -/

/-- A component of a release; missing ones are zero. -/
def component (r : List Nat) (i : Nat) : Nat := r.getD i 0

/-- The same release: `1.0` and `1`. -/
def SameRelease (a b : List Nat) : Prop := ∀ i, component a i = component b i

/-- The first component that differs decides. -/
def ReleaseBefore (a b : List Nat) : Prop :=
  ∃ i, (∀ j < i, component a j = component b j) ∧ component a i < component b i

/-- Alpha, beta, release candidate. -/
def LetterBefore (l m : Str) : Prop :=
  l = c!"a" ∧ m = c!"b" ∨ l = c!"a" ∧ m = c!"rc" ∨ l = c!"b" ∧ m = c!"rc"

/-- A development release of the release itself, not of a pre- or post-release. -/
def OnlyDev (v : Ver) : Prop := v.pre = none ∧ v.post = none ∧ v.dev ≠ none

/-- Development releases, then pre-releases by letter and number, then the rest. -/
inductive PreBefore (v w : Ver) : Prop
  | dev : OnlyDev v → ¬ OnlyDev w → PreBefore v w
  | pre {p : Str × Nat} : v.pre = some p → w.pre = none → ¬ OnlyDev w → PreBefore v w
  | letter {l m : Str} {i j : Nat} : v.pre = some (l, i) → w.pre = some (m, j) → LetterBefore l m →
    PreBefore v w
  | number {l : Str} {i j : Nat} : v.pre = some (l, i) → w.pre = some (l, j) → i < j → PreBefore v w

/-- The same stage. -/
def SamePre (v w : Ver) : Prop := v.pre = w.pre ∧ (OnlyDev v ↔ OnlyDev w)

/-- Post-releases come after, by number. -/
inductive PostBefore (v w : Ver) : Prop
  | post {p : Str × Nat} : v.post = none → w.post = some p → PostBefore v w
  | number {l m : Str} {i j : Nat} : v.post = some (l, i) → w.post = some (m, j) → i < j → PostBefore v w

/-- Development releases come before, by number. -/
inductive DevBefore (v w : Ver) : Prop
  | dev {p : Str × Nat} : v.dev = some p → w.dev = none → DevBefore v w
  | number {l m : Str} {i j : Nat} : v.dev = some (l, i) → w.dev = some (m, j) → i < j → DevBefore v w

/-- At the first place of difference `R` decides; a proper prefix comes first. -/
def LexBefore {α : Type} (R : α → α → Prop) (l m : List α) : Prop :=
  (∃ y t, m = l ++ y :: t) ∨ ∃ c x y s t, l = c ++ x :: s ∧ m = c ++ y :: t ∧ R x y

/-- Parts of a local version: words before numbers. -/
inductive PartBefore : LocalPart → LocalPart → Prop
  | words {s t : Str} : LexBefore (fun a b : Char => a.toNat < b.toNat) s t → PartBefore (.text s) (.text t)
  | mixed {s : Str} {n : Nat} : PartBefore (.text s) (.num n)
  | numbers {n m : Nat} : n < m → PartBefore (.num n) (.num m)

/-- Local versions come after the version itself, part by part. -/
inductive LocalBefore (v w : Ver) : Prop
  | loc {l : List LocalPart} : v.loc = none → w.loc = some l → LocalBefore v w
  | parts {l m : List LocalPart} : v.loc = some l → w.loc = some m → LexBefore PartBefore l m →
    LocalBefore v w

/-- The order of versions: epoch, release, stage, post, dev, local. -/
def EarlierThan (v w : Ver) : Prop :=
  v.epoch < w.epoch ∨ v.epoch = w.epoch ∧
  (ReleaseBefore v.release w.release ∨ SameRelease v.release w.release ∧
  (PreBefore v w ∨ SamePre v w ∧
  (PostBefore v w ∨ v.post = w.post ∧
  (DevBefore v w ∨ v.dev = w.dev ∧ LocalBefore v w))))

/-- The same version, up to zeros at the end of the release. -/
def SameVersion (v w : Ver) : Prop :=
  v.epoch = w.epoch ∧ SameRelease v.release w.release ∧ v.pre = w.pre ∧ v.post = w.post ∧
  v.dev = w.dev ∧ v.loc = w.loc

/-- A part of a local version: a number or a word in small letters and digits, not all digits. -/
def ValidPart : LocalPart → Prop
  | .num _ => True
  | .text s => (∀ c ∈ s, 'a' ≤ c ∧ c ≤ 'z' ∨ '0' ≤ c ∧ c ≤ '9') ∧ ∃ c ∈ s, 'a' ≤ c ∧ c ≤ 'z'

/-- A version with the letters in their normal form. -/
structure ValidVersion (v : Ver) : Prop where
  release : v.release ≠ []
  pre : ∀ l n, v.pre = some (l, n) → l = c!"a" ∨ l = c!"b" ∨ l = c!"rc"
  post : ∀ l n, v.post = some (l, n) → l = c!"post"
  dev : ∀ l n, v.dev = some (l, n) → l = c!"dev"
  loc : ∀ l, v.loc = some l → l ≠ [] ∧ ∀ p ∈ l, ValidPart p

/-! ### Text -/

/-- Decimal digits with a value; zeros in front do not matter. -/
def Digits (d : Str) (n : Nat) : Prop :=
  d ≠ [] ∧ (∀ c ∈ d, '0' ≤ c ∧ c ≤ '9') ∧ digitsVal d = n

/-- An optional separator. -/
def Separator (s : Str) : Prop := s = [] ∨ s = c!"-" ∨ s = c!"_" ∨ s = c!"."

/-- A word in any mixture of small and capital ASCII letters. -/
def Spelled (w s : Str) : Prop := List.Forall₂ (fun p c => c = p ∨ c = p.toUpper) w s

/-- The words for the stages before a release, and what they mean. -/
def preNames : List (Str × Str) :=
  [(c!"alpha", c!"a"), (c!"a", c!"a"), (c!"beta", c!"b"), (c!"b", c!"b"), (c!"preview", c!"rc"),
   (c!"pre", c!"rc"), (c!"c", c!"rc"), (c!"rc", c!"rc")]

/-- The words for post-releases. -/
def postNames : List (Str × Str) := [(c!"post", c!"post"), (c!"rev", c!"post"), (c!"r", c!"post")]

/-- The word for development releases. -/
def devNames : List (Str × Str) := [(c!"dev", c!"dev")]

/-- A word with a number (zero if it is left out), separators around the word; `bare`: there
is nothing after the word. -/
def Tag (names : List (Str × Str)) (s : Str) (l : Str) (n : Nat) (bare : Prop) : Prop :=
  ∃ s1 w name s2 d, s = s1 ++ w ++ s2 ++ d ∧ Separator s1 ∧ (name, l) ∈ names ∧ Spelled name w ∧
    Separator s2 ∧ (d = [] ∧ n = 0 ∨ Digits d n) ∧ (bare ↔ s2 = [] ∧ d = [])

/-- Nothing or a tag. -/
def OptTag (names : List (Str × Str)) (s : Str) (x : Option (Str × Nat)) (bare : Prop) : Prop :=
  s = [] ∧ x = none ∧ ¬ bare ∨ ∃ l n, x = some (l, n) ∧ Tag names s l n bare

/-- A post-release: `-1`, or a tag. -/
def PostText (s : Str) (x : Option (Str × Nat)) (implicit : Prop) : Prop :=
  (∃ d n, s = '-' :: d ∧ Digits d n ∧ x = some (c!"post", n) ∧ implicit) ∨
  (¬ implicit ∧ ∃ bare, OptTag postNames s x bare)

/-- Numbers separated by dots. -/
inductive ReleaseText : Str → List Nat → Prop
  | one {d : Str} {n : Nat} : Digits d n → ReleaseText d [n]
  | more {d s : Str} {n : Nat} {r : List Nat} : Digits d n → ReleaseText s r →
    ReleaseText (d ++ '.' :: s) (n :: r)

/-- An ASCII letter or digit. -/
def AlnumChar (c : Char) : Prop := 'a' ≤ c ∧ c ≤ 'z' ∨ 'A' ≤ c ∧ c ≤ 'Z' ∨ '0' ≤ c ∧ c ≤ '9'

/-- One part of a local version: a number, or a word that is not all digits. -/
def PartText (s : Str) : LocalPart → Prop
  | .num n => Digits s n
  | .text t => (∀ c ∈ s, AlnumChar c) ∧ (∃ c ∈ s, ¬ ('0' ≤ c ∧ c ≤ '9')) ∧ t = s.map Char.toLower

/-- Parts with separators. -/
inductive PartsText : Str → List LocalPart → Prop
  | one {s : Str} {p : LocalPart} : PartText s p → PartsText s [p]
  | more {s t : Str} {c : Char} {p : LocalPart} {l : List LocalPart} : PartText s p →
    (c = '-' ∨ c = '_' ∨ c = '.') → PartsText t l → PartsText (s ++ c :: t) (p :: l)

/-- A version as it may be written.  After a bare word for a pre-release, `-1` is its number and
not a post-release. -/
structure Written (s : Str) (v : Ver) : Prop where
  pieces : ∃ w1 vv e r p po d l w2 bare implicit bare',
    s = w1 ++ vv ++ e ++ r ++ p ++ po ++ d ++ l ++ w2 ∧
    (∀ c ∈ w1, pySpace c = true) ∧ (∀ c ∈ w2, pySpace c = true) ∧
    (vv = [] ∨ vv = c!"v" ∨ vv = c!"V") ∧
    (e = [] ∧ v.epoch = 0 ∨ ∃ x, e = x ++ c!"!" ∧ Digits x v.epoch) ∧
    ReleaseText r v.release ∧ OptTag preNames p v.pre bare ∧ PostText po v.post implicit ∧
    ¬ (bare ∧ implicit) ∧ OptTag devNames d v.dev bare' ∧
    (l = [] ∧ v.loc = none ∨ ∃ x ps, l = '+' :: x ∧ v.loc = some ps ∧ PartsText x ps)

end Gyp.Spec
