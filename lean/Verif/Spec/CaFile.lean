import Verif.Basic
/-
What a file with certificates holds.
-/
namespace Gyp.Spec

/-- The line a certificate begins with, and the one it ends with. -/
def beginMark : Str := c!"-----BEGIN CERTIFICATE-----"
def endMark : Str := c!"-----END CERTIFICATE-----"

/-- A certificate: the two marks and a text between them; the end mark is not found before its end. -/
def IsCert (c : Str) : Prop :=
  ∃ body, c = beginMark ++ body ++ endMark ∧ ∀ a b, body ++ endMark = a ++ endMark ++ b → b = []

/-- The text has no certificate: after no begin mark is there an end mark. -/
def NoCert (s : Str) : Prop := ∀ a b c, s ≠ a ++ beginMark ++ b ++ endMark ++ c

/-- The text is the certificates, in this order, with other texts before, between and after them. -/
inductive Holds : Str → List Str → Prop
  | last (gap : Str) : NoCert gap → Holds gap []
  | cert (gap c rest : Str) (cs : List Str) : IsCert c →
      (∀ a b, gap ++ c ++ rest = a ++ beginMark ++ b → gap.length ≤ a.length) →
      Holds rest cs → Holds (gap ++ c ++ rest) (c :: cs)

end Gyp.Spec
