import Verif.Model.BaseConfig
import Verif.Spec.Json
import Verif.Spec.Build
/-
The settings Node.js was built with, as its `configure` writes them to `config.gypi`: a Python
literal made of dictionaries, lists, integers and texts in single quotes, with white space and
comments between them; a long text may go on in the next line (not part of /repo).
-/
namespace Gyp.Spec

/-- The parts of the file.  A text has a first piece, and further pieces after breaks. -/
inductive CfgTok where
  | mark (c : Char)
  | int (i : Int)
  | str (first : Str) (more : List (Str × Str))
  | blank (c : Char)
  | comment (text : Str)

/-- A text in quotes, with its breaks. -/
def quotedText (first : Str) (more : List (Str × Str)) : Str :=
  c!"'" ++ first ++ c!"'" ++ more.flatMap fun p => p.1 ++ c!"'" ++ p.2 ++ c!"'"

/-- The text of a part. -/
def CfgTok.text : CfgTok → Str
  | .mark c => [c]
  | .int i => intStr i
  | .str first more => quotedText first more
  | .blank c => [c]
  | .comment t => c!"#" ++ t ++ c!"\n"

/-- The text of the file. -/
def cfgText (ts : List CfgTok) : Str := ts.flatMap CfgTok.text

/-- White space. -/
def BlankChar (c : Char) : Prop := c = ' ' ∨ c = '\t' ∨ c = '\n' ∨ c = '\r'

instance (c : Char) : Decidable (BlankChar c) := by unfold BlankChar; infer_instance

/-- A character that needs no protection in a text, and is no number sign. -/
def CfgChar (c : Char) : Prop :=
  c ≠ '\'' ∧ c ≠ '"' ∧ c ≠ '\\' ∧ c ≠ '#' ∧ 32 ≤ c.toNat ∧ c.toNat ≠ 0x2028 ∧ c.toNat ≠ 0x2029

instance (c : Char) : Decidable (CfgChar c) := by unfold CfgChar; infer_instance

/-- The break before the next piece of a text: it begins with the end of the line. -/
def CfgBreak (b : Str) : Prop := (b.head? = some '\n' ∨ b.head? = some '\r') ∧ ∀ c ∈ b, BlankChar c

/-- A character that does not end the line. -/
def LineChar (c : Char) : Prop := c ≠ '\n' ∧ c ≠ '\r' ∧ c.toNat ≠ 0x2028 ∧ c.toNat ≠ 0x2029

instance (c : Char) : Decidable (LineChar c) := by unfold LineChar; infer_instance

/-- White space and comments. -/
inductive CfgGap : List CfgTok → Prop where
  | nil : CfgGap []
  | blank {c ts} : BlankChar c → CfgGap ts → CfgGap (.blank c :: ts)
  | comment {t ts} : (∀ c ∈ t, LineChar c) → CfgGap ts → CfgGap (.comment t :: ts)

/-- The pieces of a text are plain, and its breaks are breaks. -/
def CfgPlain (first : Str) (more : List (Str × Str)) : Prop :=
  (∀ c ∈ first, CfgChar c) ∧ ∀ p ∈ more, CfgBreak p.1 ∧ ∀ c ∈ p.2, CfgChar c

mutual
/-- The parts write the value. -/
inductive CfgWrites : JVal → List CfgTok → Prop where
  | int {i} : CfgWrites (.num i) [.int i]
  | str {first more} : CfgPlain first more →
      CfgWrites (.str (first ++ (more.map Prod.snd).flatten)) [.str first more]
  | noItems {g} : CfgGap g → CfgWrites (.arr []) (.mark '[' :: (g ++ [.mark ']']))
  | items {l ts} : CfgItems l ts → CfgWrites (.arr l) (.mark '[' :: ts)
  | noMembers {g} : CfgGap g → CfgWrites (.obj []) (.mark '{' :: (g ++ [.mark '}']))
  | members {l ts} : CfgMembers l ts → CfgWrites (.obj l) (.mark '{' :: ts)
/-- The parts write the items of a list, up to the bracket that closes it. -/
inductive CfgItems : List JVal → List CfgTok → Prop where
  | last {g v ts g'} : CfgGap g → CfgWrites v ts → CfgGap g' →
      CfgItems [v] (g ++ (ts ++ (g' ++ [.mark ']'])))
  | more {g v ts g' l us} : CfgGap g → CfgWrites v ts → CfgGap g' → CfgItems l us →
      CfgItems (v :: l) (g ++ (ts ++ (g' ++ .mark ',' :: us)))
/-- The parts write the members of a dictionary, up to the bracket that closes it. -/
inductive CfgMembers : List (Str × JVal) → List CfgTok → Prop where
  | last {g first parts g1 g2 v ts g'} : CfgGap g → CfgPlain first parts → CfgGap g1 → CfgGap g2 →
      CfgWrites v ts → CfgGap g' →
      CfgMembers [(first ++ (parts.map Prod.snd).flatten, v)]
        (g ++ .str first parts :: (g1 ++ .mark ':' :: (g2 ++ (ts ++ (g' ++ [.mark '}'])))))
  | more {g first parts g1 g2 v ts g' l us} : CfgGap g → CfgPlain first parts → CfgGap g1 → CfgGap g2 →
      CfgWrites v ts → CfgGap g' → CfgMembers l us →
      CfgMembers ((first ++ (parts.map Prod.snd).flatten, v) :: l)
        (g ++ .str first parts :: (g1 ++ .mark ':' :: (g2 ++ (ts ++ (g' ++ .mark ',' :: us)))))
end

/-- The text is a file with the value. -/
def ConfigFile (v : JVal) (text : Str) : Prop :=
  ∃ g ts g', CfgGap g ∧ CfgWrites v ts ∧ CfgGap g' ∧ text = cfgText (g ++ (ts ++ g'))

/-- The settings of other headers are asked for. -/
def OtherHeaders (E : BaseEnv) : Prop :=
  (E.nodedir = true ∨ E.disturl = true ∨ E.distUrl = true) ∧ E.forceProcessConfig = false ∧ E.nodeDir ≠ []

end Gyp.Spec
