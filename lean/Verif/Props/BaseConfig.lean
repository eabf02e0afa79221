import Verif.Proofs.BaseConfig
import Verif.Props.Build
/-
C83: where the settings of `configure` come from.
-/
namespace Gyp
open Spec

/-- **C83** (`text`).  A file as Node.js's own `configure` writes it (dictionaries, lists, integers,
texts in single quotes that may go on in the next line, white space and comments in between) is
read as the value it writes. -/
theorem C83_text {parse : Str → Option JVal} (hp : ParsesJson parse) {v : JVal} {text : Str}
    (h : ConfigFile v text) : parseConfigGypi parse text = some v := by
  obtain ⟨g, ts, g', hg, hv, hg', rfl⟩ := h
  have hG : CfgGood false (g ++ (ts ++ g')) := by
    have e : g' = g' ++ [] := by simp
    rw [e]
    exact CfgGood.gap hg (hv.good (CfgGood.gap hg' trivial))
  rw [parseConfigGypi, stripComments_file hG, joinStrings_file hG, replace_file hG]
  apply hp
  have e : (g ++ (ts ++ g')).flatMap jtok = jparts g ++ (jparts ts ++ jparts g') := by
    simp [jparts]
  rw [e]
  have hr := hv.read (n := (jparts g ++ (jparts ts ++ jparts g')).length + 1) (r := jparts g')
    (by have := jparts_length ts; simp; omega)
    (by have := gap_ends hg' (r := []) (by intro c hc; cases hc); simpa using this)
  rw [← readValue_congr (skipBlank_gap hg _)] at hr
  unfold readText
  rw [hr]
  have : skipBlank .json (jparts g') = [] := by
    have := skipBlank_gap hg' []
    rw [List.append_nil] at this
    rw [this]; rfl
  simp [this]

/-- **C83** (`headers`).  With `--nodedir`, `--disturl` or `--dist-url`, and without
`--force-process-config`, the settings are those of the file that comes with the headers. -/
theorem C83_headers {parse : Str → Option JVal} (hp : ParsesJson parse) {E : BaseEnv} {v : JVal} {text : Str}
    (hE : OtherHeaders E) (hf : E.read (E.nodeDir ++ c!"/include/node/config.gypi") = some text)
    (h : ConfigFile v text) : getBaseConfig parse E = v := by
  obtain ⟨h1, h2, h3⟩ := hE
  have : (E.nodedir || E.disturl || E.distUrl) = true := by
    rcases h1 with h | h | h <;> simp [h]
  simp only [getBaseConfig, this, h2, hf, C83_text hp h]
  simp [h3]

/-- **C83** (`own`).  Otherwise they are those of the running Node.js, and no file is read: the
files make no difference. -/
theorem C83_own (parse : Str → Option JVal) {E : BaseEnv} (hE : ¬ OtherHeaders E) (read : Str → Option Str) :
    getBaseConfig parse { E with read := read } = E.processConfig := by
  unfold getBaseConfig
  simp only
  rw [if_neg]
  intro h
  apply hE
  simp only [Bool.and_eq_true, Bool.or_eq_true, Bool.not_eq_true', decide_eq_true_eq, ne_eq] at h
  exact ⟨by rcases h with ⟨⟨(h | h) | h, _⟩, _⟩ <;> simp [h], h.1.2, h.2⟩

/-- **C83** (`missing`).  So they are if the file cannot be read. -/
theorem C83_missing (parse : Str → Option JVal) {E : BaseEnv}
    (hf : E.read (E.nodeDir ++ c!"/include/node/config.gypi") = none) : getBaseConfig parse E = E.processConfig := by
  unfold getBaseConfig
  simp only [hf]
  split <;> rfl

/-- **C83** (`always`).  In every case the settings are those of the running Node.js or what the one
file is read as; no other file makes a difference. -/
theorem C83_always (parse : Str → Option JVal) (E : BaseEnv) :
    getBaseConfig parse E = E.processConfig ∨
      ∃ text, E.read (E.nodeDir ++ c!"/include/node/config.gypi") = some text ∧ OtherHeaders E ∧
        parseConfigGypi parse text = some (getBaseConfig parse E) := by
  by_cases hE : OtherHeaders E
  · cases hf : E.read (E.nodeDir ++ c!"/include/node/config.gypi") with
    | none => exact .inl (C83_missing parse hf)
    | some text =>
      obtain ⟨h1, h2, h3⟩ := hE
      have : (E.nodedir || E.disturl || E.distUrl) = true := by
        rcases h1 with h | h | h <;> simp [h]
      have e : getBaseConfig parse E = (parseConfigGypi parse text).getD E.processConfig := by
        simp only [getBaseConfig, this, h2, hf]
        simp only [Bool.not_false, Bool.and_self, h3, ne_eq, not_false_eq_true, decide_true, if_true]
        cases parseConfigGypi parse text <;> rfl
      cases hq : parseConfigGypi parse text with
      | none => left; rw [e, hq]; rfl
      | some v => right; exact ⟨text, rfl, ⟨h1, h2, h3⟩, by rw [e, hq]; rfl⟩
  · exact .inl (C83_own parse hE E.read)

/-! ### A file -/

/-- The file
```
# Do not edit.
{ 'cflags': [],
  'variables': { 'arch': 'x6'
    '4', # of the machine
  'n': -7}}
```
-/
theorem testFile : ConfigFile
    (.obj [(c!"cflags", .arr []), (c!"variables", .obj [(c!"arch", .str c!"x64"), (c!"n", .num (-7))])])
    (c!"# Do not edit.\n{ 'cflags': [],\n  'variables': { 'arch': 'x6'\n    '4', # of the machine\n  'n': -7}}\n") := by
  have p : ∀ s : Str, (∀ c ∈ s, CfgChar c) → CfgPlain s [] := fun s h => ⟨h, by intro q hq; cases hq⟩
  have sp : CfgGap [.blank ' '] := .blank (.inl rfl) .nil
  have arch : CfgWrites (.str c!"x64") [.str c!"x6" [(c!"\n    ", c!"4")]] :=
    .str (first := c!"x6") (more := [(c!"\n    ", c!"4")])
      ⟨by decide, by
        intro q hq
        obtain rfl : q = (c!"\n    ", c!"4") := by simpa using hq
        exact ⟨⟨.inl rfl, by decide⟩, by decide⟩⟩
  have n := CfgMembers.last (first := c!"n") (parts := [])
    (.blank (.inl rfl) (.comment (t := c!" of the machine") (by decide) (.blank (.inl rfl) sp)))
    (p _ (by decide)) .nil sp (.int (i := -7)) .nil
  have inner := CfgWrites.members (CfgMembers.more (first := c!"arch") (parts := []) sp (p _ (by decide)) .nil sp arch .nil n)
  have vars := CfgMembers.last (first := c!"variables") (parts := [])
    (.blank (c := '\n') (.inr (.inr (.inl rfl))) (.blank (.inl rfl) sp)) (p _ (by decide)) .nil sp inner .nil
  have all := CfgWrites.members (CfgMembers.more (first := c!"cflags") (parts := []) sp (p _ (by decide)) .nil sp
    (.noItems .nil) .nil vars)
  exact ⟨[.comment c!" Do not edit."], _, [.blank '\n'], .comment (by decide) .nil, all,
    .blank (.inr (.inr (.inl rfl))) .nil, by decide⟩

/-- So it is read (with headers in `/h`). -/
example {parse : Str → Option JVal} (hp : ParsesJson parse) (own : JVal) :
    getBaseConfig parse
      { nodedir := true, disturl := false, distUrl := false, forceProcessConfig := false, nodeDir := c!"/h",
        read := fun f => if f = c!"/h/include/node/config.gypi" then some
          c!"# Do not edit.\n{ 'cflags': [],\n  'variables': { 'arch': 'x6'\n    '4', # of the machine\n  'n': -7}}\n" else none,
        processConfig := own } =
      .obj [(c!"cflags", .arr []), (c!"variables", .obj [(c!"arch", .str c!"x64"), (c!"n", .num (-7))])] :=
  C83_headers hp ⟨.inl rfl, rfl, by simp⟩ rfl testFile

/-- There is such a reader. -/
example : ParsesJson (readText .json) := fun _ _ h => h

/-! ### What is not read as it is meant -/

/-- **C83** (witness).  A number sign inside a text is taken for a comment: the whole file is given
up, and the settings of the running Node.js are used for other headers. -/
theorem C83_numberSign : parseConfigGypi (readText .json) c!"{'version': 'b#2'}\n" = none := by
  have : (parseConfigGypi (readText .json) c!"{'version': 'b#2'}\n").isNone = true := by decide +kernel
  simpa using this

/-- **C83** (witness).  So it is with the truth values of Python. -/
theorem C83_truth : parseConfigGypi (readText .json) c!"{'debug': True}\n" = none := by
  have : (parseConfigGypi (readText .json) c!"{'debug': True}\n").isNone = true := by decide +kernel
  simpa using this

/-- **C83** (witness).  So it is with a comma before a closing bracket. -/
theorem C83_comma : parseConfigGypi (readText .json) c!"{'flags': ['-a',]}\n" = none := by
  have : (parseConfigGypi (readText .json) c!"{'flags': ['-a',]}\n").isNone = true := by decide +kernel
  simpa using this

/-- **C83** (witness).  So it is with a text that has an apostrophe, which Python writes in double
quotes. -/
theorem C83_apostrophe : parseConfigGypi (readText .json) c!"{'path': \"/home/o'hara\"}\n" = none := by
  have : (parseConfigGypi (readText .json) c!"{'path': \"/home/o'hara\"}\n").isNone = true := by decide +kernel
  simpa using this

/-- **C83** (witness).  So it is with a text that goes on in the next line, if a blank stands before
the end of the line. -/
theorem C83_blank : parseConfigGypi (readText .json) c!"{'flags': '-a ' \n '-b'}\n" = none := by
  have : (parseConfigGypi (readText .json) c!"{'flags': '-a ' \n '-b'}\n").isNone = true := by decide +kernel
  simpa using this

/-- **C83** (witness).  A protected apostrophe is read as a quotation mark: the value is another one,
without a warning. -/
theorem C83_protected :
    parseConfigGypi (readText .json) c!"{'a': 'it\\'s'}\n" = some (.obj [(c!"a", .str c!"it\"s")]) := by
  have : replaceChar '\'' c!"\"" (joinStrings (stripComments c!"{'a': 'it\\'s'}\n")) = c!"{\"a\": \"it\\\"s\"}\n" := by
    decide +kernel
  rw [parseConfigGypi, this]
  rfl

end Gyp
