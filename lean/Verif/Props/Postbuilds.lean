import Verif.Proofs.Postbuilds
import Verif.Proofs.Ninja
import Verif.Proofs.LoadAll
import Verif.Proofs.Pbx
/-
C106: what runs after a target is linked on macOS.
-/
namespace Gyp
open Gyp.Spec

theorem xTest_other {s : XSettings} {key value default : Str} (h : default ≠ value) :
    (xTest s key value default = true) = SettingSays s key value := by
  unfold xTest SettingSays
  cases aget s key with
  | none => simp [h]
  | some v => simp

theorem xTest_default {s : XSettings} {key value : Str} :
    (xTest s key value value = true) = (aget s key = none ∨ SettingSays s key value) := by
  unfold xTest SettingSays
  cases aget s key with
  | none => simp
  | some v => simp

theorem symbols_iff {s : XSettings} {type : Str} :
    (xTest s c!"GCC_GENERATE_DEBUGGING_SYMBOLS" c!"YES" c!"YES" = true ∧
      xTest s c!"DEBUG_INFORMATION_FORMAT" c!"dwarf-with-dsym" c!"dwarf" = true ∧ type ≠ c!"static_library") ↔
      WantsSymbols s type := by
  rw [xTest_default, xTest_other (by decide)]
  exact Iff.rfl

theorem strip_iff {s : XSettings} :
    (xTest s c!"DEPLOYMENT_POSTPROCESSING" c!"YES" c!"NO" = true ∧
      xTest s c!"STRIP_INSTALLED_PRODUCT" c!"YES" c!"NO" = true) ↔ WantsStrip s := by
  rw [xTest_other (by decide), xTest_other (by decide)]
  exact Iff.rfl

theorem stripFlag_style {style : Str} {ws : List Str} (h : styleWords style = some ws) :
    ∃ flag, stripStyleFlag style = some flag ∧ Bit flag ws := by
  unfold styleWords at h
  split at h
  · injection h with h
    exact ⟨[], by decide, h ▸ bit_nil⟩
  · injection h with h
    exact ⟨c!"-x", by decide, h ▸ bit_plain (by unfold PlainWord; decide)⟩
  · injection h with h
    exact ⟨c!"-S", by decide, h ▸ bit_plain (by unfold PlainWord; decide)⟩
  · cases h

theorem styleFlag_none {style : Str} (h : styleWords style = none) : stripStyleFlag style = none := by
  unfold stripStyleFlag
  have h1 : style ≠ c!"all" := by rintro rfl; revert h; decide
  have h2 : style ≠ c!"non-global" := by rintro rfl; revert h; decide
  have h3 : style ≠ c!"debugging" := by rintro rfl; revert h; decide
  simp [aget, Ne.symm h1, Ne.symm h2, Ne.symm h3]

theorem style_wanted (t : PbTarget) (s : XSettings) (h : ∀ l, aget s c!"STRIP_STYLE" ≠ some (.list l)) :
    (aget s c!"STRIP_STYLE").getD (.text (defaultStripStyle t)) =
      .text (wantedStyle t.type t.bundle t.appExtension s) := by
  unfold wantedStyle
  cases e : aget s c!"STRIP_STYLE" with
  | none =>
    simp only [Option.getD_none, defaultStripStyle]
    congr 1
    by_cases h1 : t.bundle = true <;> simp [h1]
  | some v =>
    cases v with
    | text x => rfl
    | list l => exact absurd e (h l)

theorem dollar_join {l : List Str} (h : ∀ w ∈ l, PlainWord w) : '$' ∉ joinWith [' '] l := by
  intro hm
  rcases mem_joinedTexts hm with h1 | ⟨w, hw, h1⟩
  · exact absurd h1 (by decide)
  · exact (bit_plain (h w hw)).chars _ h1 (by decide)

/-- The flags of `strip`, as they are written. -/
theorem flags_bits {t : PbTarget} {s : XSettings} (ok : PlainStrip t.type t.bundle t.appExtension s) {flags : List Str}
    (hf : wantedFlags t.type t.bundle t.appExtension s = some flags) :
    ∃ text l xs, stripFlags t s = some text ∧ Bits l xs ∧ l ≠ [] ∧ text = joinWith [' '] l ∧ xs.flatten = flags := by
  obtain ⟨ws, hws, rfl⟩ : ∃ ws, styleWords (wantedStyle t.type t.bundle t.appExtension s) = some ws ∧
      ws ++ extraWords s = flags := by
    unfold wantedFlags at hf
    cases e : styleWords (wantedStyle t.type t.bundle t.appExtension s) with
    | none => rw [e] at hf; cases hf
    | some ws =>
      rw [e] at hf
      injection hf with hf
      exact ⟨ws, rfl, hf⟩
  obtain ⟨flag, h1, h2⟩ := stripFlag_style hws
  unfold stripFlags
  rw [style_wanted t s ok.style]
  simp only [h1]
  have hx := ok.extra
  unfold extraWords at hx ⊢
  cases e : aget s c!"STRIPFLAGS" with
  | none => exact ⟨flag, [flag], [ws], rfl, .cons h2 .nil, by simp, rfl, by simp⟩
  | some v =>
    cases v with
    | list l => exact absurd e (ok.given l)
    | text x =>
      rw [e] at hx
      by_cases hne : x = []
      · simp only [hne, if_true]
        exact ⟨flag, [flag], [ws], rfl, .cons h2 .nil, by simp, rfl, by simp⟩
      · simp only [hne, if_false] at hx ⊢
        have hj : joinWith [' '] (splitOn ' ' x) = x := joinWith_splitOn
        refine ⟨_, flag :: splitOn ' ' x, ws :: (splitOn ' ' x).map ([·]), rfl, .cons h2 (bits_plain hx), by simp, ?_, ?_⟩
        · rw [normalizeRefs_plain (by rw [← hj]; exact dollar_join hx)]
          cases e2 : splitOn ' ' x with
          | nil => exact absurd e2 splitOn_ne_nil
          | cons a b =>
            show _ = flag ++ [' '] ++ joinWith [' '] (a :: b)
            rw [← e2, hj]
        · rw [List.flatten_cons]
          congr 1
          generalize splitOn ' ' x = l
          induction l with
          | nil => rfl
          | cons a b ih => simpa using ih

theorem joinWith_blank {a : Str} {l : List Str} (h : l ≠ []) : joinWith [' '] (a :: l) = a ++ [' '] ++ joinWith [' '] l := by
  cases l with
  | nil => exact absurd rfl h
  | cons b l => rfl

theorem joinBlank_snoc {a : Str} {l : List Str} (h : l ≠ []) : joinWith [' '] (l ++ [a]) = joinWith [' '] l ++ [' '] ++ a := by
  induction l with
  | nil => exact absurd rfl h
  | cons b l ih =>
    cases l with
    | nil => rfl
    | cons d l =>
      have h1 := ih (by simp)
      rw [List.cons_append, joinWith_blank (l := d :: l ++ [a]) (by simp), h1, joinWith_blank (l := d :: l) (by simp)]
      simp only [List.append_assoc]

/-- The commands for symbols and stripping, as they are written. -/
theorem implicit_spelled {t : PbTarget} {s : XSettings} (ok : PlainStrip t.type t.bundle t.appExtension s)
    {output binary : Str} (hn : PlainWord t.name) (ho : PlainWord output) (hb : PlainWord binary) (quiet : Bool)
    {flags : List Str} (hf : wantedFlags t.type t.bundle t.appExtension s = some flags) :
    ∃ cmds, targetPostbuilds t s output binary quiet = some cmds ∧
      List.Forall₂ Spelled cmds (wantedCommands quiet t.name t.type s output binary flags) := by
  have hdsym : PlainWord (output ++ c!".dSYM") := by
    refine ⟨by simp, fun c hc => ?_⟩
    rcases List.mem_append.mp hc with hc | hc
    · exact ho.2 c hc
    · exact (by decide : ∀ c ∈ c!".dSYM", activePlain c = false ∧ c ∉ [' ', '\t', '\\', '\'', '"']) c hc
  have hdebug : List.Forall₂ Spelled (debugPostbuilds t s output binary quiet)
      (if WantsSymbols s t.type then
        announce quiet c!"DSYMUTIL" t.name ++ [[c!"dsymutil", binary, c!"-o", output ++ c!".dSYM"]] else []) := by
    have hone : Spelled (c!"dsymutil " ++ binary ++ c!" -o " ++ (output ++ c!".dSYM"))
        [c!"dsymutil", binary, c!"-o", output ++ c!".dSYM"] := by
      refine ⟨[c!"dsymutil", binary, c!"-o", output ++ c!".dSYM"], _, bits_plain ?_, by simp [joinWith], rfl⟩
      intro w hw
      simp only [List.mem_cons, List.not_mem_nil, or_false] at hw
      rcases hw with rfl | rfl | rfl | rfl
      · unfold PlainWord; decide
      · exact hb
      · unfold PlainWord; decide
      · exact hdsym
    unfold debugPostbuilds
    by_cases hw : WantsSymbols s t.type
    · rw [if_pos (symbols_iff.mpr hw), if_pos hw]
      refine List.rel_append ?_ (.cons hone .nil)
      cases quiet with
      | true => exact .nil
      | false => exact .cons (spelled_announce (what := c!"DSYMUTIL") (by decide) (by decide) hn) .nil
    · rw [if_neg (fun h => hw (symbols_iff.mp h)), if_neg hw]
      exact .nil
  obtain ⟨text, l, xs, h1, h2, h3, rfl, rfl⟩ := flags_bits ok hf
  have hstrip : ∃ cs, stripPostbuilds t s binary quiet = some cs ∧ List.Forall₂ Spelled cs
      (if WantsStrip s then announce quiet c!"STRIP" t.name ++ [[c!"strip"] ++ xs.flatten ++ [binary]] else []) := by
    unfold stripPostbuilds
    by_cases hw : WantsStrip s
    · rw [if_pos (strip_iff.mpr hw), if_pos hw, h1]
      refine ⟨_, rfl, List.rel_append ?_ (.cons ?_ .nil)⟩
      · cases quiet with
        | true => exact .nil
        | false => exact .cons (spelled_announce (what := c!"STRIP") (by decide) (by decide) hn) .nil
      · refine ⟨c!"strip" :: (l ++ [binary]), [c!"strip"] :: (xs ++ [[binary]]),
          .cons (bit_plain (by unfold PlainWord; decide)) (h2.append (.cons (bit_plain hb) .nil)), ?_, by simp⟩
        rw [joinWith_blank (by simp), joinBlank_snoc h3]
        simp
    · rw [if_neg (fun h => hw (strip_iff.mp h)), if_neg hw]
      exact ⟨[], rfl, .nil⟩
  obtain ⟨cs, h4, h5⟩ := hstrip
  refine ⟨debugPostbuilds t s output binary quiet ++ cs, by simp [targetPostbuilds, h4], ?_⟩
  exact List.rel_append hdebug h5

/-- A target for which nothing is signed. -/
def NotSigned (t : PbTarget) : Prop := t.ios = false ∧ t.iosFramework = false

theorem notSigned_ios {repr : List Str → Str} {t : PbTarget} (h : NotSigned t) (m : PbMachine) (s : XSettings) :
    iosPostbuilds repr t m s = some [] := by
  unfold iosPostbuilds
  rw [if_pos]
  simp [h.1, h.2]

/-- C106: what runs before the commands of the target.  `dsymutil` runs exactly when symbols are wanted in
their own file, `strip` exactly when the product is to be stripped, with the flags of the style, and never
before `dsymutil`, which would find nothing; both by a shell and by `eval`. -/
theorem C106_symbols_and_strip (repr : List Str → Str) (t : PbTarget) (m : PbMachine) (s : XSettings)
    (output binary : Str) (own : List Str) (quiet : Bool) (flags : List Str) (hsign : NotSigned t)
    (ok : PlainStrip t.type t.bundle t.appExtension s)
    (hn : PlainWord t.name) (ho : PlainWord output) (hb : PlainWord binary)
    (hf : wantedFlags t.type t.bundle t.appExtension s = some flags) :
    ∃ cmds, addImplicitPostbuilds repr t m s output binary own quiet = some (cmds ++ own) ∧
      cmds.map shellWords = (wantedCommands quiet t.name t.type s output binary flags).map some ∧
      cmds.map evalWords = (wantedCommands quiet t.name t.type s output binary flags).map some := by
  obtain ⟨cmds, h1, h2⟩ := implicit_spelled ok hn ho hb quiet hf
  refine ⟨cmds, by simp [addImplicitPostbuilds, h1, notSigned_ios hsign], ?_, ?_⟩
  · clear h1
    generalize wantedCommands quiet t.name t.type s output binary flags = ws at h2
    induction h2 with
    | nil => rfl
    | cons h _ ih => simp [h.words, ih]
  · clear h1
    generalize wantedCommands quiet t.name t.type s output binary flags = ws at h2
    induction h2 with
    | nil => rfl
    | cons h _ ih => simp [h.eval, ih]

/-- C106: a style that is not known is an error where something is to be stripped. -/
theorem C106_unknown_style (repr : List Str → Str) (t : PbTarget) (m : PbMachine) (s : XSettings)
    (output binary : Str) (own : List Str) (quiet : Bool) (hs : WantsStrip s) (x : Str)
    (hx : SettingSays s c!"STRIP_STYLE" x) (hu : x ∉ [c!"all", c!"non-global", c!"debugging"]) :
    addImplicitPostbuilds repr t m s output binary own quiet = none := by
  have h1 : stripStyleFlag x = none := by
    unfold stripStyleFlag
    simp only [List.mem_cons, List.not_mem_nil, or_false, not_or] at hu
    simp [aget, Ne.symm hu.1, Ne.symm hu.2.1, Ne.symm hu.2.2]
  have h2 : stripFlags t s = none := by
    unfold stripFlags
    unfold SettingSays at hx
    rw [hx]
    simp [h1]
  have h3 : stripPostbuilds t s binary quiet = none := by
    unfold stripPostbuilds
    rw [if_pos (strip_iff.mpr hs), h2]
  simp [addImplicitPostbuilds, targetPostbuilds, h3]

example : ∃ cmds, addImplicitPostbuilds (fun _ => [])
      ⟨c!"app", c!"executable", false, false, false, false, false, c!"app", []⟩ ⟨[], fun _ => [], []⟩
      [(c!"DEBUG_INFORMATION_FORMAT", .text c!"dwarf-with-dsym"), (c!"DEPLOYMENT_POSTPROCESSING", .text c!"YES"),
        (c!"STRIP_INSTALLED_PRODUCT", .text c!"YES"), (c!"STRIPFLAGS", .text c!"-r -u")]
      c!"out/app" c!"out/app" [c!"true"] false = some (cmds ++ [c!"true"]) ∧
    cmds.map evalWords = [some [c!"echo", c!"DSYMUTIL(app)"], some [c!"dsymutil", c!"out/app", c!"-o", c!"out/app.dSYM"],
      some [c!"echo", c!"STRIP(app)"], some [c!"strip", c!"-r", c!"-u", c!"out/app"]] := by
  obtain ⟨cmds, h1, -, h3⟩ := C106_symbols_and_strip (fun _ => [])
    ⟨c!"app", c!"executable", false, false, false, false, false, c!"app", []⟩ ⟨[], fun _ => [], []⟩
      [(c!"DEBUG_INFORMATION_FORMAT", .text c!"dwarf-with-dsym"), (c!"DEPLOYMENT_POSTPROCESSING", .text c!"YES"),
        (c!"STRIP_INSTALLED_PRODUCT", .text c!"YES"), (c!"STRIPFLAGS", .text c!"-r -u")]
      c!"out/app" c!"out/app" [c!"true"] false [c!"-r", c!"-u"] ⟨rfl, rfl⟩
      ⟨⟨[c!"-r", c!"-u"], by decide⟩, by unfold PlainWord; decide, by simp [aget], by simp [aget]⟩
      (by unfold PlainWord; decide) (by unfold PlainWord; decide) (by unfold PlainWord; decide) (by decide)
  exact ⟨cmds, h1, h3.trans (by decide)⟩

example : addImplicitPostbuilds (fun _ => [])
      ⟨c!"app", c!"executable", false, false, false, false, false, c!"app", []⟩ ⟨[], fun _ => [], []⟩
      [(c!"DEPLOYMENT_POSTPROCESSING", .text c!"YES"), (c!"STRIP_INSTALLED_PRODUCT", .text c!"YES"),
        (c!"STRIP_STYLE", .text c!"none")] c!"out/app" c!"out/app" [] false = none :=
  C106_unknown_style _ _ _ _ _ _ _ _ (by decide) c!"none" (by decide) (by decide)

/-! ### Makefiles -/

theorem words_joined₂ {l : List Str} {xs : List (List Str)} (h : List.Forall₂ (fun s x => shellWords s = some x) l xs) :
    shellWords (joinWith [' '] l) = some xs.flatten := by
  induction h with
  | nil => rfl
  | @cons s x l xs h hl ih =>
    cases hl with
    | nil => simpa [joinWith] using h
    | cons h2 hl2 =>
      have := words_append h ih
      rw [List.flatten_cons, ← this]
      show shellWords (s ++ [' '] ++ joinWith [' '] _) = _
      rw [List.append_assoc]
      rfl

theorem deep_joined₂ {env : Str → Str} {l ys : List Str} (h : List.Forall₂ (fun s y => deep env s = some y) l ys) :
    deep env (joinWith [' '] l) = some (joinWith [' '] ys) := by
  induction h with
  | nil => rfl
  | @cons s y l ys h hl ih =>
    cases hl with
    | nil => simpa [joinWith] using h
    | cons h2 hl2 =>
      show deep env (s ++ [' '] ++ joinWith [' '] _) = some (y ++ [' '] ++ joinWith [' '] _)
      exact deep_append (deep_append h (deep_plain env (by decide))) ih

theorem last_joined {P : Char → Prop} {l : List Str} (hne : l ≠ []) (h : ∀ s ∈ l, ∃ w d, s = w ++ [d] ∧ P d) :
    ∃ w d, joinWith [' '] l = w ++ [d] ∧ P d := by
  induction l with
  | nil => exact absurd rfl hne
  | cons s l ih =>
    cases l with
    | nil => exact h s (by simp)
    | cons b l =>
      obtain ⟨w, d, e, hd⟩ := ih (by simp) fun x hx => h x (by simp [hx])
      exact ⟨s ++ [' '] ++ w, d, by rw [joinWith_blank (by simp), e]; simp, hd⟩

theorem quoted_chars {s : Str} {c : Char} (h : c ∈ makeEscapeShellArgument s) : c ∈ s ∨ c = '\'' ∨ c = '\\' := by
  unfold makeEscapeShellArgument replaceChar at h
  simp only [List.mem_append, List.mem_singleton] at h
  rcases h with (h | h) | h
  · exact .inr (.inl h)
  · obtain ⟨d, hd, hc⟩ := List.mem_flatMap.mp h
    split at hc
    · simp only [List.mem_cons, List.not_mem_nil, or_false] at hc
      tauto
    · rw [List.mem_singleton.mp hc]
      exact .inl hd
  · exact .inr (.inl h)

theorem quotePostbuild_plain {s : Str} (h : MakeTakes s) : quotePostbuild s = makeEscapeShellArgument s := by
  unfold quotePostbuild
  rw [if_neg]
  cases s with
  | nil => decide
  | cons c s =>
    have := h c (by simp)
    simp only [List.mem_cons, List.not_mem_nil, or_false, not_or] at this
    simp [startsWith, Ne.symm this.1]

/-- The commands of the target, as they are written. -/
theorem own_read {t : PbTarget} (hn : PlainWord t.name)
    (hp : ∀ p ∈ t.postbuilds, (∀ w ∈ splitOn ' ' p.1, PlainWord w) ∧ p.2 ≠ [] ∧ ∀ a ∈ p.2, EvalArg a) :
    List.Forall₂ (fun c ws => evalWords c = some ws ∧ MakeTakes c) (specPostbuildCommands t false)
      (ownCommands false t.name t.postbuilds) := by
  unfold specPostbuildCommands ownCommands
  generalize t.postbuilds = l at hp
  induction l with
  | nil => exact .nil
  | cons p l ih =>
    rw [List.flatMap_cons, List.flatMap_cons]
    refine List.rel_append ?_ (ih fun x hx => hp x (by simp [hx]))
    obtain ⟨h1, h2, h3⟩ := hp p (by simp)
    have hsp : Spelled (c!"echo POSTBUILD\\(" ++ t.name ++ c!"\\) " ++ p.1)
        ([c!"echo", c!"POSTBUILD(" ++ t.name ++ c!")"] ++ splitOn ' ' p.1) := by
      refine ⟨c!"echo" :: (c!"POSTBUILD" ++ c!"\\(" ++ t.name ++ c!"\\)") :: splitOn ' ' p.1,
        [c!"echo"] :: [c!"POSTBUILD" ++ c!"(" ++ t.name ++ c!")"] :: (splitOn ' ' p.1).map ([·]),
        .cons (bit_plain (by unfold PlainWord; decide))
          (.cons (bit_named (what := c!"POSTBUILD") (by decide) (by decide) hn) (bits_plain h1)), ?_, ?_⟩
      · rw [joinWith_blank (by simp), joinWith_blank splitOn_ne_nil, joinWith_splitOn]
        simp
      · have : ∀ l : List Str, (l.map ([·])).flatten = l := by
          intro l
          induction l with
          | nil => rfl
          | cons a b ih => simpa using ih
        simp [this]
    refine .cons ⟨hsp.eval, hsp.takes⟩ (.cons ⟨eval_list h2 h3, ?_⟩ .nil)
    intro c hc hx
    refine evalArg_chars h3 c hc ?_
    revert hx
    simp only [List.mem_cons, List.not_mem_nil, or_false]
    tauto

theorem forall₂_map_some {l : List Str} {ws : List (List Str)} {f : Str → Option (List Str)}
    (h : List.Forall₂ (fun c w => f c = some w) l ws) : l.map f = ws.map some := by
  induction h with
  | nil => rfl
  | cons h _ ih => simp [h, ih]

/-- What make gives for a line of quoted texts and a value. -/
theorem postbuilds_line {v : MakeVars} {texts : List Str} (ht : ∀ s ∈ texts, MakeTakes s) :
    List.Forall₂ (fun s y => deep (valueOf v) s = some y) (texts.map quotePostbuild) (texts.map makeEscapeShellArgument) ∧
    List.Forall₂ (fun s x => shellWords s = some x) (texts.map makeEscapeShellArgument) (texts.map ([·])) := by
  induction texts with
  | nil => exact ⟨.nil, .nil⟩
  | cons s l ih =>
    obtain ⟨i1, i2⟩ := ih fun x hx => ht x (by simp [hx])
    have hs := ht s (by simp)
    refine ⟨.cons ?_ i1, .cons (C40_shell_argument s) i2⟩
    rw [quotePostbuild_plain hs]
    refine deep_plain _ fun hm => ?_
    rcases quoted_chars hm with h | h | h
    · exact hs _ h (by decide)
    · exact absurd h (by decide)
    · exact absurd h (by decide)

/-- A name of a configuration that make takes as part of a name of a variable. -/
def ConfigName (n : Str) : Prop := ∀ c ∈ n, c ∉ c!":\n#\\ \t$()"

theorem ConfigName.var {n : Str} (h : ConfigName n) : VarText (pbVar n) ∧ ∀ c ∈ n, isBlank c = false := by
  have h1 : ∀ c ∈ n, c ≠ ':' ∧ c ≠ '\n' ∧ c ≠ '#' ∧ c ≠ '\\' ∧ isBlank c = false := by
    intro c hc
    have := h c hc
    simp only [List.mem_cons, List.not_mem_nil, or_false, not_or] at this
    obtain ⟨a, b, d, e, f, g, -⟩ := this
    exact ⟨a, b, d, e, by simp [isBlank, f, g]⟩
  refine ⟨fun c hc => ?_, fun c hc => (h1 c hc).2.2.2.2⟩
  rcases List.mem_append.mp hc with hc | hc
  · exact (by decide : ∀ c ∈ c!"TARGET_POSTBUILDS_", c ≠ ':' ∧ c ≠ '\n' ∧ c ≠ '#' ∧ c ≠ '\\') c hc
  · obtain ⟨a, b, d, e, -⟩ := h1 c hc
    exact ⟨a, b, d, e⟩

/-- C106: in a makefile.  For each configuration, `for p in $(POSTBUILDS)` goes over the commands for
symbols and stripping that this configuration asks for and then the target's own, in their order; before
all of them there is a change into the directory of the file.  `eval` gives each of them exactly its words.
Missing: signing, which comes before the target's own commands (`C106_make_signs_first`), and arguments with
`#` (`C106_make_hash`), with blanks in a row (`C106_make_blanks`), with `$` and with characters of patterns. -/
theorem C106_make_partial (repr : List Str → Str) (t : PbTarget) (m : PbMachine) (configs : List (Str × XSettings))
    (output binary out path cfg : Str) (s : XSettings) (flags : List Str) (v : MakeVars)
    (hsign : NotSigned t) (hn : PlainWord t.name) (ho : PlainWord output) (hb : PlainWord binary)
    (hconfigs : ∀ c ∈ configs, ConfigName c.1 ∧ PlainStrip t.type t.bundle t.appExtension c.2)
    (hnd : (configs.map (·.1)).Nodup) (hcfg : (cfg, s) ∈ configs)
    (hf : wantedFlags t.type t.bundle t.appExtension s = some flags)
    (hp : ∀ p ∈ t.postbuilds, (∀ w ∈ splitOn ' ' p.1, PlainWord w) ∧ p.2 ≠ [] ∧ ∀ a ∈ p.2, EvalArg a)
    (hout : RuleName out) (hpath : EvalArg path)
    (hv : aget v c!"BUILDTYPE" = some cfg) (hfree : ∀ c ∈ configs, aget v (c!"TARGET_POSTBUILDS_" ++ c.1) = none) :
    ∃ implicit, makeTargetPostbuilds repr t m output binary configs = some implicit ∧
      ((makePostbuildLines t implicit out path = [] ∧ t.postbuilds = [] ∧
          wantedCommands false t.name t.type s output binary flags = []) ∨
        ∃ vars value words, seenByTarget out v (makePostbuildLines t implicit out path) = some vars ∧
          aget vars c!"POSTBUILDS" = some value ∧ shellWords value = some words ∧
          words.map evalWords = ([[c!"cd", path]] ++ wantedCommands false t.name t.type s output binary flags ++
            ownCommands false t.name t.postbuilds).map some) := by
  -- the commands of each configuration
  have hall : ∀ c ∈ configs, ∃ cmds fl, addImplicitPostbuilds repr t m c.2 output binary [] false = some cmds ∧
      wantedFlags t.type t.bundle t.appExtension c.2 = some fl ∧
      List.Forall₂ Spelled cmds (wantedCommands false t.name t.type c.2 output binary fl) := by
    intro c hc
    obtain ⟨-, ok⟩ := hconfigs c hc
    obtain ⟨fl, hfl⟩ := ok.flags
    obtain ⟨cmds, h1, h2⟩ := implicit_spelled ok hn ho hb false hfl
    exact ⟨cmds, fl, by simp [addImplicitPostbuilds, h1, notSigned_ios hsign], hfl, h2⟩
  obtain ⟨implicit, himp⟩ : ∃ implicit, makeTargetPostbuilds repr t m output binary configs = some implicit := by
    clear hnd hcfg hconfigs hfree
    induction configs with
    | nil => exact ⟨_, rfl⟩
    | cons c l ih =>
      obtain ⟨name, s'⟩ := c
      obtain ⟨cmds, -, h1, -⟩ := hall (name, s') (by simp)
      obtain ⟨more, h2⟩ := ih fun x hx => hall x (by simp [hx])
      simp only at h1
      exact ⟨if cmds = [] then more else (name, cmds) :: more, by simp only [makeTargetPostbuilds, h1, h2]⟩
  refine ⟨implicit, himp, ?_⟩
  obtain ⟨hnd2, hfrom, hto⟩ := table_facts himp hnd
  obtain ⟨cmds, hcmds, hin, hnotin⟩ := hto cfg s hcfg
  have hspelled : List.Forall₂ Spelled cmds (wantedCommands false t.name t.type s output binary flags) := by
    obtain ⟨cmds', fl, h1, h2, h3⟩ := hall _ hcfg
    have e1 : cmds' = cmds := by
      have := h1.symm.trans hcmds
      injection this
    have e2 : fl = flags := by
      have := h2.symm.trans hf
      injection this
    rw [← e1, ← e2]
    exact h3
  have hown := own_read hn hp
  by_cases hempty : makePostbuildTexts t implicit = []
  · refine .inl ⟨by simp [makePostbuildLines, hempty], ?_, ?_⟩
    · unfold makePostbuildTexts at hempty
      have := (List.append_eq_nil_iff.mp hempty).2
      unfold specPostbuildCommands at this
      cases e : t.postbuilds with
      | nil => rfl
      | cons p l => rw [e] at this; simp at this
    · have hi : implicit = [] := by
        unfold makePostbuildTexts at hempty
        have := (List.append_eq_nil_iff.mp hempty).1
        split at this
        · assumption
        · cases this
      have : cmds = [] := by
        by_contra hne
        have := hin hne
        rw [hi] at this
        cases this
      rw [this] at hspelled
      exact List.forall₂_nil_left_iff.mp hspelled
  · refine .inr ?_
    -- the table
    have hread := table_read hout (implicit := implicit) (fun e he => by
        obtain ⟨-, s', hs', -⟩ := hfrom e he
        exact (hconfigs _ hs').1.var) (fun e he => by
        obtain ⟨h1, s', hs', h2⟩ := hfrom e he
        refine ⟨h1, fun c hc => ⟨blank_of_implicit h2 c hc, ?_⟩⟩
        obtain ⟨cmds', fl, h3, -, h4⟩ := hall _ hs'
        have e1 : cmds' = e.2 := by
          have := h3.symm.trans h2
          injection this
        subst e1
        obtain ⟨w, -, hw⟩ := forall₂_mem_left h4 hc
        exact hw.takes) v
    have hvalue : aget ((implicit.map fun e => (pbVar e.1, EncodePOSIXShellList e.2)).reverse ++ v) (pbVar cfg) =
        if cmds = [] then none else some (EncodePOSIXShellList cmds) := by
      obtain ⟨a1, a2⟩ := aget_table hnd2 v cfg
      split
      · next hc => rw [a2 (hnotin hc)]; exact hfree _ hcfg
      · next hc => exact a1 cmds (hin hc)
    have hbt : aget ((implicit.map fun e => (pbVar e.1, EncodePOSIXShellList e.2)).reverse ++ v) c!"BUILDTYPE" = some cfg := by
      have : ∀ (l : List (Str × Str)), (∀ e ∈ l, e.1 ≠ c!"BUILDTYPE") → aget (l ++ v) c!"BUILDTYPE" = some cfg := by
        intro l hl
        induction l with
        | nil => exact hv
        | cons e l ih =>
          have h1 := hl e (by simp)
          obtain ⟨a, b⟩ := e
          rw [List.cons_append, aget, if_neg h1]
          exact ih fun x hx => hl x (by simp [hx])
      refine this _ ?_
      intro e he
      obtain ⟨e', -, rfl⟩ := List.mem_map.mp (List.mem_reverse.mp he)
      simp [pbVar]
    generalize hv1 : (implicit.map fun e => (pbVar e.1, EncodePOSIXShellList e.2)).reverse ++ v = v1 at hread hvalue hbt
    -- the directory
    have hbuild : targetLine v1 (QuoteSpaces out ++ c!": builddir := $(abs_builddir)\n") =
        some ([out], c!"builddir", valueOf v1 c!"abs_builddir") := by
      have := targetLine_of (v := v1) (out := out) (n := c!"builddir") (x := c!"$(abs_builddir)")
        (y := valueOf v1 c!"abs_builddir") hout (by unfold VarText; decide) (by decide) (by decide) (by decide) (by decide)
        (by decide) (by decide) (deep_ref _ (n := c!"abs_builddir") (by unfold NameText; decide))
      simpa using this
    generalize hv2 : ((c!"builddir", valueOf v1 c!"abs_builddir") :: v1) = v2
    have hvalue2 : valueOf v2 (pbVar cfg) = if cmds = [] then [] else EncodePOSIXShellList cmds := by
      have : aget v2 (pbVar cfg) = aget v1 (pbVar cfg) := by
        rw [← hv2]
        simp [aget, pbVar]
      unfold valueOf
      rw [this, hvalue]
      split <;> rfl
    have hbt2 : valueOf v2 c!"BUILDTYPE" = cfg := by
      have : aget v2 c!"BUILDTYPE" = aget v1 c!"BUILDTYPE" := by
        rw [← hv2]
        simp [aget]
      unfold valueOf
      rw [this, hbt]
      rfl
    have hcdtakes : MakeTakes (EncodePOSIXShellList [c!"cd", path]) := by
      intro c hc hx
      have hargs : ∀ a ∈ [c!"cd", path], EvalArg a := by
        intro a ha
        simp only [List.mem_cons, List.not_mem_nil, or_false] at ha
        rcases ha with rfl | rfl
        · refine ⟨by decide, fun p q e => ?_⟩
          have : ' ' ∈ c!"cd" := by rw [e]; simp
          exact absurd this (by decide)
        · exact hpath
      refine evalArg_chars hargs c hc ?_
      revert hx
      simp only [List.mem_cons, List.not_mem_nil, or_false]
      tauto
    have hcdeval : evalWords (EncodePOSIXShellList [c!"cd", path]) = some [c!"cd", path] := by
      refine eval_list (by simp) ?_
      intro a ha
      simp only [List.mem_cons, List.not_mem_nil, or_false] at ha
      rcases ha with rfl | rfl
      · refine ⟨by decide, fun p q e => ?_⟩
        have : ' ' ∈ c!"cd" := by rw [e]; simp
        exact absurd this (by decide)
      · exact hpath
    have hownTakes : ∀ c ∈ specPostbuildCommands t false, MakeTakes c := by
      intro c hc
      obtain ⟨w, -, hw⟩ := forall₂_mem_left hown hc
      exact hw.2
    -- the list
    generalize hcd : EncodePOSIXShellList [c!"cd", path] = cd at hcdtakes hcdeval
    generalize hownc : specPostbuildCommands t false = own at hown hownTakes
    let mid : List Str := if implicit = [] then [] else [c!"$(TARGET_POSTBUILDS_$(BUILDTYPE))"]
    let midY : List Str := if implicit = [] then [] else [valueOf v2 (pbVar cfg)]
    have hlist : (cd :: makePostbuildTexts t implicit).map quotePostbuild =
        [cd].map quotePostbuild ++ mid ++ own.map quotePostbuild := by
      unfold makePostbuildTexts
      rw [hownc]
      by_cases hi : implicit = []
      · simp [mid, hi]
      · simp only [mid, hi, if_false]
        simp [quotePostbuild, startsWith]
    have hmid : List.Forall₂ (fun s y => deep (valueOf v2) s = some y) mid midY := by
      by_cases hi : implicit = []
      · simp only [mid, midY, hi, if_true]
        exact .nil
      · simp only [mid, midY, hi, if_false]
        refine .cons ?_ .nil
        have := deep_computed (valueOf v2) (pre := c!"TARGET_POSTBUILDS_") (n := c!"BUILDTYPE")
          (by unfold NameText; decide) (by unfold NameText; decide)
        rw [hbt2] at this
        simpa [pbVar] using this
    have hmidw : List.Forall₂ (fun s x => shellWords s = some x) midY (if implicit = [] then [] else [cmds]) := by
      by_cases hi : implicit = []
      · simp only [midY, hi, if_true]
        exact .nil
      · simp only [midY, hi, if_false]
        refine .cons ?_ .nil
        rw [hvalue2]
        by_cases hc : cmds = []
        · rw [if_pos hc, hc]
          exact words_nil
        · rw [if_neg hc]
          refine C05_shell_list cmds fun a ha hm => ?_
          obtain ⟨w, -, hw⟩ := forall₂_mem_left hspelled ha
          exact hw.takes _ hm (by decide)
    obtain ⟨c1, c2⟩ := postbuilds_line (v := v2) (texts := [cd]) (by simpa using hcdtakes)
    obtain ⟨o1, o2⟩ := postbuilds_line (v := v2) (texts := own) hownTakes
    have hdeep := deep_joined₂ (List.rel_append (List.rel_append c1 hmid) o1)
    have hwords := words_joined₂ (List.rel_append (List.rel_append c2 hmidw) o2)
    beta_reduce at hdeep hwords
    rw [← hlist] at hdeep
    generalize hval : joinWith [' '] ([cd].map makeEscapeShellArgument ++ midY ++ own.map makeEscapeShellArgument) = value at hdeep hwords
    have hchars : ∀ c ∈ joinWith [' '] ((cd :: makePostbuildTexts t implicit).map quotePostbuild), c ≠ '\n' ∧ c ≠ '#' := by
      rw [hlist]
      intro c hc
      have hq : ∀ x, MakeTakes x → c ∈ quotePostbuild x → c ≠ '\n' ∧ c ≠ '#' := by
        intro x hx hcx
        rw [quotePostbuild_plain hx] at hcx
        rcases quoted_chars hcx with h | h | h
        · have := hx c h
          simp only [List.mem_cons, List.not_mem_nil, or_false, not_or] at this
          exact ⟨this.2.2, this.2.1⟩
        · rw [h]; decide
        · rw [h]; decide
      rcases mem_joinedTexts hc with h | ⟨x, hx, h⟩
      · rw [List.mem_singleton.mp h]; decide
      · rcases List.mem_append.mp hx with hx | hx
        · rcases List.mem_append.mp hx with hx | hx
          · rw [List.map_singleton, List.mem_singleton] at hx
            exact hq _ hcdtakes (hx ▸ h)
          · simp only [mid] at hx
            split at hx
            · cases hx
            · rw [List.mem_singleton.mp hx] at h
              exact (by decide : ∀ c ∈ c!"$(TARGET_POSTBUILDS_$(BUILDTYPE))", c ≠ '\n' ∧ c ≠ '#') c h
        · obtain ⟨y, hy, rfl⟩ := List.mem_map.mp hx
          exact hq _ (hownTakes y hy) h
    have hhead : ∃ r, joinWith [' '] ((cd :: makePostbuildTexts t implicit).map quotePostbuild) = '\'' :: r := by
      rw [List.map_cons, quotePostbuild_plain hcdtakes, joinWith_blank (by simpa using hempty)]
      exact ⟨_, rfl⟩
    have hlast : ∃ w d, joinWith [' '] ((cd :: makePostbuildTexts t implicit).map quotePostbuild) = w ++ [d] ∧ d ≠ '\\' := by
      refine last_joined (P := (· ≠ '\\')) (by simp) ?_
      rw [hlist]
      have hq : ∀ x, MakeTakes x → ∃ w d, quotePostbuild x = w ++ [d] ∧ d ≠ '\\' := by
        intro x hx
        rw [quotePostbuild_plain hx]
        exact ⟨_, '\'', rfl, by decide⟩
      intro x hx
      rcases List.mem_append.mp hx with hx | hx
      · rcases List.mem_append.mp hx with hx | hx
        · rw [List.map_singleton, List.mem_singleton] at hx
          exact hx ▸ hq _ hcdtakes
        · simp only [mid] at hx
          split at hx
          · cases hx
          · rw [List.mem_singleton.mp hx]
            exact ⟨c!"$(TARGET_POSTBUILDS_$(BUILDTYPE)", ')', rfl, by decide⟩
      · obtain ⟨y, hy, rfl⟩ := List.mem_map.mp hx
        exact hq _ (hownTakes y hy)
    have hpb : targetLine v2 (QuoteSpaces out ++ c!": POSTBUILDS := " ++
        joinWith [' '] ((cd :: makePostbuildTexts t implicit).map quotePostbuild) ++ ['\n']) =
        some ([out], c!"POSTBUILDS", value) := by
      have := targetLine_of (v := v2) (out := out) (n := c!"POSTBUILDS") (y := value) hout (by unfold VarText; decide)
        (by decide) (by decide) (fun h => (hchars _ h).1 rfl) (fun h => (hchars _ h).2 rfl)
        (by
          obtain ⟨w, d, e, hd⟩ := hlast
          rw [e, List.getLast?_concat]
          intro c hc
          injection hc with hc
          exact hc ▸ hd)
        (by
          obtain ⟨r, e⟩ := hhead
          rw [e]
          intro c hc
          injection hc with hc
          rw [← hc]
          decide) hdeep
      simpa using this
    refine ⟨(c!"POSTBUILDS", value) :: v2, value, _, ?_, by simp [aget], hwords, ?_⟩
    · unfold makePostbuildLines
      simp only [hempty, if_false, hcd]
      rw [seenByTarget_append hread]
      rw [seenByTarget, hbuild]
      simp only [List.mem_singleton, if_true]
      rw [hv2, seenByTarget, hpb]
      simp [seenByTarget]
    · have hflat : (([cd].map fun x => [x]) ++ (if implicit = [] then [] else [cmds]) ++ own.map fun x => [x]).flatten =
          [cd] ++ cmds ++ own := by
        have h1 : ∀ l : List Str, (l.map ([·])).flatten = l := by
          intro l
          induction l with
          | nil => rfl
          | cons a b ih => simpa using ih
        have h2 : (if implicit = [] then [] else [cmds] : List (List Str)).flatten = cmds := by
          split
          · next hi =>
            by_contra hne
            have : cmds ≠ [] := fun e => hne (by rw [e]; rfl)
            have := hin this
            rw [hi] at this
            cases this
          · simp
        rw [List.flatten_append, List.flatten_append, h1, h1, h2]
      rw [hflat, List.map_append, List.map_append, List.map_append, List.map_append]
      congr 1
      · congr 1
        · simp [hcdeval]
        · exact forall₂_map_some (hspelled.imp fun _ _ h => h.eval)
      · exact forall₂_map_some (hown.imp fun _ _ h => h.1)

example : ∃ vars value words,
    seenByTarget c!"out/my app" [(c!"BUILDTYPE", c!"Release")]
      (makePostbuildLines ⟨c!"app", c!"executable", false, false, false, false, false, c!"app",
        [(c!"Copy it", [c!"cp", c!"out/my app", c!"it's"])]⟩ [(c!"Release", [c!"echo STRIP\\(app\\)", c!"strip  out/app"])]
        c!"out/my app" c!"src") = some vars ∧
    aget vars c!"POSTBUILDS" = some value ∧ shellWords value = some words ∧
    words.map evalWords = [some [c!"cd", c!"src"], some [c!"echo", c!"STRIP(app)"], some [c!"strip", c!"out/app"],
      some [c!"echo", c!"POSTBUILD(app)", c!"Copy", c!"it"], some [c!"cp", c!"out/my app", c!"it's"]] := by
  have key := C106_make_partial (fun _ => []) ⟨c!"app", c!"executable", false, false, false, false, false, c!"app",
        [(c!"Copy it", [c!"cp", c!"out/my app", c!"it's"])]⟩ ⟨[], fun _ => [], []⟩
    [(c!"Debug", []), (c!"Release", [(c!"DEPLOYMENT_POSTPROCESSING", .text c!"YES"), (c!"STRIP_INSTALLED_PRODUCT", .text c!"YES")])]
    c!"out/app" c!"out/app" c!"out/my app" c!"src" c!"Release"
    [(c!"DEPLOYMENT_POSTPROCESSING", .text c!"YES"), (c!"STRIP_INSTALLED_PRODUCT", .text c!"YES")] []
    [(c!"BUILDTYPE", c!"Release")] ⟨rfl, rfl⟩ (by unfold PlainWord; decide) (by unfold PlainWord; decide)
    (by unfold PlainWord; decide)
    (by
      intro c hc
      simp only [List.mem_cons, List.not_mem_nil, or_false] at hc
      rcases hc with rfl | rfl
      · exact ⟨by unfold ConfigName; decide, ⟨[], by decide⟩, by unfold PlainWord; decide, by simp [aget], by simp [aget]⟩
      · exact ⟨by unfold ConfigName; decide, ⟨[], by decide⟩, by unfold PlainWord; decide, by simp [aget], by simp [aget]⟩)
    (by decide) (by simp) (by decide)
    (by
      intro p hp
      rw [List.mem_singleton.mp hp]
      refine ⟨by unfold PlainWord; decide, by decide, ?_⟩
      intro a ha
      have hx : ∀ s : Str, hasSub c!"  " s = false → ∀ p q, s ≠ p ++ c!"  " ++ q := by
        intro s hs p q e
        exact absurd ((hasSub_infix _ _).mpr ⟨p, q, e.symm⟩) (by rw [hs]; decide)
      refine ⟨?_, hx a ?_⟩
      · revert a; decide
      · revert a; decide)
    (by unfold RuleName; decide)
    ⟨by decide, fun p q e => by
      have : ' ' ∈ c!"src" := by rw [e]; simp
      exact absurd this (by decide)⟩ rfl (by decide)
  obtain ⟨implicit, h1, h2⟩ := key
  have e : implicit = [(c!"Release", [c!"echo STRIP\\(app\\)", c!"strip  out/app"])] := by
    have h0 : makeTargetPostbuilds (fun _ => []) ⟨c!"app", c!"executable", false, false, false, false, false, c!"app",
        [(c!"Copy it", [c!"cp", c!"out/my app", c!"it's"])]⟩ ⟨[], fun _ => [], []⟩ c!"out/app" c!"out/app"
      [(c!"Debug", []), (c!"Release", [(c!"DEPLOYMENT_POSTPROCESSING", .text c!"YES"),
        (c!"STRIP_INSTALLED_PRODUCT", .text c!"YES")])] = some [(c!"Release", [c!"echo STRIP\\(app\\)", c!"strip  out/app"])] := by
      decide
    have := h1.symm.trans h0
    injection this
  subst e
  rcases h2 with ⟨-, h, -⟩ | ⟨vars, value, words, a, b, c, d⟩
  · cases h
  · exact ⟨vars, value, words, a, b, c, d.trans (by decide)⟩

/-- C106: `do_postbuilds` succeeds exactly when every command succeeds, each run in the state the one before
left; the output is removed only if one fails. -/
theorem C106_make_success {σ : Type} (run : σ → Str → σ × Nat) (remove : σ → σ) (st : σ) (words : List Str) (st' : σ) :
    doPostbuilds run remove st words = (st', 0) ↔
      ∃ states : List σ, states.length = words.length ∧ (st :: states).getLast? = some st' ∧
        ∀ i (h : i < words.length) (h1 : i < (st :: states).length) (h2 : i < states.length),
          run ((st :: states)[i]) words[i] = (states[i], 0) := by
  have key : doPostbuilds run remove st words = (st', 0) ↔ postbuildLoop run st 0 words = (st', 0) := by
    unfold doPostbuilds
    split
    · next x e => rw [e]
    · next x e he => rw [he]; simp
  rw [key]
  clear key
  induction words generalizing st with
  | nil =>
    constructor
    · intro h
      injection h with h
      exact ⟨[], rfl, by rw [h]; rfl, by simp⟩
    · rintro ⟨states, h1, h2, -⟩
      have : states = [] := List.eq_nil_of_length_eq_zero h1
      subst this
      injection h2 with h2
      rw [← h2]
      rfl
  | cons p rest ih =>
    rw [postbuildLoop]
    constructor
    · intro h
      split at h
      · next x e =>
        obtain ⟨states, h1, h2, h3⟩ := (ih x).mp h
        refine ⟨x :: states, by simp [h1], by rw [List.getLast?_cons_cons]; exact h2, ?_⟩
        intro i hi hi1 hi2
        cases i with
        | zero => exact e
        | succ i => exact h3 i (by simpa using hi) (by simpa using hi1) (by simpa using hi2)
      · next x e _ => simp at h
    · rintro ⟨states, h1, h2, h3⟩
      cases states with
      | nil => cases h1
      | cons x states =>
        have e := h3 0 (by simp) (by simp) (by simp)
        simp only [List.getElem_cons_zero] at e
        rw [e]
        refine (ih x).mpr ⟨states, by simpa using h1, by rw [← List.getLast?_cons_cons (a := st)]; exact h2, ?_⟩
        intro i hi hi1 hi2
        exact h3 (i + 1) (by simpa using hi) (by simpa using hi1) (by simpa using hi2)

/-- C106: when a command fails after others succeeded, none of those after it runs (the result does not
depend on them), the output is removed, and the code of the failing command is the result. -/
theorem C106_make_failure {σ : Type} (run : σ → Str → σ × Nat) (remove : σ → σ) (st mid : σ) (before after : List Str) (p : Str)
    (hb : doPostbuilds run remove st before = (mid, 0)) (st' : σ) (e : Nat) (hp : run mid p = (st', e)) (he : e ≠ 0) :
    doPostbuilds run remove st (before ++ p :: after) = (remove st', e) := by
  have key : ∀ (n : Nat) (l : List Str) (s : σ), n = 0 → postbuildLoop run s n l = (mid, 0) →
      postbuildLoop run s n (l ++ p :: after) = (st', e) := by
    intro n l
    induction l generalizing n with
    | nil =>
      intro s hn h
      injection h with h
      subst h
      rw [List.nil_append, postbuildLoop, hp]
      cases e with
      | zero => exact absurd rfl he
      | succ e => rfl
    | cons q l ih =>
      intro s hn h
      rw [postbuildLoop] at h
      rw [List.cons_append, postbuildLoop]
      split at h
      · next x hx => exact ih 0 x rfl h
      · simp at h
  have h0 : postbuildLoop run st 0 before = (mid, 0) := by
    unfold doPostbuilds at hb
    split at hb
    · next x hx => rw [hx]; exact hb
    · simp at hb
  unfold doPostbuilds
  rw [key 0 before st rfl h0]
  cases e with
  | zero => exact absurd rfl he
  | succ e => rfl

example : doPostbuilds (σ := List Str) (fun st p => (st ++ [p], if p = c!"false" then 1 else 0)) (· ++ [c!"rm"]) []
    ([c!"a", c!"b"] ++ c!"false" :: [c!"c"]) = ([c!"a", c!"b", c!"false", c!"rm"], 1) :=
  C106_make_failure (fun st p => (st ++ [p], if p = c!"false" then 1 else 0)) (· ++ [c!"rm"]) [] [c!"a", c!"b"]
    [c!"a", c!"b"] [c!"c"] c!"false" (by decide) [c!"a", c!"b", c!"false"] 1 (by decide) (by decide)

/-! ### Ninja -/

/-- What ninja makes of a text in a value. -/
def NinjaReads (t x : Str) : Prop := ∀ acc, t.foldl valueStep (.normal, acc) = (.normal, acc ++ x.map .lit)

theorem NinjaReads.append {a b x y : Str} (ha : NinjaReads a x) (hb : NinjaReads b y) : NinjaReads (a ++ b) (x ++ y) := by
  intro acc
  rw [List.foldl_append, ha, hb]
  simp

theorem ninjaReads_plain {a : Str} (h : '$' ∉ a) : NinjaReads a a := by
  induction a with
  | nil => intro acc; simp
  | cons c a ih =>
    simp only [List.mem_cons, not_or] at h
    intro acc
    rw [List.foldl_cons, show valueStep (.normal, acc) c = (.normal, acc ++ [.lit c]) by
      simp [valueStep, Ne.symm h.1], ih h.2]
    simp

theorem ninjaReads_escaped (a : Str) : NinjaReads (replaceChar '$' c!"$$" a) a := by
  induction a with
  | nil => intro acc; simp [replaceChar]
  | cons c a ih =>
    have e : replaceChar '$' c!"$$" (c :: a) = (if c = '$' then c!"$$" else [c]) ++ replaceChar '$' c!"$$" a := by
      simp [replaceChar]
    rw [e]
    have h1 : NinjaReads (if c = '$' then c!"$$" else [c]) [c] := by
      by_cases hc : c = '$'
      · subst hc
        intro acc
        simp [valueStep]
      · rw [if_neg hc]
        exact ninjaReads_plain (by simpa using fun e => hc e.symm)
    exact h1.append ih

theorem ninjaReads_joined {sep : Str} (hs : '$' ∉ sep) {l : List Str} {es : List Str} (h : ninjaEscapeAll l = some es) :
    NinjaReads (joinWith sep es) (joinWith sep l) := by
  induction l generalizing es with
  | nil =>
    injection h with h
    subst h
    intro acc
    simp [joinWith]
  | cons a l ih =>
    rw [ninjaEscapeAll] at h
    split at h
    · next x xs hx hxs =>
      injection h with h
      subst h
      have hx' : x = replaceChar '$' c!"$$" a := by
        unfold ninjaEscape at hx
        split at hx
        · cases hx
        · injection hx with hx
          exact hx.symm
      have i := ih hxs
      rw [hx']
      cases l with
      | nil =>
        injection hxs with hxs
        subst hxs
        exact ninjaReads_escaped a
      | cons b l =>
        cases xs with
        | nil =>
          rw [ninjaEscapeAll] at hxs
          split at hxs
          · cases hxs
          · cases hxs
        | cons y ys => exact ((ninjaReads_escaped a).append (ninjaReads_plain hs)).append i
    · cases h

theorem NinjaReads.text {t x : Str} (h : NinjaReads t x) : ninjaText t = some x := by
  unfold ninjaText ninjaValue
  rw [h []]
  simp only [List.nil_append]
  clear h
  unfold plainWord
  induction x with
  | nil => rfl
  | cons c x ih =>
    rw [List.map_cons, List.mapM_cons, ih]
    rfl

theorem andRun_lex {s s' : Lex} {a : Str} (h : lexRun false s a = some s') (cmds : List (List Str)) (b : Str) :
    andRun s cmds (a ++ b) = andRun s' cmds b := by
  induction a generalizing s with
  | nil =>
    injection h with h
    rw [h]
    rfl
  | cons c a ih =>
    rw [lexRun] at h
    cases e : lexStep false s c with
    | none => rw [e] at h; cases h
    | some s1 =>
      rw [e, Option.bind_some] at h
      have hamp : ¬ (s.mode = .plain ∧ c = '&') := by
        rintro ⟨hm, rfl⟩
        obtain ⟨m, cur, done⟩ := s
        simp only at hm
        subst hm
        have : lexStep false ⟨.plain, cur, done⟩ '&' = none := by simp [lexStep, activePlain]
        rw [this] at e
        cases e
      rw [List.cons_append, andRun.eq_def]
      simp only [hamp, if_false, e]
      exact ih h

theorem andList_joined {l : List Str} {xs : List (List Str)} (hne : l ≠ [])
    (h : List.Forall₂ (fun s x => shellWords s = some x) l xs) (cmds : List (List Str)) :
    andRun ⟨.plain, none, []⟩ cmds (joinWith c!" && " l) = some (cmds ++ xs) := by
  induction h generalizing cmds with
  | nil => exact absurd rfl hne
  | @cons s x l xs h hl ih =>
    obtain ⟨cur, done, h1, rfl⟩ := shellWords_iff.mp h
    cases hl with
    | nil =>
      have := andRun_lex h1 cmds []
      rw [List.append_nil] at this
      rw [joinWith, this]
      simp [andRun]
    | @cons s2 x2 l2 xs2 h2 hl2 =>
      show andRun _ cmds (s ++ c!" && " ++ joinWith c!" && " (s2 :: l2)) = _
      rw [List.append_assoc, andRun_lex h1]
      have h3 : andRun ⟨.plain, cur, done⟩ cmds (c!" && " ++ joinWith c!" && " (s2 :: l2)) =
          andRun ⟨.plain, none, []⟩ (cmds ++ [done ++ cur.toList]) (joinWith c!" && " (s2 :: l2)) := by
        simp [andRun, lexStep]
        exact andRun_lex (s := ⟨.plain, none, []⟩) (a := [' ']) (s' := ⟨.plain, none, []⟩) rfl _ _
      rw [h3, ih (by simp)]
      simp

/-- C106: with ninja.  The commands in the brackets after the environment are, joined by `&&`, the change
of directory, the commands for symbols and stripping, and the target's own, each with exactly its words; what
follows removes the output and fails if they fail. -/
theorem C106_ninja (repr : List Str → Str) (t : PbTarget) (m : PbMachine) (s : XSettings)
    (output binary env out toBase : Str) (start : Bool) (flags : List Str) (hsign : NotSigned t)
    (ok : PlainStrip t.type t.bundle t.appExtension s)
    (hn : PlainWord t.name) (ho : PlainWord output) (hb : PlainWord binary)
    (hf : wantedFlags t.type t.bundle t.appExtension s = some flags)
    (hp : ∀ p ∈ t.postbuilds, ∀ a ∈ p.2, '$' ∉ a ∧ '\n' ∉ a) (hbase : '$' ∉ toBase ∧ '\n' ∉ toBase)
    (henv : '$' ∉ env) (hout : '$' ∉ out) :
    ∃ cmds text, ninjaPostbuildList repr t m s true output binary = some cmds ∧
      ninjaPostbuildText cmds env out toBase start = some text ∧
      ((text = [] ∧ wantedCommands true t.name t.type s output binary flags = [] ∧ t.postbuilds = []) ∨
        ∃ list, ninjaText text = some ((if start then c!"(" else c!" && (") ++ env ++ c!" (" ++ list ++
            (c!"); G=$?; ((exit $G) || " ++ c!"rm -rf ") ++ out ++ c!") && exit $G)" ++ (if start then c!" && " else [])) ∧
          andList list = some ([[c!"cd", toBase]] ++ wantedCommands true t.name t.type s output binary flags ++
            t.postbuilds.map (·.2))) := by
  obtain ⟨cmds, h1, h2⟩ := implicit_spelled ok hn ho hb true hf
  have hlist : ninjaPostbuildList repr t m s true output binary = some (cmds ++ specPostbuildCommands t true) := by
    simp [ninjaPostbuildList, addImplicitPostbuilds, h1, notSigned_ios hsign]
  have hown : List.Forall₂ (fun c ws => shellWords c = some ws) (specPostbuildCommands t true) (t.postbuilds.map (·.2)) ∧
      ∀ c ∈ specPostbuildCommands t true, '\n' ∉ c := by
    unfold specPostbuildCommands
    generalize t.postbuilds = l at hp
    induction l with
    | nil => exact ⟨.nil, by simp⟩
    | cons p l ih =>
      obtain ⟨i1, i2⟩ := ih fun x hx => hp x (by simp [hx])
      simp only [if_true, List.nil_append] at i1 i2
      simp only [if_true, List.nil_append, List.flatMap_cons, List.map_cons, List.singleton_append]
      refine ⟨.cons (C05_shell_list p.2 fun a ha => (hp p (by simp) a ha).1) i1, ?_⟩
      intro c hc
      rcases List.mem_cons.mp hc with rfl | hc
      · intro hx
        rcases encodedList_chars hx with ⟨a, ha, hca⟩ | h | h | h
        · exact (hp p (by simp) a ha).2 hca
        all_goals exact absurd h (by decide)
      · exact i2 c hc
  by_cases hempty : cmds ++ specPostbuildCommands t true = []
  · refine ⟨_, [], hlist, by simp [ninjaPostbuildText, hempty], .inl ⟨rfl, ?_, ?_⟩⟩
    · rw [(List.append_eq_nil_iff.mp hempty).1] at h2
      exact List.forall₂_nil_left_iff.mp h2
    · have := hown.1
      rw [(List.append_eq_nil_iff.mp hempty).2] at this
      have := List.forall₂_nil_left_iff.mp this
      simpa using this
  · have hnl : ∀ c ∈ EncodePOSIXShellList [c!"cd", toBase] :: (cmds ++ specPostbuildCommands t true), '\n' ∉ c := by
      intro c hc
      rcases List.mem_cons.mp hc with rfl | hc
      · intro hx
        rcases encodedList_chars hx with ⟨a, ha, hca⟩ | h | h | h
        · simp only [List.mem_cons, List.not_mem_nil, or_false] at ha
          rcases ha with rfl | rfl
          · exact absurd hca (by decide)
          · exact hbase.2 hca
        all_goals exact absurd h (by decide)
      · rcases List.mem_append.mp hc with hc | hc
        · obtain ⟨w, -, hw⟩ := forall₂_mem_left h2 hc
          exact fun hx => hw.takes _ hx (by decide)
        · exact hown.2 c hc
    obtain ⟨es, hes⟩ : ∃ es, ninjaEscapeAll (EncodePOSIXShellList [c!"cd", toBase] :: (cmds ++ specPostbuildCommands t true)) =
        some es := by
      generalize EncodePOSIXShellList [c!"cd", toBase] :: (cmds ++ specPostbuildCommands t true) = l at hnl
      induction l with
      | nil => exact ⟨_, rfl⟩
      | cons a l ih =>
        obtain ⟨es, h⟩ := ih fun c hc => hnl c (by simp [hc])
        have h0 : ninjaEscape a = some (replaceChar '$' c!"$$" a) := by
          unfold ninjaEscape
          rw [if_neg (hnl a (by simp))]
        exact ⟨_, by rw [ninjaEscapeAll, h0, h]⟩
    have hread := ninjaReads_joined (sep := c!" && ") (by decide) hes
    have htext : ninjaPostbuildText (cmds ++ specPostbuildCommands t true) env out toBase start =
        some (if start then c!"(" ++ (env ++ c!" (" ++ joinWith c!" && " es ++ (c!"); G=$$?; ((exit $$G) || " ++ c!"rm -rf ") ++ out ++
          c!") && exit $$G)") ++ c!" && " else c!"$ && (" ++ (env ++ c!" (" ++ joinWith c!" && " es ++
            (c!"); G=$$?; ((exit $$G) || " ++ c!"rm -rf ") ++ out ++ c!") && exit $$G)")) := by
      unfold ninjaPostbuildText
      rw [if_neg hempty, hes]
      rfl
    refine ⟨_, _, hlist, htext, .inr
      ⟨joinWith c!" && " (EncodePOSIXShellList [c!"cd", toBase] :: (cmds ++ specPostbuildCommands t true)), ?_, ?_⟩⟩
    · have hd : NinjaReads c!"$$" c!"$" := by
        intro acc
        simp [valueStep]
      have htail : NinjaReads (c!"); G=$$?; ((exit $$G) || " ++ c!"rm -rf ") (c!"); G=$?; ((exit $G) || " ++ c!"rm -rf ") := by
        have := ((((ninjaReads_plain (a := c!"); G=") (by decide)).append hd).append
          (ninjaReads_plain (a := c!"?; ((exit ") (by decide))).append hd).append
          (ninjaReads_plain (a := c!"G) || rm -rf ") (by decide))
        simpa using this
      have hend : NinjaReads c!") && exit $$G)" c!") && exit $G)" := by
        have := ((ninjaReads_plain (a := c!") && exit ") (by decide)).append hd).append
          (ninjaReads_plain (a := c!"G)") (by decide))
        simpa using this
      have hmain := ((((((ninjaReads_plain henv).append (ninjaReads_plain (a := c!" (") (by decide))).append hread).append
        htail).append (ninjaReads_plain hout)).append hend)
      refine NinjaReads.text ?_
      cases start with
      | true =>
        have := ((ninjaReads_plain (a := c!"(") (by decide)).append hmain).append (ninjaReads_plain (a := c!" && ") (by decide))
        simpa using this
      | false =>
        have hpre : NinjaReads c!"$ && (" c!" && (" := by
          intro acc
          simp [valueStep]
        have := hpre.append hmain
        simpa using this
    · have hall : List.Forall₂ (fun c ws => shellWords c = some ws)
          (EncodePOSIXShellList [c!"cd", toBase] :: (cmds ++ specPostbuildCommands t true))
          ([c!"cd", toBase] :: (wantedCommands true t.name t.type s output binary flags ++ t.postbuilds.map (·.2))) := by
        refine .cons ?_ (List.rel_append (h2.imp fun _ _ h => h.words) hown.1)
        refine C05_shell_list _ fun a ha => ?_
        simp only [List.mem_cons, List.not_mem_nil, or_false] at ha
        rcases ha with rfl | rfl
        · decide
        · exact hbase.1
      have := andList_joined (by simp) hall []
      simpa [andList] using this

example : ∃ cmds text list, ninjaPostbuildList (fun _ => []) ⟨c!"app", c!"shared_library", false, false, false, false, false, c!"app",
        [(c!"x", [c!"cp", c!"a && b"])]⟩ ⟨[], fun _ => [], []⟩
      [(c!"DEPLOYMENT_POSTPROCESSING", .text c!"YES"), (c!"STRIP_INSTALLED_PRODUCT", .text c!"YES")] true c!"o" c!"o" = some cmds ∧
    ninjaPostbuildText cmds c!"export A=b;" c!"out" c!".." true = some text ∧
    ninjaText text = some (c!"(export A=b; (" ++ list ++ c!"); G=$?; ((exit $G) || " ++ c!"rm -rf out) && exit $G) && ") ∧
    andList list = some [[c!"cd", c!".."], [c!"strip", c!"-S", c!"o"], [c!"cp", c!"a && b"]] := by
  obtain ⟨cmds, text, h1, h2, h3⟩ := C106_ninja (fun _ => [])
    ⟨c!"app", c!"shared_library", false, false, false, false, false, c!"app",
        [(c!"x", [c!"cp", c!"a && b"])]⟩ ⟨[], fun _ => [], []⟩
      [(c!"DEPLOYMENT_POSTPROCESSING", .text c!"YES"), (c!"STRIP_INSTALLED_PRODUCT", .text c!"YES")]
      c!"o" c!"o" c!"export A=b;" c!"out" c!".." true [c!"-S"] ⟨rfl, rfl⟩
      ⟨⟨[c!"-S"], by decide⟩, by unfold PlainWord; decide, by simp [aget], by simp [aget]⟩
      (by unfold PlainWord; decide) (by unfold PlainWord; decide) (by unfold PlainWord; decide) (by decide)
      (by decide) (by decide) (by decide) (by decide)
  rcases h3 with ⟨-, -, h⟩ | ⟨list, h3, h4⟩
  · cases h
  · exact ⟨cmds, text, list, h1, h2, h3.trans (by simp), h4.trans (by decide)⟩

/-! ### Signing -/

/-- C106: with ninja a program for iOS that has an identity to sign with is signed by the last command,
after the target's own. -/
theorem C106_ninja_signs_last (repr : List Str → Str) (t : PbTarget) (m : PbMachine) (s : XSettings) (output binary : Str)
    (cmds : List Str) (h : ninjaPostbuildList repr t m s true output binary = some cmds) (hi : t.ios = true)
    (ht : t.type = c!"executable") (hx : t.xctest = false) (i : Str) (hid : SettingSays s c!"CODE_SIGN_IDENTITY" i) (hne : i ≠ [])
    (hkey : m.fingerprint i ≠ []) :
    ∃ pre, cmds = pre ++ specPostbuildCommands t true ++
      [signCommand repr m s (m.fingerprint i) (pathJoin c!"${BUILT_PRODUCTS_DIR}" t.product) c!"False"] := by
  unfold SettingSays at hid
  have hk : signKey m s = some (m.fingerprint i) := by
    unfold signKey
    rw [hid]
    simp [hne]
  have hios : iosPostbuilds repr t m s =
      some [signCommand repr m s (m.fingerprint i) (pathJoin c!"${BUILT_PRODUCTS_DIR}" t.product) c!"False"] := by
    unfold iosPostbuilds
    rw [if_neg (by simp [hi, ht])]
    simp [hx, hk, hkey]
  unfold ninjaPostbuildList addImplicitPostbuilds at h
  simp only [if_true, hios] at h
  split at h
  · cases h
  · next pre _ =>
    injection h with h
    exact ⟨pre, h.symm⟩

/-- C106: in a makefile it is signed before the target's own commands run, although signing "should be run
as the very last step of the build". -/
theorem C106_make_signs_first : ∃ (t : PbTarget) (m : PbMachine) (configs : List (Str × XSettings)) (sign own : Str),
    makeTargetPostbuilds (fun _ => []) t m c!"out/app" c!"out/app" configs = some [(c!"Release", [sign])] ∧
      hasSub c!"code-sign-bundle" sign = true ∧
      makePostbuildTexts t [(c!"Release", [sign])] =
        [c!"$(TARGET_POSTBUILDS_$(BUILDTYPE))", c!"echo POSTBUILD\\(app\\) patch", own] ∧
      shellWords own = some [c!"patch", c!"app"] := by
  refine ⟨⟨c!"app", c!"executable", false, false, false, true, false, c!"app.app", [(c!"patch", [c!"patch", c!"app"])]⟩,
    ⟨c!"python3", fun _ => c!"F1", []⟩, [(c!"Release", [(c!"CODE_SIGN_IDENTITY", .text c!"me")])], _, _, rfl, ?_, rfl, ?_⟩
  · decide +kernel
  · decide +kernel

/-- C106: what is behind a `#` in a command of the target does not come through make: what it makes of the
line has an open quotation. -/
theorem C106_make_hash : ∃ t : PbTarget, t.postbuilds = [(c!"p", [c!"echo", c!"a#b"])] ∧
    ∃ vars value, seenByTarget c!"out" [] (makePostbuildLines t [] c!"out" c!".") = some vars ∧
      aget vars c!"POSTBUILDS" = some value ∧ shellWords value = none := by
  refine ⟨⟨c!"t", c!"executable", false, false, false, false, false, c!"t", [(c!"p", [c!"echo", c!"a#b"])]⟩, rfl,
    _, _, rfl, rfl, ?_⟩
  decide +kernel

set_option maxRecDepth 10000 in
/-- C106: blanks in a row in an argument become one, because `eval` is given `$p` without quotes. -/
theorem C106_make_blanks : ∃ t : PbTarget, t.postbuilds = [(c!"p", [c!"echo", c!"a  b"])] ∧
    ∃ vars value words, seenByTarget c!"out" [] (makePostbuildLines t [] c!"out" c!".") = some vars ∧
      aget vars c!"POSTBUILDS" = some value ∧ shellWords value = some words ∧
      words.map evalWords = [some [c!"cd", c!"."], some [c!"echo", c!"POSTBUILD(t)", c!"p"], some [c!"echo", c!"a b"]] := by
  refine ⟨⟨c!"t", c!"executable", false, false, false, false, false, c!"t", [(c!"p", [c!"echo", c!"a  b"])]⟩, rfl,
    _, _, [c!"cd .", c!"echo POSTBUILD\\(t\\) p", c!"echo \"a  b\""], rfl, rfl, ?_, ?_⟩
  · decide +kernel
  · decide +kernel

end Gyp
