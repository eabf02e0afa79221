import Verif.Model.Configure
import Verif.Spec.Configure
import Verif.Props.Options
import Verif.Props.ConfigGypi
import Verif.Props.Shasums

/-
C64: `configure` finds the headers and starts `gyp` with settings that win over
everything the user gives.
-/
namespace Gyp
open Spec

/-! ### The arguments are read back -/

def specD : OptSpec := ⟨c!"defines", [c!"-D"], .append, false, some c!"GYP_DEFINES", true, .none⟩
def specF : OptSpec :=
  ⟨c!"formats", [c!"-f", c!"--format"], .append, false, some c!"GYP_GENERATORS", false, .none⟩
def specG : OptSpec :=
  ⟨c!"generator_flags", [c!"-G"], .append, false, some c!"GYP_GENERATOR_FLAGS", true, .many []⟩
def specI : OptSpec := ⟨c!"includes", [c!"-I", c!"--include"], .append, true, none, true, .none⟩
def specO : OptSpec := ⟨c!"generator_output", [c!"--generator-output"], .store, true,
  some c!"GYP_GENERATOR_OUTPUT", true, .none⟩
def specDepth : OptSpec := ⟨c!"depth", [c!"--depth"], .store, true, none, true, .none⟩

theorem positional_of_head {p : Str} (h : p.head? ≠ some '-') : classifyArg gypOptions p = .positional := by
  unfold classifyArg
  rw [if_pos h]

theorem parse_separate {name v : Str} {spec : OptSpec} (hc : classifyArg gypOptions name = .opt spec none)
    (hne : name ≠ c!"--") (ha : spec.action = .store ∨ spec.action = .append) (hv : v.head? ≠ some '-')
    (s : ParseState) (hp : s.pending = none) (hs : s.stop = false) :
    [name, v].foldlM (parseStep gypOptions) s = .ok { s with opts := takeValue spec v s.opts } := by
  have h1 : parseStep gypOptions s name = .ok { s with pending := some spec } := by
    unfold parseStep
    rw [hs, hp, hc]
    simp only [Bool.false_eq_true, if_false]
    rw [if_neg hne]
    rcases ha with ha | ha <;> rw [ha]
  rw [List.foldlM_cons, h1]
  show [v].foldlM (parseStep gypOptions) { s with pending := some spec } = _
  rw [List.foldlM_cons]
  have h2 : parseStep gypOptions { s with pending := some spec } v =
      .ok { s with opts := takeValue spec v s.opts } := by
    unfold parseStep
    simp only
    rw [hs]
    simp only [Bool.false_eq_true, if_false]
    rw [if_pos (positional_of_head hv), hp]
  rw [h2]
  rfl

theorem takeValue_append {spec : OptSpec} (ha : spec.action = .append) (v : Str) (o : Options) :
    takeValue spec v o = o.set spec.dest (.many ((o spec.dest).toList ++ [v])) := by
  unfold takeValue
  rw [ha]
  simp only
  cases o spec.dest <;> rfl

theorem parse_includes (files : List Str) (hv : ∀ f ∈ files, f.head? ≠ some '-') (s : ParseState)
    (hp : s.pending = none) (hs : s.stop = false) :
    (includeArgs files).foldlM (parseStep gypOptions) s =
      .ok { s with opts := (if files = [] then s.opts else
        s.opts.set c!"includes" (.many ((s.opts c!"includes").toList ++ files))) } := by
  induction files generalizing s with
  | nil => rfl
  | cons f files ih =>
    unfold includeArgs
    rw [List.flatMap_cons, List.foldlM_append,
      parse_separate (spec := specI) (by decide +kernel) (by decide) (Or.inr rfl) (hv f (by simp)) s hp hs]
    show (includeArgs files).foldlM (parseStep gypOptions) _ = _
    rw [ih (fun g hg => hv g (by simp [hg])) _ (by exact hp) (by exact hs), takeValue_append rfl]
    congr 2
    by_cases hf : files = []
    · subst hf; simp [specI]
    · rw [if_neg hf, if_neg (by simp)]
      funext d
      unfold Options.set
      by_cases hd : d = c!"includes"
      · subst hd; simp [OptValue.toList, specI]
      · simp [hd, specI]

theorem parse_defines (vars : List (Str × Str)) (hv : ∀ p ∈ vars, Attachable (p.1 ++ c!"=" ++ p.2))
    (hne : vars ≠ []) (s : ParseState) (hp : s.pending = none) (hs : s.stop = false) :
    (defineArgs vars).foldlM (parseStep gypOptions) s =
      .ok { s with opts := s.opts.set c!"defines" (.many ((s.opts c!"defines").toList ++
        vars.map fun p => p.1 ++ c!"=" ++ p.2)) } := by
  have hcarry : ∀ v ∈ vars.map (fun p : Str × Str => p.1 ++ c!"=" ++ p.2), Carries specD v := by
    intro v hm
    obtain ⟨p, hp, rfl⟩ := List.mem_map.mp hm
    exact carries_short (x := 'D') rfl (by decide) (by decide +kernel) (Or.inr rfl) (hv p hp)
  have := parse_appends (spec := specD) rfl (vars.map fun p => p.1 ++ c!"=" ++ p.2) hcarry s hp hs
  rw [List.map_map, if_neg (by simpa using hne)] at this
  exact this

/-! ### Tables -/

theorem nv_concat (l ds : List Str) : NameValueListToDict (l ++ ds) =
    ds.foldl (fun d item => aset d (nvItem item).1 (nvItem item).2) (NameValueListToDict l) := by
  unfold NameValueListToDict
  rw [List.foldl_append]

theorem nv_fold_other (ds : List Str) (d : List (Str × NvVal)) (k : Str) (h : ∀ x ∈ ds, (nvItem x).1 ≠ k) :
    aget (ds.foldl (fun d item => aset d (nvItem item).1 (nvItem item).2) d) k = aget d k := by
  induction ds generalizing d with
  | nil => rfl
  | cons x ds ih =>
    rw [List.foldl_cons, ih _ (fun y hy => h y (by simp [hy])), aget_aset, if_neg]
    exact fun e => h x (by simp) e.symm

theorem nv_fold_mem (ds : List Str) (d : List (Str × NvVal)) (hn : (ds.map fun x => (nvItem x).1).Nodup)
    (x : Str) (hx : x ∈ ds) :
    aget (ds.foldl (fun d item => aset d (nvItem item).1 (nvItem item).2) d) (nvItem x).1 =
      some (nvItem x).2 := by
  induction ds generalizing d with
  | nil => cases hx
  | cons y ds ih =>
    rw [List.map_cons, List.nodup_cons] at hn
    rw [List.foldl_cons]
    rcases List.mem_cons.mp hx with rfl | hx
    · rw [nv_fold_other, aget_aset, if_pos rfl]
      intro z hz e
      exact hn.1 (List.mem_map.mpr ⟨z, hz, e⟩)
    · exact ih _ hn.2 hx

theorem nvItem_name {k v : Str} (hk : '=' ∉ k) : (nvItem (k ++ c!"=" ++ v)).1 = k := by
  unfold nvItem
  have : split1 '=' (k ++ c!"=" ++ v) = some (k, v) := by
    rw [List.append_assoc]
    exact split1_append hk
  rw [this]
  simp only
  cases pyIntText v <;> rfl

/-! ### The settings -/

theorem forced_names (W : ConfigureWorld) (nodeDir : Str) (e z : Option Str) :
    ((forcedVariables W nodeDir e z).map (·.1)).Nodup ∧
      ∀ p ∈ forcedVariables W nodeDir e z, '=' ∉ p.1 ∧ p.1 ≠ [] ∧ p.1.head? ≠ some '=' := by
  unfold forcedVariables
  cases e with
  | none =>
    cases z with
    | none => constructor <;> simp <;> decide
    | some d =>
      by_cases hd : d = []
      · constructor <;> simp [hd] <;> decide
      · constructor <;> simp [hd] <;> decide
  | some f =>
    cases z with
    | none => constructor <;> simp <;> decide
    | some d =>
      by_cases hd : d = []
      · constructor <;> simp [hd] <;> decide
      · constructor <;> simp [hd] <;> decide

theorem step_shift (x : List Str) (s : ParseState) (arg : Str) :
    parseStep gypOptions { s with extras := x ++ s.extras } arg =
      (parseStep gypOptions s arg).map fun t => { t with extras := x ++ t.extras } := by
  unfold parseStep
  simp only
  cases s.stop with
  | true => simp [Except.map]
  | false =>
    simp only [Bool.false_eq_true, if_false]
    cases s.pending with
    | some spec =>
      simp only
      by_cases h : classifyArg gypOptions arg = .positional
      · rw [if_pos h, if_pos h]; rfl
      · rw [if_neg h, if_neg h]; rfl
    | none =>
      simp only
      by_cases h : arg = c!"--"
      · rw [if_pos h, if_pos h]; simp [Except.map]
      · rw [if_neg h, if_neg h]
        cases classifyArg gypOptions arg with
        | positional => simp [Except.map]
        | unknown => simp [Except.map]
        | ambiguous => rfl
        | opt spec e =>
          simp only
          cases spec.action <;> cases e <;> rfl

theorem fold_shift (x : List Str) (args : List Str) (s : ParseState) :
    args.foldlM (parseStep gypOptions) { s with extras := x ++ s.extras } =
      (args.foldlM (parseStep gypOptions) s).map fun t => { t with extras := x ++ t.extras } := by
  induction args generalizing s with
  | nil => rfl
  | cons a args ih =>
    rw [List.foldlM_cons, List.foldlM_cons, step_shift]
    cases parseStep gypOptions s a with
    | error e => rfl
    | ok t => exact ih t

theorem step_stop {s t : ParseState} {arg : Str} (hs : s.stop = false) (ha : arg ≠ c!"--")
    (h : parseStep gypOptions s arg = .ok t) : t.stop = false := by
  unfold parseStep at h
  rw [hs] at h
  simp only [Bool.false_eq_true, if_false] at h
  cases hp : s.pending with
  | some spec =>
    rw [hp] at h
    simp only at h
    by_cases hc : classifyArg gypOptions arg = .positional
    · rw [if_pos hc] at h; cases h; rfl
    · rw [if_neg hc] at h; cases h
  | none =>
    rw [hp] at h
    simp only at h
    rw [if_neg ha] at h
    cases hc : classifyArg gypOptions arg with
    | positional => rw [hc] at h; cases h; rfl
    | unknown => rw [hc] at h; cases h; rfl
    | ambiguous => rw [hc] at h; cases h
    | opt spec e =>
      rw [hc] at h
      simp only at h
      cases hact : spec.action <;> cases e <;> rw [hact] at h <;> simp only at h <;> cases h <;> rfl

theorem fold_stop {args : List Str} (ha : c!"--" ∉ args) {s t : ParseState} (hs : s.stop = false)
    (h : args.foldlM (parseStep gypOptions) s = .ok t) : t.stop = false := by
  induction args generalizing s with
  | nil => cases h; exact hs
  | cons a args ih =>
    rw [List.foldlM_cons] at h
    cases hp : parseStep gypOptions s a with
    | error e => rw [hp] at h; cases h
    | ok u =>
      rw [hp] at h
      exact ih (fun hm => ha (by simp [hm])) (step_stop hs (fun e => ha (by simp [e])) hp) h

/-- The arguments after those of the user. -/
def addedArgs (W : ConfigureWorld) (argv configs : List Str) (nodeDir : Str) (e z : Option Str) : List Str :=
  forcedFormat W argv ++
  (includeArgs (configs ++ [W.resolve W.packageDir c!"addon.gypi", commonGypi W nodeDir]) ++
  (defineArgs (forcedVariables W nodeDir e z) ++
  [c!"--depth=.", c!"--no-parallel", c!"--generator-output", outputDir W, c!"-Goutput_dir=."]))

theorem gypArgs_split (W : ConfigureWorld) (argv configs : List Str) (nodeDir : Str) (e z : Option Str) :
    gypArgs W argv configs nodeDir e z = c!"binding.gyp" :: (argv ++ addedArgs W argv configs nodeDir e z) := by
  unfold gypArgs addedArgs
  simp [includeArgs]

/-- The format that `configure` chooses. -/
def chosenFormat (W : ConfigureWorld) (argv : List Str) : Option Str :=
  if c!"-f" ∈ argv ∨ c!"--format" ∈ argv then none else some (if W.win then c!"msvs" else c!"make")

theorem parse_format (W : ConfigureWorld) (argv : List Str) (s : ParseState) (hp : s.pending = none)
    (hs : s.stop = false) : ∃ o, (forcedFormat W argv).foldlM (parseStep gypOptions) s = .ok { s with opts := o } ∧
      (o c!"formats").toList = (s.opts c!"formats").toList ++ (chosenFormat W argv).toList ∧
      ∀ d, d ≠ c!"formats" → o d = s.opts d := by
  unfold forcedFormat chosenFormat
  by_cases h : c!"-f" ∈ argv ∨ c!"--format" ∈ argv
  · rw [if_pos h, if_pos h]
    exact ⟨s.opts, rfl, by simp, fun _ _ => rfl⟩
  · rw [if_neg h, if_neg h]
    refine ⟨_, parse_separate (spec := specF) (by decide +kernel) (by decide) (Or.inr rfl) ?_ s hp hs, ?_, ?_⟩
    · cases W.win <;> decide
    · rw [takeValue_append rfl]
      simp [Options.set, specF, OptValue.toList]
    · intro d hd
      rw [takeValue_append rfl]
      simp [Options.set, specF, hd]

/-- The last arguments. -/
theorem parse_tail (out : Str) (hout : out.head? ≠ some '-') (s : ParseState) (hp : s.pending = none)
    (hs : s.stop = false) :
    [c!"--depth=.", c!"--no-parallel", c!"--generator-output", out, c!"-Goutput_dir=."].foldlM
      (parseStep gypOptions) s =
      .ok { s with opts := ((((s.opts.set c!"depth" (.text c!".")).set c!"no_parallel" (.flag true)).set
        c!"generator_output" (.text out)).set c!"generator_flags"
          (.many ((s.opts c!"generator_flags").toList ++ [c!"output_dir=."]))) } := by
  have e : [c!"--depth=.", c!"--no-parallel", c!"--generator-output", out, c!"-Goutput_dir=."] =
      [c!"--depth=."] ++ ([c!"--no-parallel"] ++ ([c!"--generator-output", out] ++ [c!"-Goutput_dir=."])) := rfl
  have h1 : ∀ t : ParseState, t.pending = none → t.stop = false →
      [c!"--depth=."].foldlM (parseStep gypOptions) t =
        .ok { t with opts := t.opts.set c!"depth" (.text c!".") } := by
    intro t htp hts
    rw [List.foldlM_cons, parse_value htp hts (spec := specDepth) (v := c!".") (by decide +kernel) (Or.inl rfl)]
    rfl
  have h2 : ∀ t : ParseState, t.pending = none → t.stop = false →
      [c!"--no-parallel"].foldlM (parseStep gypOptions) t =
        .ok { t with opts := t.opts.set c!"no_parallel" (.flag true) } := by
    intro t htp hts
    have : parseStep gypOptions t c!"--no-parallel" =
        .ok { t with opts := t.opts.set c!"no_parallel" (.flag true) } := by
      unfold parseStep
      rw [hts, htp]
      rfl
    rw [List.foldlM_cons, this]
    rfl
  have h3 : ∀ t : ParseState, t.pending = none → t.stop = false →
      [c!"-Goutput_dir=."].foldlM (parseStep gypOptions) t =
        .ok { t with opts := (t.opts.set c!"generator_flags"
          (.many ((t.opts c!"generator_flags").toList ++ [c!"output_dir=."]))) } := by
    intro t htp hts
    rw [List.foldlM_cons, parse_value htp hts (spec := specG) (v := c!"output_dir=.") (by decide +kernel)
      (Or.inr rfl), takeValue_append rfl]
    rfl
  rw [e, List.foldlM_append, h1 s hp hs]
  show ([c!"--no-parallel"] ++ ([c!"--generator-output", out] ++ [c!"-Goutput_dir=."])).foldlM
    (parseStep gypOptions) _ = _
  rw [List.foldlM_append, h2 _ (by exact hp) (by exact hs)]
  show ([c!"--generator-output", out] ++ [c!"-Goutput_dir=."]).foldlM (parseStep gypOptions) _ = _
  rw [List.foldlM_append, parse_separate (spec := specO) (by decide +kernel) (by decide) (Or.inl rfl) hout _
    (by exact hp) (by exact hs)]
  show [c!"-Goutput_dir=."].foldlM (parseStep gypOptions) _ = _
  rw [h3 _ (by exact hp) (by exact hs)]
  rfl

theorem added_ok (E : OptEnv) (W : ConfigureWorld) (argv configs : List Str) (nodeDir : Str) (e z : Option Str)
    (hpaths : ∀ f ∈ configs ++ [W.resolve W.packageDir c!"addon.gypi", commonGypi W nodeDir], f.head? ≠ some '-')
    (hout : (outputDir W).head? ≠ some '-') (s : ParseState) (hp : s.pending = none) (hs : s.stop = false) :
    ∃ o', (addedArgs W argv configs nodeDir e z).foldlM (parseStep gypOptions) s = .ok { s with opts := o' } ∧
      Forced E s.opts o' (chosenFormat W argv)
        (configs ++ [W.resolve W.packageDir c!"addon.gypi", commonGypi W nodeDir])
        (forcedVariables W nodeDir e z) (outputDir W) := by
  unfold addedArgs
  obtain ⟨hn, hnames⟩ := forced_names W nodeDir e z
  obtain ⟨o1, h1, hf1, hf2⟩ := parse_format W argv s hp hs
  rw [List.foldlM_append, h1]
  show ∃ o', (includeArgs (configs ++ [W.resolve W.packageDir c!"addon.gypi", commonGypi W nodeDir]) ++ _).foldlM
    (parseStep gypOptions) _ = _ ∧ _
  rw [List.foldlM_append, parse_includes _ hpaths _ (by exact hp) (by exact hs), if_neg (by simp)]
  show ∃ o', (defineArgs (forcedVariables W nodeDir e z) ++ _).foldlM (parseStep gypOptions) _ = _ ∧ _
  rw [List.foldlM_append, parse_defines _ ?_ (by simp [forcedVariables]) _ (by exact hp) (by exact hs)]
  swap
  · intro p hp
    obtain ⟨_, h2, h3⟩ := hnames p hp
    constructor
    · simp
    · cases hh : p.1 with
      | nil => exact absurd hh h2
      | cons c cs => rw [hh] at h3; simpa using h3
  show ∃ o', [c!"--depth=.", c!"--no-parallel", c!"--generator-output", outputDir W, c!"-Goutput_dir=."].foldlM
    (parseStep gypOptions) _ = _ ∧ _
  rw [parse_tail _ hout _ (by exact hp) (by exact hs)]
  refine ⟨_, rfl, ?_⟩
  simp only
  have hd1 := hf2 c!"defines" (by decide)
  have hg1 := hf2 c!"generator_flags" (by decide)
  have hi1 := hf2 c!"includes" (by decide)
  have he1 := hf2 c!"use_environment" (by decide)
  constructor
  · simp [Options.set, hf1]
  · simp [Options.set, OptValue.toList, hi1]
  · simp [Options.set]
  · simp [Options.set]
  · simp [Options.set]
  · intro p hp v hv
    have hnv := (nvItem_sets _ _ _).mpr hv
    unfold cmdlineVariables
    simp only [Options.set, OptValue.toList]
    simp only [List.cons.injEq, Char.reduceEq, reduceCtorEq, false_and, and_false, if_false, if_true]
    rw [← List.append_assoc, nv_concat]
    have := nv_fold_mem ((forcedVariables W nodeDir e z).map fun p => p.1 ++ c!"=" ++ p.2)
      (NameValueListToDict ((if o1 c!"use_environment" = .flag true then E.words c!"GYP_DEFINES" else []) ++
        (o1 c!"defines").toList)) (by
        rw [List.map_map]
        have : (forcedVariables W nodeDir e z).map ((fun x => (nvItem x).1) ∘ fun p => p.1 ++ c!"=" ++ p.2) =
            (forcedVariables W nodeDir e z).map (·.1) := by
          apply List.map_congr_left
          intro q hq
          exact nvItem_name (hnames q hq).1
        rw [this]
        exact hn) _ (List.mem_map.mpr ⟨p, hp, rfl⟩)
    rw [hnv] at this
    exact this
  · intro k hk
    unfold cmdlineVariables
    simp only [Options.set, OptValue.toList]
    simp only [List.cons.injEq, Char.reduceEq, reduceCtorEq, false_and, and_false, if_false, if_true]
    rw [← List.append_assoc, nv_concat, nv_fold_other, hd1, he1]
    · intro x hx
      obtain ⟨p, hp, rfl⟩ := List.mem_map.mp hx
      rw [nvItem_name (hnames p hp).1]
      exact hk p hp
  · unfold generatorFlags
    simp only [Options.set, OptValue.toList]
    simp only [List.cons.injEq, Char.reduceEq, reduceCtorEq, false_and, and_false, if_false, if_true]
    rw [← List.append_assoc, nv_snoc, if_pos (by decide)]
    decide +kernel
  · intro k hk
    unfold generatorFlags
    simp only [Options.set, OptValue.toList]
    simp only [List.cons.injEq, Char.reduceEq, reduceCtorEq, false_and, and_false, if_false, if_true]
    rw [← List.append_assoc, nv_snoc, if_neg, hg1, he1]
    · intro e
      exact hk (e.trans (by decide))
  · intro d hd
    simp only [List.mem_cons, List.not_mem_nil, or_false, not_or] at hd
    obtain ⟨a1, a2, a3, a4, a5, a6, a7⟩ := hd
    unfold Options.set
    simp only [a2, a3, a4, a5, a6, a7, if_false]
    exact hf2 d a1

theorem user_fold {argv : List Str} {o : Options} {extras : List Str} (hdd : c!"--" ∉ argv)
    (hu : parseArgs gypOptions argv = .ok (o, extras)) :
    argv.foldlM (parseStep gypOptions) ⟨defaultOptions gypOptions, [], none, false⟩ =
      .ok ⟨o, extras, none, false⟩ := by
  unfold parseArgs at hu
  cases hf : argv.foldlM (parseStep gypOptions) ⟨defaultOptions gypOptions, [], none, false⟩ with
  | error e => rw [hf] at hu; cases hu
  | ok t =>
    rw [hf] at hu
    simp only at hu
    have hst := fold_stop hdd (by rfl) hf
    by_cases hp : t.pending = none
    · rw [if_pos hp] at hu
      cases hu
      obtain ⟨a, b, c, d⟩ := t
      simp only at hp hst
      subst hp; subst hst; rfl
    · rw [if_neg hp] at hu; cases hu

theorem binding_first (args : List Str) :
    (c!"binding.gyp" :: args).foldlM (parseStep gypOptions) ⟨defaultOptions gypOptions, [], none, false⟩ =
      (args.foldlM (parseStep gypOptions) ⟨defaultOptions gypOptions, [], none, false⟩).map
        fun t => { t with extras := c!"binding.gyp" :: t.extras } := by
  have h : parseStep gypOptions ⟨defaultOptions gypOptions, [], none, false⟩ c!"binding.gyp" =
      .ok ⟨defaultOptions gypOptions, [c!"binding.gyp"], none, false⟩ := rfl
  rw [List.foldlM_cons, h]
  exact fold_shift [c!"binding.gyp"] args ⟨defaultOptions gypOptions, [], none, false⟩

theorem plan_parts {W : ConfigureWorld} {argv args : List Str} (h : configurePlan W argv = .ok args) :
    ∃ nodeDir inst configs e z, getNodeDir W = .ok (nodeDir, inst) ∧
      findConfigs W [W.configPath] [c!"config.gypi", c!"common.gypi"] = .ok configs ∧
      exportsFile W = .ok e ∧ zoslibDir W = .ok z ∧ args = gypArgs W argv configs nodeDir e z := by
  unfold configurePlan at h
  cases h1 : getNodeDir W with
  | error e => rw [h1] at h; cases h
  | ok r =>
    rw [h1] at h
    cases h0 : (needsVisualStudio W argv && !W.visualStudio) with
    | true => rw [h0] at h; cases h
    | false =>
      rw [h0] at h
      cases h2 : findConfigs W [W.configPath] [c!"config.gypi", c!"common.gypi"] with
      | error e => rw [h2] at h; cases h
      | ok configs =>
        rw [h2] at h
        cases h3 : exportsFile W with
        | error e => rw [h3] at h; cases h
        | ok e =>
          rw [h3] at h
          cases h4 : zoslibDir W with
          | error e => rw [h4] at h; cases h
          | ok z =>
            rw [h4] at h
            cases h
            exact ⟨r.1, r.2, configs, e, z, rfl, rfl, rfl, rfl, rfl⟩

theorem doubled_eq (s : Str) : (s.flatMap fun c => if c = '\\' then c!"\\\\" else [c]) =
    joinWith c!"\\\\" (splitOn '\\' s) := by
  induction s with
  | nil => rfl
  | cons c s ih =>
    rw [List.flatMap_cons, ih]
    by_cases hc : c = '\\'
    · subst hc
      rw [splitOn_cons_sep]
      cases hs : splitOn '\\' s with
      | nil => exact absurd hs splitOn_ne_nil
      | cons a l => rfl
    · rw [if_neg hc]
      cases hs : splitOn '\\' s with
      | nil => exact absurd hs splitOn_ne_nil
      | cons a l =>
        rw [splitOn_cons_other hc hs]
        cases l <;> rfl

/-- Whatever arguments the user gives (that `gyp` accepts, and without a bare `--`),
`gyp` accepts the whole command line, reads `binding.gyp` first, and works with the
options of the user plus those of `configure`, which win. -/
theorem C64_settings (E : OptEnv) (W : ConfigureWorld) (argv args : List Str) (o : Options) (extras : List Str)
    (hplan : configurePlan W argv = .ok args)
    (hu : parseArgs gypOptions argv = .ok (o, extras)) (hdd : c!"--" ∉ argv)
    (hresolve : ∀ a b, (W.resolve a b).head? ≠ some '-') (hconf : W.configPath.head? ≠ some '-') :
    ∃ o' nodeDir inst configs exp zos,
      parseArgs gypOptions args = .ok (o', c!"binding.gyp" :: extras) ∧
      getNodeDir W = .ok (nodeDir, inst) ∧
      findConfigs W [W.configPath] [c!"config.gypi", c!"common.gypi"] = .ok configs ∧
      exportsFile W = .ok exp ∧ zoslibDir W = .ok zos ∧
      Forced E o o'
        (if c!"-f" ∈ argv ∨ c!"--format" ∈ argv then none
          else some (if W.platform = c!"win32" then c!"msvs" else c!"make"))
        (configs ++ [W.resolve W.packageDir c!"addon.gypi",
          if W.stat (W.resolve nodeDir c!"include/node/common.gypi") = .found then
            W.resolve nodeDir c!"include/node/common.gypi" else W.resolve nodeDir c!"common.gypi"])
        ([(c!"library", c!"shared_library"), (c!"visibility", c!"default"), (c!"node_root_dir", nodeDir)] ++
          exp.toList.map (fun f => (c!"node_exp_file", f)) ++
          (zos.filter (· ≠ [])).toList.map (fun d => (c!"zoslib_include_dir", d)) ++
          [(c!"node_gyp_dir", W.packageDir),
           (c!"node_lib_file",
            if W.platform = c!"win32" then joinWith c!"\\\\" (splitOn '\\' (W.join (W.join nodeDir
              (if inst = none then c!"$(Configuration)" else c!"<(target_arch)")) (W.name ++ c!".lib")))
            else W.join (W.join nodeDir
              (if inst = none then c!"$(Configuration)" else c!"<(target_arch)")) (W.name ++ c!".lib")),
           (c!"module_root_dir", W.cwd),
           (c!"node_engine", if W.nodeEngine ≠ [] then W.nodeEngine
            else if W.jsEngine ≠ [] then W.jsEngine else c!"v8")])
        (if W.platform = c!"win32" then W.resolve W.cwd c!"build" else c!"build") := by
  obtain ⟨nodeDir, inst, configs, e, z, h1, h2, h3, h4, rfl⟩ := plan_parts hplan
  have hpaths : ∀ f ∈ configs ++ [W.resolve W.packageDir c!"addon.gypi", commonGypi W nodeDir],
      f.head? ≠ some '-' := by
    have hcfg : ∀ (names acc cs : List Str), (∀ f ∈ acc, f.head? ≠ some '-') →
        findConfigs W acc names = .ok cs → ∀ f ∈ cs, f.head? ≠ some '-' := by
      intro names
      induction names with
      | nil => intro acc cs ha h; cases h; exact ha
      | cons n names ih =>
        intro acc cs ha h
        unfold findConfigs at h
        cases hs : W.stat (W.resolve W.cwd n) with
        | found =>
          rw [hs] at h
          refine ih _ _ ?_ h
          intro f hf
          rcases List.mem_append.mp hf with hf | hf
          · exact ha f hf
          · rw [List.mem_singleton.mp hf]; exact hresolve _ _
        | missing => rw [hs] at h; exact ih _ _ ha h
        | failed => rw [hs] at h; cases h
    intro f hf
    rcases List.mem_append.mp hf with hf | hf
    · exact hcfg _ _ _ (fun g hg => by rw [List.mem_singleton.mp hg]; exact hconf) h2 f hf
    · simp only [List.mem_cons, List.not_mem_nil, or_false] at hf
      rcases hf with rfl | rfl
      · exact hresolve _ _
      · unfold commonGypi
        by_cases hc : W.stat (W.resolve nodeDir c!"include/node/common.gypi") = .found
        · rw [if_pos hc]; exact hresolve _ _
        · rw [if_neg hc]; exact hresolve _ _
  have hout : (outputDir W).head? ≠ some '-' := by
    unfold outputDir
    cases W.win
    · simp
    · exact hresolve _ _
  obtain ⟨o', ho1, ho2⟩ := added_ok E W argv configs nodeDir e z hpaths hout ⟨o, extras, none, false⟩ rfl rfl
  refine ⟨o', nodeDir, inst, configs, e, z, ?_, h1, h2, h3, h4, ?_⟩
  · unfold parseArgs
    rw [gypArgs_split, binding_first, List.foldlM_append, user_fold hdd hu]
    have : (do
        let s' ← (Except.ok ⟨o, extras, none, false⟩ : Except ParseErr ParseState)
        (addedArgs W argv configs nodeDir e z).foldlM (parseStep gypOptions) s') =
        .ok ⟨o', extras, none, false⟩ := ho1
    rw [this]
    rfl
  · have e1 : chosenFormat W argv = (if c!"-f" ∈ argv ∨ c!"--format" ∈ argv then none
          else some (if W.platform = c!"win32" then c!"msvs" else c!"make")) := by
      unfold chosenFormat ConfigureWorld.win
      simp
    have e2 : outputDir W = (if W.platform = c!"win32" then W.resolve W.cwd c!"build" else c!"build") := by
      unfold outputDir ConfigureWorld.win
      simp
    have e3 : forcedVariables W nodeDir e z =
        ([(c!"library", c!"shared_library"), (c!"visibility", c!"default"), (c!"node_root_dir", nodeDir)] ++
          e.toList.map (fun f => (c!"node_exp_file", f)) ++
          (z.filter (· ≠ [])).toList.map (fun d => (c!"zoslib_include_dir", d)) ++
          [(c!"node_gyp_dir", W.packageDir), (c!"node_lib_file", nodeLibFile W nodeDir),
           (c!"module_root_dir", W.cwd), (c!"node_engine", nodeEngine W)]) := by
      unfold forcedVariables
      cases e <;> cases z with
      | none => rfl
      | some d => by_cases hd : d = [] <;> simp [hd, Option.filter]
    have hinst : (effectiveNodedir W = []) ↔ inst ≠ none := by
      unfold getNodeDir at h1
      by_cases hn : effectiveNodedir W = []
      · rw [if_neg (fun h => h hn)] at h1
        by_cases hs : W.semver = false
        · rw [if_pos hs] at h1; cases h1
        · rw [if_neg hs] at h1
          by_cases hi : W.installs = false
          · rw [if_pos hi] at h1; cases h1
          · rw [if_neg hi] at h1; cases h1; simp [hn]
      · rw [if_pos hn] at h1; cases h1; simp [hn]
    have e4 : nodeLibFile W nodeDir =
        (if W.platform = c!"win32" then joinWith c!"\\\\" (splitOn '\\' (W.join (W.join nodeDir
              (if inst = none then c!"$(Configuration)" else c!"<(target_arch)")) (W.name ++ c!".lib")))
            else W.join (W.join nodeDir
              (if inst = none then c!"$(Configuration)" else c!"<(target_arch)")) (W.name ++ c!".lib")) := by
      unfold nodeLibFile ConfigureWorld.win
      have : (if effectiveNodedir W = [] then c!"<(target_arch)" else c!"$(Configuration)") =
          (if inst = none then c!"$(Configuration)" else c!"<(target_arch)") := by
        by_cases hi : inst = none
        · rw [if_pos hi, if_neg (fun h => hinst.mp h hi)]
        · rw [if_neg hi, if_pos (hinst.mpr hi)]
      rw [this]
      simp only [decide_eq_true_eq, doubled_eq]
    have e5 : nodeEngine W = (if W.nodeEngine ≠ [] then W.nodeEngine
            else if W.jsEngine ≠ [] then W.jsEngine else c!"v8") := rfl
    rw [e1, e2, e3, e4, e5] at ho2
    exact ho2

/-- When `gyp` does not accept the arguments of the user, it does not accept the whole
command line either. -/
theorem C64_rejected (W : ConfigureWorld) (argv args : List Str) (err : ParseErr)
    (hplan : configurePlan W argv = .ok args) (hu : parseArgs gypOptions argv = .error err) :
    ∃ err', parseArgs gypOptions args = .error err' := by
  obtain ⟨nodeDir, inst, configs, e, z, h1, h2, h3, h4, rfl⟩ := plan_parts hplan
  unfold parseArgs at hu ⊢
  rw [gypArgs_split, binding_first, List.foldlM_append]
  cases hf : argv.foldlM (parseStep gypOptions) ⟨defaultOptions gypOptions, [], none, false⟩ with
  | error e => exact ⟨e, rfl⟩
  | ok t =>
    rw [hf] at hu
    simp only at hu
    by_cases hp : t.pending = none
    · rw [if_pos hp] at hu; cases hu
    · obtain ⟨sp, hsp⟩ := Option.ne_none_iff_exists'.mp hp
      have hstop : t.stop = false := by
        have hinv : ∀ (l : List Str) (s u : ParseState), (s.stop = true → s.pending = none) →
            l.foldlM (parseStep gypOptions) s = .ok u → (u.stop = true → u.pending = none) := by
          intro l
          induction l with
          | nil => intro s u hs h; cases h; exact hs
          | cons a l ih =>
            intro s u hs h
            rw [List.foldlM_cons] at h
            cases hstep : parseStep gypOptions s a with
            | error e => rw [hstep] at h; cases h
            | ok w =>
              rw [hstep] at h
              refine ih w u ?_ h
              cases hss : s.stop with
              | true =>
                unfold parseStep at hstep
                rw [hss] at hstep
                simp only [if_true] at hstep
                cases hstep
                intro _
                exact hs hss
              | false =>
                by_cases ha : a = c!"--"
                · subst ha
                  unfold parseStep at hstep
                  rw [hss] at hstep
                  simp only [Bool.false_eq_true, if_false] at hstep
                  cases hpp : s.pending with
                  | some q =>
                    rw [hpp] at hstep
                    simp only at hstep
                    have : classifyArg gypOptions c!"--" ≠ .positional := by decide +kernel
                    rw [if_neg this] at hstep
                    cases hstep
                  | none =>
                    rw [hpp] at hstep
                    simp only [if_true] at hstep
                    cases hstep
                    intro _
                    rfl
                · intro hw
                  rw [step_stop hss ha hstep] at hw
                  cases hw
        cases hst : t.stop with
        | false => rfl
        | true =>
          exfalso
          exact hp (hinv argv _ t (fun h => by cases h) hf hst)
      have hhead : ∃ x rest, addedArgs W argv configs nodeDir e z = x :: rest ∧
          classifyArg gypOptions x ≠ .positional := by
        unfold addedArgs forcedFormat
        by_cases hc : c!"-f" ∈ argv ∨ c!"--format" ∈ argv
        · rw [if_pos hc]
          cases configs with
          | nil => exact ⟨c!"-I", _, rfl, by decide +kernel⟩
          | cons a l => exact ⟨c!"-I", _, rfl, by decide +kernel⟩
        · rw [if_neg hc]
          exact ⟨c!"-f", _, rfl, by decide +kernel⟩
      obtain ⟨x, rest, hx, hcx⟩ := hhead
      rw [hx]
      have hstep : parseStep gypOptions t x = .error .expectedArgument := by
        unfold parseStep
        rw [hstop, hsp]
        simp only [Bool.false_eq_true, if_false]
        rw [if_neg hcx]
      have : (do
          let s' ← (Except.ok t : Except ParseErr ParseState)
          (x :: rest).foldlM (parseStep gypOptions) s') = .error .expectedArgument := by
        show (x :: rest).foldlM (parseStep gypOptions) t = _
        rw [List.foldlM_cons, hstep]
        rfl
      rw [this]
      exact ⟨_, rfl⟩

/-! ### Where the headers come from -/

theorem lineEnd_iff (c : Char) : jsLineEnd c = true ↔ LineEnd c := by
  unfold jsLineEnd LineEnd
  simp [or_assoc]

theorem jsLines_plain {l : Str} (h : ∀ c ∈ l, ¬ LineEnd c) : jsLines l = [l] := by
  induction l with
  | nil => rfl
  | cons c l ih =>
    have hc : jsLineEnd c = false := by
      rw [← Bool.not_eq_true, lineEnd_iff]; exact h c (by simp)
    unfold jsLines
    rw [hc, ih (fun x hx => h x (by simp [hx]))]
    rfl

theorem jsLines_split {l rest : Str} {e : Char} (h : ∀ c ∈ l, ¬ LineEnd c) (he : LineEnd e) :
    jsLines (l ++ e :: rest) = l :: jsLines rest := by
  induction l with
  | nil =>
    show jsLines (e :: rest) = _
    conv_lhs => unfold jsLines
    rw [(lineEnd_iff e).mpr he]
    rfl
  | cons c l ih =>
    have hc : jsLineEnd c = false := by
      rw [← Bool.not_eq_true, lineEnd_iff]; exact h c (by simp)
    show jsLines (c :: (l ++ e :: rest)) = _
    conv_lhs => unfold jsLines
    rw [hc, ih (fun x hx => h x (by simp [hx]))]
    rfl

theorem asciiDigit_spec (c : Char) : asciiDigit c = true ↔ '0' ≤ c ∧ c ≤ '9' := by
  unfold asciiDigit
  simp

theorem defineDigits_spec (key line d : Str) : defineDigits key line = some d ↔
    IsDigits d ∧ ∃ rest, line = c!"#define " ++ key ++ c!" " ++ d ++ rest ∧
      ∀ c, rest.head? = some c → ¬ ('0' ≤ c ∧ c ≤ '9') := by
  unfold defineDigits
  simp only
  constructor
  · intro h
    by_cases hs : startsWith line (c!"#define " ++ key ++ c!" ") = true
    · rw [if_pos hs] at h
      obtain ⟨t, ht⟩ := List.isPrefixOf_iff_prefix.mp hs
      rw [← ht, List.drop_left] at h
      by_cases hd : t.takeWhile asciiDigit = []
      · rw [if_pos hd] at h; cases h
      · rw [if_neg hd] at h
        cases h
        refine ⟨⟨hd, ?_⟩, t.dropWhile asciiDigit, ?_, ?_⟩
        · intro c hc
          exact (asciiDigit_spec c).mp (List.all_eq_true.mp List.all_takeWhile c hc)
        · rw [List.append_assoc _ (t.takeWhile _), List.takeWhile_append_dropWhile, ht]
        · intro c hc hdig
          have := List.head?_dropWhile_not asciiDigit t
          rw [hc] at this
          simp only [(asciiDigit_spec c).mpr hdig] at this
          cases this
    · rw [if_neg hs] at h; cases h
  · rintro ⟨⟨hne, hall⟩, rest, rfl, hrest⟩
    have hs : startsWith (c!"#define " ++ key ++ c!" " ++ d ++ rest) (c!"#define " ++ key ++ c!" ") = true :=
      List.isPrefixOf_iff_prefix.mpr ⟨d ++ rest, by simp⟩
    rw [if_pos hs, List.append_assoc _ d, List.drop_left,
      (takeWhile_stop (fun c hc => (asciiDigit_spec c).mpr (hall c hc)) (fun c hc => by
        rw [← Bool.not_eq_true, asciiDigit_spec]
        exact hrest c hc)).1, if_neg hne]

theorem defineAt_cases {key : Str} (hkey : ∀ c ∈ key, ¬ LineEnd c) {l rest : Str} {e : Char}
    (hl : ∀ c ∈ l, ¬ LineEnd c) (he : LineEnd e) (b d : Str) :
    DefineAt (l ++ e :: rest) key b d ↔
      (b = [] ∧ defineDigits key l = some d) ∨ ∃ b', b = l ++ e :: b' ∧ DefineAt rest key b' d := by
  have hplain : ∀ d : Str, IsDigits d → ∀ c ∈ c!"#define " ++ key ++ c!" " ++ d, ¬ LineEnd c := by
    intro d hd c hc hle
    simp only [List.mem_append] at hc
    rcases hc with ((hc | hc) | hc) | hc
    · simp only [List.mem_cons, List.not_mem_nil, or_false] at hc
      unfold LineEnd at hle
      rcases hc with rfl | rfl | rfl | rfl | rfl | rfl | rfl | rfl <;> revert hle <;> decide
    · exact hkey c hc hle
    · rw [List.mem_singleton] at hc
      subst hc
      unfold LineEnd at hle
      revert hle
      decide
    · have := hd.2 c hc
      unfold LineEnd at hle
      rcases hle with rfl | rfl | h | h
      · exact absurd this.1 (by decide)
      · exact absurd this.1 (by decide)
      · have h2 := this.2
        rw [Char.le_def, UInt32.le_iff_toNat_le] at h2
        have : c.val.toNat = 8232 := h
        rw [this] at h2
        exact absurd h2 (by decide)
      · have h2 := this.2
        rw [Char.le_def, UInt32.le_iff_toNat_le] at h2
        have : c.val.toNat = 8233 := h
        rw [this] at h2
        exact absurd h2 (by decide)
  constructor
  · rintro ⟨hstart, hd, r, htext, hr⟩
    rcases hstart with rfl | ⟨b0, x, rfl, hx⟩
    · left
      refine ⟨rfl, (defineDigits_spec _ _ _).mpr ⟨hd, ?_⟩⟩
      rw [List.nil_append] at htext
      rcases List.append_eq_append_iff.mp htext with ⟨a, ha1, ha2⟩ | ⟨a, ha1, ha2⟩
      · cases a with
        | nil =>
          refine ⟨[], by simpa using ha1.symm, ?_⟩
          intro c hc; cases hc
        | cons a0 as =>
          exfalso
          rw [List.cons_append, List.cons.injEq] at ha2
          apply hplain d hd a0 (by rw [ha1]; simp)
          rw [← ha2.1]
          exact he
      · refine ⟨a, ha1, ?_⟩
        cases a with
        | nil => intro c hc; cases hc
        | cons a0 as =>
          intro c hc
          apply hr c
          rw [ha2]
          exact hc
    · right
      have htext' : l ++ e :: rest =
          (b0 ++ [x]) ++ (c!"#define " ++ key ++ c!" " ++ d ++ r) := by
        rw [htext]; simp
      rcases List.append_eq_append_iff.mp htext' with ⟨a, ha1, ha2⟩ | ⟨a, ha1, ha2⟩
      · cases a with
        | nil =>
          exfalso
          rw [List.append_nil] at ha1
          exact hl x (by rw [← ha1]; simp) hx
        | cons a0 as =>
          rw [List.cons_append, List.cons.injEq] at ha2
          obtain ⟨rfl, ha2⟩ := ha2
          refine ⟨as, ha1, ?_, hd, r, ?_, hr⟩
          · rcases List.eq_nil_or_concat as with rfl | ⟨as', y, rfl⟩
            · exact Or.inl rfl
            · right
              have : x = y := by
                have h : b0 ++ [x] = (l ++ e :: as') ++ [y] := by rw [ha1]; simp
                have h2 := congrArg List.getLast? h
                rw [List.getLast?_concat, List.getLast?_concat] at h2
                exact Option.some.inj h2
              subst this
              exact ⟨as', x, List.concat_eq_append, hx⟩
          · rw [ha2]; simp
      · exfalso
        exact hl x (by rw [ha1]; simp) hx
  · rintro (⟨rfl, h⟩ | ⟨b', rfl, hstart, hd, r, rfl, hr⟩)
    · obtain ⟨hd, r, rfl, hr⟩ := (defineDigits_spec _ _ _).mp h
      refine ⟨Or.inl rfl, hd, r ++ e :: rest, by simp, ?_⟩
      intro c hc
      cases r with
      | nil =>
        simp only [List.nil_append, List.head?_cons, Option.some.injEq] at hc
        subst hc
        intro hdig
        exact hplain [e] ⟨by simp, by simpa using hdig⟩ e (by simp) he
      | cons r0 rs => exact hr c hc
    · refine ⟨?_, hd, r, by simp, hr⟩
      right
      rcases hstart with rfl | ⟨b0, x, rfl, hx⟩
      · exact ⟨l, e, rfl, he⟩
      · exact ⟨l ++ e :: b0, x, by simp, hx⟩

theorem defineAt_plain {key l : Str} (hl : ∀ c ∈ l, ¬ LineEnd c) (b d : Str) :
    DefineAt l key b d ↔ b = [] ∧ defineDigits key l = some d := by
  rw [defineDigits_spec]
  constructor
  · rintro ⟨hstart, hd, r, htext, hr⟩
    rcases hstart with rfl | ⟨b0, x, rfl, hx⟩
    · exact ⟨rfl, hd, r, by simpa using htext, hr⟩
    · exfalso
      exact hl x (by rw [htext]; simp) hx
  · rintro ⟨rfl, hd, r, rfl, hr⟩
    exact ⟨Or.inl rfl, hd, r, by simp, hr⟩

theorem first_line (text : Str) : (∀ c ∈ text, ¬ LineEnd c) ∨
    ∃ l e rest, text = l ++ e :: rest ∧ (∀ c ∈ l, ¬ LineEnd c) ∧ LineEnd e := by
  induction text with
  | nil => left; simp
  | cons c cs ih =>
    by_cases hc : LineEnd c
    · exact Or.inr ⟨[], c, cs, rfl, by simp, hc⟩
    · rcases ih with ih | ⟨l, e, rest, rfl, hl, he⟩
      · left
        intro x hx
        rcases List.mem_cons.mp hx with rfl | hx
        · exact hc
        · exact ih x hx
      · refine Or.inr ⟨c :: l, e, rest, rfl, ?_, he⟩
        intro x hx
        rcases List.mem_cons.mp hx with rfl | hx
        · exact hc
        · exact hl x hx

theorem headerNumber_spec {key : Str} (hkey : ∀ c ∈ key, ¬ LineEnd c) (n : Nat) :
    ∀ text : Str, text.length ≤ n → ∀ d, headerNumber key text = some d ↔ Defines text key d := by
  induction n with
  | zero =>
    intro text hlen d
    have ht : text = [] := List.length_eq_zero_iff.mp (by omega)
    subst ht
    have hn : defineDigits key [] = none := by
      unfold defineDigits
      simp [startsWith]
    have : headerNumber key [] = none := by
      unfold headerNumber jsLines
      simp [hn]
    rw [this]
    constructor
    · intro h; cases h
    · rintro ⟨b, hb, _⟩
      rw [defineAt_plain (by simp), hn] at hb
      cases hb.2
  | succ n ih =>
    intro text hlen d
    rcases first_line text with hl | ⟨l, e, rest, rfl, hl, he⟩
    · have : headerNumber key text = defineDigits key text := by
        unfold headerNumber
        rw [jsLines_plain hl]
        cases h : defineDigits key text <;> simp [h]
      rw [this]
      constructor
      · intro h
        refine ⟨[], (defineAt_plain hl _ _).mpr ⟨rfl, h⟩, fun _ _ _ => Nat.zero_le _⟩
      · rintro ⟨b, hb, _⟩
        exact ((defineAt_plain hl _ _).mp hb).2
    · have hrest : rest.length ≤ n := by
        rw [List.length_append, List.length_cons] at hlen; omega
      have hrec : headerNumber key (l ++ e :: rest) = (defineDigits key l).or (headerNumber key rest) := by
        unfold headerNumber
        rw [jsLines_split hl he, List.findSome?_cons]
        cases defineDigits key l <;> rfl
      rw [hrec]
      cases hd0 : defineDigits key l with
      | some d0 =>
        rw [Option.some_or]
        constructor
        · intro h
          cases h
          exact ⟨[], (defineAt_cases hkey hl he _ _).mpr (Or.inl ⟨rfl, hd0⟩), fun _ _ _ => Nat.zero_le _⟩
        · rintro ⟨b, hb, hmin⟩
          have h0 := hmin [] d0 ((defineAt_cases hkey hl he _ _).mpr (Or.inl ⟨rfl, hd0⟩))
          have hb0 : b = [] := List.length_eq_zero_iff.mp (by simpa using h0)
          subst hb0
          rcases (defineAt_cases hkey hl he _ _).mp hb with ⟨_, h⟩ | ⟨b', h, _⟩
          · rw [← h, hd0]
          · simp at h
      | none =>
        rw [Option.none_or, ih rest hrest]
        constructor
        · rintro ⟨b, hb, hmin⟩
          refine ⟨l ++ e :: b, (defineAt_cases hkey hl he _ _).mpr (Or.inr ⟨b, rfl, hb⟩), ?_⟩
          intro b2 d2 h2
          rcases (defineAt_cases hkey hl he _ _).mp h2 with ⟨_, h⟩ | ⟨b', rfl, h⟩
          · rw [hd0] at h; cases h
          · have := hmin b' d2 h
            simp only [List.length_append, List.length_cons]
            omega
        · rintro ⟨b, hb, hmin⟩
          rcases (defineAt_cases hkey hl he _ _).mp hb with ⟨_, h⟩ | ⟨b', rfl, h⟩
          · rw [hd0] at h; cases h
          · refine ⟨b', h, ?_⟩
            intro b2 d2 h2
            have := hmin (l ++ e :: b2) d2 ((defineAt_cases hkey hl he _ _).mpr (Or.inr ⟨b2, rfl, h2⟩))
            simp only [List.length_append, List.length_cons] at this
            omega

theorem headerVersion_spec (text : Option Str) (version : Str) :
    headerVersion text = some version ↔ ∃ t, text = some t ∧ HeaderOf t version := by
  have hk : ∀ k ∈ [c!"NODE_MAJOR_VERSION", c!"NODE_MINOR_VERSION", c!"NODE_PATCH_VERSION"],
      ∀ c ∈ k, ¬ LineEnd c := by
    intro k hk c hc
    rw [← lineEnd_iff]
    revert c
    revert k
    decide
  cases text with
  | none =>
    constructor
    · intro h; cases h
    · rintro ⟨t, h, _⟩; cases h
  | some t =>
    have h1 := headerNumber_spec (hk c!"NODE_MAJOR_VERSION" (by simp)) t.length t le_rfl
    have h2 := headerNumber_spec (hk c!"NODE_MINOR_VERSION" (by simp)) t.length t le_rfl
    have h3 := headerNumber_spec (hk c!"NODE_PATCH_VERSION" (by simp)) t.length t le_rfl
    constructor
    · intro h
      unfold headerVersion at h
      cases e1 : headerNumber c!"NODE_MAJOR_VERSION" t with
      | none => simp [e1] at h
      | some a =>
        cases e2 : headerNumber c!"NODE_MINOR_VERSION" t with
        | none => simp [e1, e2] at h
        | some b =>
          cases e3 : headerNumber c!"NODE_PATCH_VERSION" t with
          | none => simp [e1, e2, e3] at h
          | some c =>
            simp only [e1, e2, e3, Option.bind_eq_bind, Option.bind_some, Option.some.injEq] at h
            exact ⟨t, rfl, a, b, c, (h1 a).mp e1, (h2 b).mp e2, (h3 c).mp e3, h.symm⟩
    · rintro ⟨t', ht, a, b, c, e1, e2, e3, rfl⟩
      cases ht
      unfold headerVersion
      simp only [(h1 a).mpr e1, (h2 b).mpr e2, (h3 c).mpr e3, Option.bind_eq_bind, Option.bind_some]

theorem expands_iff (home p q : Str) : expandHome home p = q ↔ Expands home p q := by
  unfold Expands
  cases p with
  | nil => simp [expandHome, eq_comm]
  | cons c cs =>
    by_cases hc : c = '~'
    · subst hc
      simp [expandHome, eq_comm]
    · have : expandHome home (c :: cs) = c :: cs := by
        unfold expandHome
        split
        · rename_i h; exact absurd (List.cons.inj h).1 hc
        · rfl
      rw [this]
      simp [hc, eq_comm]

/-- The headers are those of `--nodedir`; without it, those that were installed with
node, provided that they are wanted and say that they belong to the version; otherwise
they are installed first, which needs a valid version. -/
theorem C64_headers (W : ConfigureWorld) (dir : Str) (inst : Option Str) :
    getNodeDir W = .ok (dir, inst) ↔
      (∃ p, p ≠ [] ∧ Expands W.home p dir ∧ inst = none ∧
        (W.nodedir = p ∨ W.nodedir = [] ∧ W.usePrefix = true ∧ W.nodePrefix = p ∧
          ∃ t, W.readFile (W.join (W.join (W.join p c!"include") c!"node") c!"node_version.h") = some t ∧
            HeaderOf t W.version)) ∨
      (W.nodedir = [] ∧
        ¬ (W.usePrefix = true ∧ W.nodePrefix ≠ [] ∧
          ∃ t, W.readFile (W.join (W.join (W.join W.nodePrefix c!"include") c!"node") c!"node_version.h") = some t ∧
            HeaderOf t W.version) ∧
        W.semver = true ∧ W.installs = true ∧ dir = W.resolve W.devDir W.versionDir ∧
        inst = some W.version) := by
  have hprefix : W.nodedir = [] → W.usePrefix = true → (effectiveNodedir W = W.nodePrefix ∧ W.nodePrefix ≠ [] ∧
      (∃ t, W.readFile (versionHeader W) = some t ∧ HeaderOf t W.version)) ∨
      (effectiveNodedir W = [] ∧ ¬ (W.nodePrefix ≠ [] ∧
        ∃ t, W.readFile (versionHeader W) = some t ∧ HeaderOf t W.version)) := by
    intro h1 h2
    unfold effectiveNodedir
    rw [if_pos ⟨h1, h2⟩]
    by_cases hp : W.nodePrefix = []
    · right
      simp [hp, headerVersion]
    · rw [if_neg hp]
      by_cases hh : headerVersion (W.readFile (versionHeader W)) = some W.version
      · rw [if_pos hh]
        exact Or.inl ⟨rfl, hp, (headerVersion_spec _ _).mp hh⟩
      · rw [if_neg hh]
        exact Or.inr ⟨rfl, fun h => hh ((headerVersion_spec _ _).mpr h.2)⟩
  have hgiven : ∀ p, p ≠ [] → effectiveNodedir W = p →
      (getNodeDir W = .ok (dir, inst) ↔ Expands W.home p dir ∧ inst = none) := by
    intro p hp he
    unfold getNodeDir
    rw [he, if_pos hp, ← expands_iff]
    simp [eq_comm]
  have hinstall : effectiveNodedir W = [] → (getNodeDir W = .ok (dir, inst) ↔
      W.semver = true ∧ W.installs = true ∧ dir = W.resolve W.devDir W.versionDir ∧
        inst = some W.version) := by
    intro he
    unfold getNodeDir
    rw [he, if_neg (fun h => h rfl)]
    cases W.semver <;> cases W.installs <;> simp [eq_comm]
  by_cases hn : W.nodedir = []
  · by_cases hu : W.usePrefix = true
    · rcases hprefix hn hu with ⟨h1, h2, h3⟩ | ⟨h1, h2⟩
      · rw [hgiven _ h2 h1]
        constructor
        · rintro ⟨a, b⟩
          exact Or.inl ⟨_, h2, a, b, Or.inr ⟨hn, hu, rfl, h3⟩⟩
        · rintro (⟨p, hp, a, b, c⟩ | ⟨_, hc, _⟩)
          · rcases c with c | ⟨_, _, c, _⟩
            · exact absurd (c.symm.trans hn) hp
            · rw [c]; exact ⟨a, b⟩
          · exact absurd ⟨hu, h2, h3⟩ hc
      · rw [hinstall h1]
        constructor
        · intro h
          exact Or.inr ⟨hn, fun hc => h2 hc.2, h⟩
        · rintro (⟨p, hp, a, b, c⟩ | ⟨_, _, h⟩)
          · rcases c with c | ⟨_, _, c, d⟩
            · exact absurd (c.symm.trans hn) hp
            · subst c
              exact absurd ⟨hp, d⟩ h2
          · exact h
    · have he : effectiveNodedir W = [] := by
        unfold effectiveNodedir
        rw [if_neg (fun h => hu h.2), hn]
      rw [hinstall he]
      constructor
      · intro h
        exact Or.inr ⟨hn, fun hc => hu hc.1, h⟩
      · rintro (⟨p, hp, a, b, c⟩ | ⟨_, _, h⟩)
        · rcases c with c | ⟨_, c, _⟩
          · exact absurd (c.symm.trans hn) hp
          · exact absurd c hu
        · exact h
  · have he : effectiveNodedir W = W.nodedir := by
      unfold effectiveNodedir
      rw [if_neg (fun h => hn h.1)]
    rw [hgiven _ hn he]
    constructor
    · rintro ⟨a, b⟩
      exact Or.inl ⟨_, hn, a, b, Or.inl rfl⟩
    · rintro (⟨p, hp, a, b, c⟩ | ⟨h, _⟩)
      · rcases c with rfl | ⟨c, _⟩
        · exact ⟨a, b⟩
        · exact absurd c hn
      · exact absurd h hn

/-! ### Which runs get as far as `gyp` -/

/-- A Visual Studio is needed on Windows unless a make generator is asked for: `-f` or
`--format` followed by a word that begins with `make`, or `--format=make...`. -/
theorem C64_visual_studio (W : ConfigureWorld) (argv : List Str) :
    needsVisualStudio W argv = true ↔ W.platform = c!"win32" ∧
      ¬ ∃ before after, (∃ f rest, argv = before ++ f :: after ∧ (f = c!"-f" ∨ f = c!"--format") ∧
          after = (c!"make" ++ rest) :: after.tail) ∨
        (∃ rest, argv = before ++ (c!"--format=make" ++ rest) :: after) := by
  have key : ∀ argv : List Str, usingMakeGenerator argv = true ↔
      ∃ before after, (∃ f rest, argv = before ++ f :: after ∧ (f = c!"-f" ∨ f = c!"--format") ∧
          after = (c!"make" ++ rest) :: after.tail) ∨
        (∃ rest, argv = before ++ (c!"--format=make" ++ rest) :: after) := by
    intro argv
    induction argv with
    | nil =>
      constructor
      · intro h; cases h
      · rintro ⟨b, a, ⟨f, r, h, _⟩ | ⟨r, h⟩⟩ <;> simp at h
    | cons x l ih =>
      unfold usingMakeGenerator
      rw [Bool.or_eq_true, ih]
      constructor
      · rintro (⟨b, a, ⟨f, r, rfl, h⟩ | ⟨r, rfl⟩⟩ | h)
        · exact ⟨x :: b, a, Or.inl ⟨f, r, rfl, h⟩⟩
        · exact ⟨x :: b, a, Or.inr ⟨r, rfl⟩⟩
        · by_cases hx : x = c!"-f" ∨ x = c!"--format"
          · rw [if_pos hx] at h
            cases l with
            | nil => cases h
            | cons y l =>
              obtain ⟨t, ht⟩ := List.isPrefixOf_iff_prefix.mp h
              exact ⟨[], y :: l, Or.inl ⟨x, t, rfl, hx, by rw [List.tail_cons, ht]⟩⟩
          · rw [if_neg hx] at h
            obtain ⟨t, ht⟩ := List.isPrefixOf_iff_prefix.mp h
            exact ⟨[], l, Or.inr ⟨t, by rw [ht]; rfl⟩⟩
      · rintro ⟨b, a, ⟨f, r, h, hf, ha⟩ | ⟨r, h⟩⟩
        · cases b with
          | nil =>
            right
            cases h
            rw [if_pos hf, ha]
            exact List.isPrefixOf_iff_prefix.mpr ⟨r, rfl⟩
          | cons b0 b =>
            rw [List.cons_append, List.cons.injEq] at h
            exact Or.inl ⟨b, a, Or.inl ⟨f, r, h.2, hf, ha⟩⟩
        · cases b with
          | nil =>
            right
            rw [List.nil_append, List.cons.injEq] at h
            obtain ⟨rfl, rfl⟩ := h
            rw [if_neg]
            · exact List.isPrefixOf_iff_prefix.mpr ⟨r, rfl⟩
            · rintro (h | h)
              · exact absurd (congrArg (List.take 2) h) (by simp)
              · exact absurd (congrArg (fun s => (List.drop 8 s).head?) h) (by simp)
          | cons b0 b =>
            rw [List.cons_append, List.cons.injEq] at h
            exact Or.inl ⟨b, a, Or.inr ⟨r, h.2⟩⟩
  unfold needsVisualStudio ConfigureWorld.win
  rw [Bool.and_eq_true, decide_eq_true_eq, Bool.not_eq_true', ← Bool.not_eq_true, key]

/-- The include files that are used: the one `configure` writes, then `config.gypi` and
`common.gypi` of the module as far as they exist. -/
theorem C64_configs (W : ConfigureWorld) (configs : List Str) :
    findConfigs W [W.configPath] [c!"config.gypi", c!"common.gypi"] = .ok configs ↔
      W.stat (W.resolve W.cwd c!"config.gypi") ≠ .failed ∧ W.stat (W.resolve W.cwd c!"common.gypi") ≠ .failed ∧
      configs = W.configPath :: [W.resolve W.cwd c!"config.gypi", W.resolve W.cwd c!"common.gypi"].filter
        (fun f => decide (W.stat f = .found)) := by
  cases h1 : W.stat (W.resolve W.cwd c!"config.gypi") <;>
    cases h2 : W.stat (W.resolve W.cwd c!"common.gypi") <;>
    simp [findConfigs, h1, h2, List.filter, eq_comm]

theorem find_first (P : Str → Bool) (l : List Str) (f : Str) :
    l.find? P = some f ↔ FirstOf (fun x => P x = true) l f := by
  rw [List.find?_eq_some_iff_append]
  unfold FirstOf
  constructor
  · rintro ⟨h, as, bs, rfl, hn⟩
    refine ⟨as, bs, rfl, h, ?_⟩
    intro b hb hP
    have := hn b hb
    simp [hP] at this
  · rintro ⟨as, bs, rfl, h, hn⟩
    refine ⟨h, as, bs, rfl, ?_⟩
    intro b hb
    have := hn b hb
    simpa using this

/-- On AIX, IBM i and z/OS the exports file is the first readable candidate below the
directory of node; without one the command fails.  Elsewhere none is needed. -/
theorem C64_exports (W : ConfigureWorld) (e : Option Str) :
    exportsFile W = .ok e ↔
      if W.platform ∈ [c!"aix", c!"os400", c!"os390"] then
        ∃ f, e = some f ∧ FirstOf (fun x => W.readable x = true)
          ((if W.platform = c!"os390" then
              [c!"out/Release/lib.target/libnode.x", c!"out/Debug/lib.target/libnode.x",
               c!"out/Release/obj.target/libnode.x", c!"out/Debug/obj.target/libnode.x", c!"lib/libnode.x"]
            else [c!"include/node/node.exp", c!"out/Release/node.exp", c!"out/Debug/node.exp",
              c!"node.exp"]).map (W.resolve W.nodeRoot)) f
      else e = none := by
  unfold exportsFile
  by_cases h : W.platform ∈ [c!"aix", c!"os400", c!"os390"]
  · rw [if_pos h]
    have hn : needsExports W.platform = true := by
      simp only [List.mem_cons, List.not_mem_nil, or_false] at h
      unfold needsExports
      rcases h with h | h | h <;> rw [h] <;> rfl
    have hc : exportCandidates W.platform = (if W.platform = c!"os390" then
              [c!"out/Release/lib.target/libnode.x", c!"out/Debug/lib.target/libnode.x",
               c!"out/Release/obj.target/libnode.x", c!"out/Debug/obj.target/libnode.x", c!"lib/libnode.x"]
            else [c!"include/node/node.exp", c!"out/Release/node.exp", c!"out/Debug/node.exp",
              c!"node.exp"]) := by
      simp only [List.mem_cons, List.not_mem_nil, or_false] at h
      rcases h with h | h | h <;> rw [h] <;> rfl
    rw [if_pos hn, hc]
    simp only [← find_first]
    unfold findAccessible
    cases hf : List.find? W.readable _ with
    | none => simp
    | some f => simp [eq_comm]
  · rw [if_neg h]
    have hn : ¬ needsExports W.platform = true := by
      intro hn
      apply h
      unfold needsExports at hn
      simp only [Bool.or_eq_true, decide_eq_true_eq] at hn
      rcases hn with (hn | hn) | hn <;> simp [hn]
    rw [if_neg hn]
    simp [eq_comm]

/-- The command succeeds exactly when `gyp` ends with exit code 0. -/
theorem C64_result (code : Option Nat) : finishConfigure code = .ok () ↔ code = some 0 := by
  unfold finishConfigure
  by_cases h : code = some 0 <;> simp [h]

/-- `gyp` is started exactly when the headers are there, a Visual Studio is found where
one is needed, no configuration file is unreadable, and the exports file and the z/OS
library are found where they are needed. -/
theorem C64_runs (W : ConfigureWorld) (argv : List Str) :
    (∃ args, configurePlan W argv = .ok args) ↔
      (∃ d i, getNodeDir W = .ok (d, i)) ∧
      (needsVisualStudio W argv = true → W.visualStudio = true) ∧
      W.stat (W.resolve W.cwd c!"config.gypi") ≠ .failed ∧ W.stat (W.resolve W.cwd c!"common.gypi") ≠ .failed ∧
      (∃ e, exportsFile W = .ok e) ∧ (∃ z, zoslibDir W = .ok z) := by
  constructor
  · rintro ⟨args, h⟩
    obtain ⟨nodeDir, inst, configs, e, z, h1, h2, h3, h4, _⟩ := plan_parts h
    have hc := (C64_configs W configs).mp h2
    refine ⟨⟨_, _, h1⟩, ?_, hc.1, hc.2.1, ⟨_, h3⟩, ⟨_, h4⟩⟩
    intro hv
    unfold configurePlan at h
    rw [h1] at h
    cases hvs : W.visualStudio with
    | true => rfl
    | false =>
      have : (needsVisualStudio W argv && !W.visualStudio) = true := by rw [hv, hvs]; rfl
      rw [this] at h
      cases h
  · rintro ⟨⟨d, i, h1⟩, hv, hc1, hc2, ⟨e, h3⟩, ⟨z, h4⟩⟩
    obtain ⟨cfgs, h2⟩ : ∃ cfgs, findConfigs W [W.configPath] [c!"config.gypi", c!"common.gypi"] = .ok cfgs :=
      ⟨_, (C64_configs W _).mpr ⟨hc1, hc2, rfl⟩⟩
    refine ⟨gypArgs W argv cfgs d e z, ?_⟩
    unfold configurePlan
    have hvs : (needsVisualStudio W argv && !W.visualStudio) = false := by
      cases hn : needsVisualStudio W argv with
      | false => rfl
      | true => rw [hv hn]; rfl
    rw [h1, h2, h3, h4]
    simp only [bind, Except.bind, hvs, Bool.false_eq_true, if_false, pure, Except.pure]

/-- The file that is looked for on z/OS: in the directory of `ZOSLIB_INCLUDES` if that
is set, otherwise in four places; without it the command fails from node 16 on. -/
theorem C64_zoslib (W : ConfigureWorld) (z : Option Str) :
    zoslibDir W = .ok z ↔
      if W.platform = c!"os390" then
        (∃ f, FirstOf (fun x => W.readable x = true)
          (if W.zoslibIncludes ≠ [] then [W.resolve W.zoslibIncludes c!"zos-base.h"]
           else [c!"include/node/zoslib/zos-base.h", c!"include/zoslib/zos-base.h",
             c!"zoslib/include/zos-base.h", c!"install/include/node/zoslib/zos-base.h"].map
              (W.resolve W.nodeRoot)) f ∧ z = some (W.dirname f)) ∨
        ((∀ f ∈ (if W.zoslibIncludes ≠ [] then [W.resolve W.zoslibIncludes c!"zos-base.h"]
           else [c!"include/node/zoslib/zos-base.h", c!"include/zoslib/zos-base.h",
             c!"zoslib/include/zos-base.h", c!"install/include/node/zoslib/zos-base.h"].map
              (W.resolve W.nodeRoot)), W.readable f = false) ∧ W.since16 = false ∧ z = none)
      else z = none := by
  unfold zoslibDir
  by_cases h : W.platform = c!"os390"
  · rw [if_pos h, if_pos h]
    simp only
    have e : (if W.zoslibIncludes ≠ [] then findAccessible W W.zoslibIncludes [c!"zos-base.h"]
      else findAccessible W W.nodeRoot
        [c!"include/node/zoslib/zos-base.h", c!"include/zoslib/zos-base.h",
         c!"zoslib/include/zos-base.h", c!"install/include/node/zoslib/zos-base.h"]) =
        (if W.zoslibIncludes ≠ [] then [W.resolve W.zoslibIncludes c!"zos-base.h"]
           else [c!"include/node/zoslib/zos-base.h", c!"include/zoslib/zos-base.h",
             c!"zoslib/include/zos-base.h", c!"install/include/node/zoslib/zos-base.h"].map
              (W.resolve W.nodeRoot)).find? W.readable := by
      by_cases hz : W.zoslibIncludes ≠ []
      · rw [if_pos hz, if_pos hz]; rfl
      · rw [if_neg hz, if_neg hz]; rfl
    rw [e]
    generalize (if W.zoslibIncludes ≠ [] then [W.resolve W.zoslibIncludes c!"zos-base.h"]
           else [c!"include/node/zoslib/zos-base.h", c!"include/zoslib/zos-base.h",
             c!"zoslib/include/zos-base.h", c!"install/include/node/zoslib/zos-base.h"].map
              (W.resolve W.nodeRoot)) = l
    cases hf : l.find? W.readable with
    | some f =>
      have h1 := (find_first _ _ _).mp hf
      constructor
      · intro h; cases h; exact Or.inl ⟨f, h1, rfl⟩
      · rintro (⟨g, hg, rfl⟩ | ⟨hn, _⟩)
        · have := (find_first _ _ _).mpr hg
          rw [hf] at this
          cases this
          rfl
        · have := hn f (List.mem_of_find?_eq_some hf)
          rw [List.find?_some hf] at this
          cases this
    | none =>
      have hn : ∀ f ∈ l, W.readable f = false := by
        intro f hm
        have := List.find?_eq_none.mp hf f hm
        simpa using this
      cases W.since16 with
      | true =>
        constructor
        · intro h; cases h
        · rintro (⟨g, hg, rfl⟩ | ⟨_, hc, _⟩)
          · have := (find_first _ _ _).mpr hg
            rw [hf] at this
            cases this
          · cases hc
      | false =>
        constructor
        · intro h; cases h; exact Or.inr ⟨hn, rfl, rfl⟩
        · rintro (⟨g, hg, rfl⟩ | ⟨_, _, rfl⟩)
          · have := (find_first _ _ _).mpr hg
            rw [hf] at this
            cases this
          · rfl
  · rw [if_neg h, if_neg h]
    simp [eq_comm]

/-! ### Limits and examples -/

def exConfigure : ConfigureWorld where
  platform := c!"linux"
  join := fun a b => a ++ c!"/" ++ b
  resolve := fun a b => if b.head? = some '/' then b else if a.head? = some '/' then a ++ c!"/" ++ b
    else c!"/m/" ++ a ++ c!"/" ++ b
  dirname := fun p => p
  cwd := c!"/m"
  home := c!"/home/u"
  devDir := c!"/cache"
  packageDir := c!"/gyp"
  nodedir := []
  nodeEngine := []
  jsEngine := []
  usePrefix := true
  nodePrefix := c!"/usr"
  readFile := fun p => if p = c!"/usr/include/node/node_version.h" then
    some c!"/* */\n#define NODE_MAJOR_VERSION 20\n#define NODE_MINOR_VERSION 1\n#define NODE_PATCH_VERSION 0\n"
    else none
  stat := fun p => if p = c!"/m/common.gypi" then .found else .missing
  readable := fun _ => false
  version := c!"20.1.0"
  semver := true
  name := c!"node"
  versionDir := c!"20.1.0"
  installs := true
  visualStudio := false
  configPath := c!"/m/build/config.gypi"
  nodeRoot := c!"/usr"
  zoslibIncludes := []
  since16 := true

def exConfigureArgs : List Str :=
  [c!"binding.gyp", c!"--depth=..", c!"-Dlibrary=static_library", c!"-Dmine=1", c!"-f", c!"make",
   c!"-I", c!"/m/build/config.gypi", c!"-I", c!"/m/common.gypi", c!"-I", c!"/gyp/addon.gypi",
   c!"-I", c!"/usr/common.gypi", c!"-Dlibrary=shared_library", c!"-Dvisibility=default",
   c!"-Dnode_root_dir=/usr", c!"-Dnode_gyp_dir=/gyp", c!"-Dnode_lib_file=/usr/$(Configuration)/node.lib",
   c!"-Dmodule_root_dir=/m", c!"-Dnode_engine=v8", c!"--depth=.", c!"--no-parallel",
   c!"--generator-output", c!"build", c!"-Goutput_dir=."]

/-- The hypotheses of `C64_settings` for arguments that try to change the settings. -/
example : configurePlan exConfigure [c!"--depth=..", c!"-Dlibrary=static_library", c!"-Dmine=1"] =
    .ok exConfigureArgs := by
  rfl

example : ∃ o, parseArgs gypOptions [c!"--depth=..", c!"-Dlibrary=static_library", c!"-Dmine=1"] = .ok (o, []) :=
  ⟨_, rfl⟩

example (a b : Str) : (exConfigure.resolve a b).head? ≠ some '-' := by
  simp only [exConfigure]
  by_cases hb : b.head? = some '/'
  · rw [if_pos hb, hb]; decide
  · rw [if_neg hb]
    by_cases ha : a.head? = some '/'
    · rw [if_pos ha]
      cases a with
      | nil => cases ha
      | cons c cs =>
        simp only [List.head?_cons, Option.some.injEq] at ha
        subst ha
        simp
    · rw [if_neg ha]; simp

/-- The headers of the running node are used in the example; with another version in the
header they are installed. -/
example : getNodeDir exConfigure = .ok (c!"/usr", none) ∧
    getNodeDir { exConfigure with version := c!"20.1.1", versionDir := c!"20.1.1" } =
      .ok (c!"/cache/20.1.1", some c!"20.1.1") ∧
    getNodeDir { exConfigure with nodedir := c!"~/node" } = .ok (c!"/home/u/node", none) := by
  refine ⟨rfl, rfl, rfl⟩

example : parseArgs gypOptions [c!"--depth"] = .error .expectedArgument := rfl

example : exportsFile { exConfigure with platform := c!"aix", readable := fun p => p = c!"/usr/node.exp" } =
    .ok (some c!"/usr/node.exp") ∧
    exportsFile { exConfigure with platform := c!"aix" } = .error .noExportsFile := ⟨rfl, rfl⟩

example : needsVisualStudio { exConfigure with platform := c!"win32" } [c!"-f", c!"make-linux"] = false ∧
    needsVisualStudio { exConfigure with platform := c!"win32" } [c!"-f", c!"ninja"] = true := ⟨rfl, rfl⟩

/-- A bare `--` among the arguments switches the settings of `configure` off: they are
taken for build files. -/
theorem C64_double_dash :
    ∃ args o extras, configurePlan exConfigure [c!"--"] = .ok args ∧
      parseArgs gypOptions args = .ok (o, extras) ∧ o c!"depth" = .none ∧ c!"--depth=." ∈ extras := by
  refine ⟨_, _, _, rfl, rfl, rfl, ?_⟩
  decide +kernel

/-- A format attached to its option is not noticed: two formats are generated. -/
theorem C64_attached_format :
    ∃ args o, configurePlan exConfigure [c!"--format=ninja"] = .ok args ∧
      parseArgs gypOptions args = .ok (o, [c!"binding.gyp"]) ∧
      o c!"formats" = .many [c!"ninja", c!"make"] := by
  refine ⟨_, _, rfl, rfl, rfl⟩

/-- A further word is taken for a second build file. -/
theorem C64_extra_word :
    ∃ args o, configurePlan exConfigure [c!"20.1.0"] = .ok args ∧
      parseArgs gypOptions args = .ok (o, [c!"binding.gyp", c!"20.1.0"]) := by
  refine ⟨_, _, rfl, rfl⟩

end Gyp
