import Verif.Spec.Build
import Verif.Props.ConfigGypi
import Verif.Props.FindVS
import Verif.Props.Options
/-
C66: the command that compiles the addon.
-/
namespace Gyp
open Spec

theorem truthyOpt_some {W : BuildWorld} {k : Str} {v : JVal} :
    truthyOpt W k = some v ↔ aget W.opts k = some v ∧ v.truthy = true := by
  unfold truthyOpt
  cases e : aget W.opts k with
  | none => simp
  | some a =>
    cases h : a.truthy
    · simp only [h, Bool.false_eq_true, if_false]
      constructor
      · intro x; cases x
      · rintro ⟨x, y⟩; cases x; rw [h] at y; cases y
    · simp only [h, if_true]
      constructor
      · intro x; cases x; exact ⟨rfl, h⟩
      · rintro ⟨x, _⟩; exact x

theorem truthyOpt_none {W : BuildWorld} {k : Str} :
    truthyOpt W k = none ↔ ∀ v, aget W.opts k = some v → v.truthy = false := by
  constructor
  · intro h v hv
    cases ht : v.truthy
    · rfl
    · rw [truthyOpt_some.mpr ⟨hv, ht⟩] at h; cases h
  · intro h
    cases e : truthyOpt W k with
    | none => rfl
    | some v =>
      obtain ⟨h1, h2⟩ := truthyOpt_some.mp e
      rw [h v h1] at h2; cases h2

theorem jobsText_iff (W : BuildWorld) (s : Str) : JobsText W s ↔ s = jobsWord W := by
  unfold JobsText jobsWord
  cases e : truthyOpt W c!"jobs" with
  | some v =>
    obtain ⟨h1, h2⟩ := truthyOpt_some.mp e
    simp only
    constructor
    · rintro (⟨w, hw, _, rfl⟩ | ⟨h, _⟩)
      · rw [h1] at hw; cases hw; rfl
      · rw [h v h1] at h2; cases h2
    · rintro rfl; exact .inl ⟨v, h1, h2, rfl⟩
  | none =>
    have h := truthyOpt_none.mp e
    simp only
    constructor
    · rintro (⟨w, hw, ht, rfl⟩ | ⟨_, rfl⟩)
      · rw [h w hw] at ht; cases ht
      · rfl
    · rintro rfl; exact .inr ⟨h, rfl⟩

theorem jobs_iff (W : BuildWorld) (n : Nat) : Jobs W n ↔ jobsCount W = some n := by
  unfold Jobs jobsCount
  have hp : ∀ m : Nat, 0 < m → (StartsWithNumber (jobsWord W) m ↔ parseIntOr0 (jobsWord W) = (m : Int)) :=
    fun m hm => parseInt_pos hm
  constructor
  · rintro ⟨s, hs, h⟩
    rw [jobsText_iff] at hs
    subst hs
    have hne : jobsWord W ≠ [] := by
      intro h0
      rcases h with ⟨h1, h2⟩ | ⟨_, h2, _⟩
      · rw [hp n h1, h0] at h2
        have : parseIntOr0 [] = 0 := rfl
        rw [this] at h2; omega
      · rw [h0] at h2; cases h2
    rw [if_neg hne]
    rcases h with ⟨h1, h2⟩ | ⟨h1, h2, rfl⟩
    · rw [hp n h1] at h2
      rw [if_pos (by omega), h2]
      simp
    · rw [if_neg, if_pos (show asciiLower (jobsWord W) = _ from h2)]
      intro h3
      refine h1 (parseIntOr0 (jobsWord W)).toNat (by omega) ?_
      rw [hp _ (by omega)]
      omega
  · intro h
    refine ⟨jobsWord W, (jobsText_iff W _).mpr rfl, ?_⟩
    split at h
    · cases h
    · split at h
      · rename_i h1
        simp only [Option.some.injEq] at h
        left
        refine ⟨by omega, ?_⟩
        rw [hp _ (by omega)]
        omega
      · rename_i h1
        split at h
        · rename_i h2
          right
          refine ⟨fun m hm hs => ?_, h2, (Option.some.inj h).symm⟩
          rw [hp m hm] at hs; omega
        · cases h

theorem buildType_spec (W : BuildWorld) (conf : Option JVal) : BuildTypeIs W conf (buildType W conf) := by
  unfold BuildTypeIs buildType
  cases e : aget W.opts c!"debug" with
  | some d => exact .inl ⟨d, rfl, rfl⟩
  | none =>
    refine .inr ⟨rfl, ?_⟩
    cases conf with
    | none => exact .inr ⟨fun v hv => (by cases hv), rfl⟩
    | some v =>
      cases h : v.truthy
      · refine .inr ⟨fun w hw => by cases hw; exact h, by simp [h]⟩
      · exact .inl ⟨v, rfl, h, by simp [h]⟩

theorem hasSub_iff (t : Str) : ∀ s : Str, hasSub t s = true ↔ ∃ a b, s = a ++ t ++ b
  | [] => by
    unfold hasSub
    simp only [decide_eq_true_eq]
    constructor
    · rintro rfl; exact ⟨[], [], rfl⟩
    · rintro ⟨a, b, h⟩
      have := congrArg List.length h
      simp only [List.length_nil, List.length_append] at this
      exact List.length_eq_zero_iff.mp (by omega)
  | c :: s => by
    unfold hasSub
    rw [Bool.or_eq_true, hasSub_iff t s]
    constructor
    · rintro (h | ⟨a, b, rfl⟩)
      · unfold startsWith at h
        have h := List.isPrefixOf_iff_prefix.mp h
        obtain ⟨b, hb⟩ := h
        exact ⟨[], b, by simpa using hb.symm⟩
      · exact ⟨c :: a, b, rfl⟩
    · rintro ⟨a, b, h⟩
      cases a with
      | nil =>
        left
        unfold startsWith
        exact List.isPrefixOf_iff_prefix.mpr ⟨b, by simpa using h.symm⟩
      | cons x a =>
        right
        simp only [List.cons_append, List.cons.injEq] at h
        exact ⟨a, b, h.2⟩

theorem makeCommand_spec (W : BuildWorld) : MakeIs W (makeCommand W) := by
  unfold MakeIs makeCommand
  cases e : truthyOpt W c!"make" with
  | some v =>
    obtain ⟨h1, h2⟩ := truthyOpt_some.mp e
    exact .inl ⟨v, h1, h2, rfl⟩
  | none =>
    refine .inr ⟨truthyOpt_none.mp e, ?_⟩
    by_cases hm : W.makeVar = []
    · refine .inr ⟨hm, ?_⟩
      simp only [ne_eq, hm, not_true_eq_false, if_false]
      unfold platformMake
      by_cases h1 : W.platform = c!"aix"
      · rw [if_pos h1]; exact .inl ⟨.inl (by rw [h1]; decide), rfl⟩
      rw [if_neg h1]
      by_cases h2 : W.platform = c!"os400"
      · rw [if_pos h2]; exact .inl ⟨.inl (by rw [h2]; decide), rfl⟩
      rw [if_neg h2]
      by_cases h3 : hasSub c!"bsd" W.platform = true
      · rw [if_pos h3]; exact .inl ⟨.inr ((hasSub_iff _ _).mp h3), rfl⟩
      · rw [if_neg h3]
        exact .inr ⟨by simp [h1, h2], fun h => h3 ((hasSub_iff _ _).mpr h), rfl⟩
    · exact .inl ⟨hm, by simp [hm]⟩

theorem readMake_cons {w : Str} (h1 : w ≠ c!"-C") (h2 : w ≠ c!"--jobs") (r : List Str) :
    readMake (w :: r) = (readMake r).bind (makeWord w) := by
  cases r with
  | nil => rfl
  | cons d r => rw [readMake, if_neg h1, if_neg h2]

theorem makeWord_plain {w : Str} (h : PlainGoal w) (m : MakeCall) : makeWord w m = some { m with goals := w :: m.goals } := by
  unfold makeWord
  rw [if_neg h.1, split1_none_iff.mpr h.2]

theorem readMake_goals : ∀ (l : List Str) (r : List Str) (m : MakeCall), (∀ w ∈ l, PlainGoal w) → readMake r = some m →
    readMake (l ++ r) = some { m with goals := l ++ m.goals }
  | [], _, _, _, h => h
  | w :: l, r, m, hl, h => by
    have ih := readMake_goals l r m (fun x hx => hl x (by simp [hx])) h
    have hw := hl w (by simp)
    rw [List.cons_append, readMake_cons, ih]
    · exact makeWord_plain hw _
    · rintro rfl; exact hw.1 rfl
    · rintro rfl; exact hw.1 rfl

theorem readMake_args (W : BuildWorld) (argv : List Str) (type : Str) (ha : ∀ w ∈ argv, PlainGoal w) :
    ∃ js, JobsAre W js ∧ readMake (makeArgs W argv type) =
      some ⟨[c!"build"], (if W.verbose then [(c!"V", c!"1")] else []) ++ [(c!"BUILDTYPE", type)], js, argv⟩ := by
  have hj : ∃ js, JobsAre W js ∧ readMake (makeJobs W) = some { jobs := js } := by
    unfold makeJobs
    cases e : jobsCount W with
    | none =>
      refine ⟨[], .inr ⟨fun n hn => ?_, rfl⟩, rfl⟩
      rw [jobs_iff, e] at hn; cases hn
    | some j =>
      refine ⟨[j], .inl ⟨j, (jobs_iff W j).mpr e, rfl⟩, ?_⟩
      have hd := natStr_digits j
      have hv : decValue (natStr j) = j := hd.2.2
      simp only
      rw [readMake, if_neg (by decide), if_pos rfl, if_pos ⟨hd.1, hd.2.1⟩, hv]
      rfl
  obtain ⟨js, h1, h2⟩ := hj
  refine ⟨js, h1, ?_⟩
  unfold makeArgs
  generalize makeJobs W = J at h2
  have h3 : readMake ([c!"BUILDTYPE=" ++ type, c!"-C", c!"build"] ++ J) =
      some { dirs := [c!"build"], vars := [(c!"BUILDTYPE", type)], jobs := js } := by
    have h4 : readMake (c!"-C" :: c!"build" :: J) = some { dirs := [c!"build"], jobs := js } := by
      rw [readMake, if_pos rfl, h2]; rfl
    show readMake ((c!"BUILDTYPE=" ++ type) :: c!"-C" :: c!"build" :: J) = _
    rw [readMake_cons (by simp) (by simp), h4]
    rfl
  have h5 : readMake ((if W.verbose = true then [c!"V=1"] else []) ++ ([c!"BUILDTYPE=" ++ type, c!"-C", c!"build"] ++ J)) =
      some { dirs := [c!"build"], vars := (if W.verbose then [(c!"V", c!"1")] else []) ++ [(c!"BUILDTYPE", type)], jobs := js } := by
    cases W.verbose
    · exact h3
    · simp only [if_true, List.cons_append, List.nil_append] at h3 ⊢
      rw [readMake_cons (by decide) (by decide), h3]
      rfl
  have h6 := readMake_goals argv _ _ ha h5
  simp only [List.append_nil] at h6
  simpa only [List.append_assoc] using h6

/-! ### Settings read back -/

theorem aget_boolsAsTextM (l : List (Str × JVal)) (k : Str) : aget (boolsAsTextM l) k = (aget l k).map boolsAsText := by
  induction l with
  | nil => simp [boolsAsTextM, aget]
  | cons p l ih =>
    obtain ⟨a, v⟩ := p
    simp only [boolsAsTextM, aget]
    by_cases h : a = k
    · rw [if_pos h, if_pos h]; rfl
    · rw [if_neg h, if_neg h, ih]

theorem at_boolsAsText : ∀ (ks : List Str) (v : JVal), at_ (boolsAsText v) ks = (at_ v ks).map boolsAsText
  | [], v => by simp [at_]
  | k :: ks, v => by
    cases v with
    | obj l =>
      simp only [boolsAsText, at_, aget_boolsAsTextM]
      cases aget l k with
      | none => rfl
      | some x => exact at_boolsAsText ks x
    | bool b => cases b <;> simp [boolsAsText, at_]
    | _ => simp [boolsAsText, at_]

theorem prop_ok {v : Option JVal} {k : Str} {x : Option JVal} (h : prop v k = .ok x) :
    ∃ w, v = some w ∧ x = at_ w [k] := by
  cases v with
  | none => cases h
  | some w =>
    refine ⟨w, rfl, ?_⟩
    cases w with
    | obj l =>
      cases h
      simp only [at_]
      cases aget l k <;> rfl
    | null => cases h
    | bool b => cases h; rfl
    | num i => cases h; rfl
    | str s => cases h; rfl
    | arr l => cases h; rfl

theorem prop2 {config : JVal} {k k' : Str} {d x : Option JVal} (h1 : prop (some config) k = .ok d) (h2 : prop d k' = .ok x) :
    x = at_ config [k, k'] := by
  obtain ⟨w, hw, hd⟩ := prop_ok h1
  cases hw
  obtain ⟨w', hw', hx⟩ := prop_ok h2
  rw [hw'] at hd
  rw [hx]
  cases config <;> simp only [at_] at hd ⊢ <;> try (cases hd)
  rename_i l
  cases e : aget l k with
  | none => rw [e] at hd; cases hd
  | some y =>
    rw [e] at hd
    simp only [Option.bind_some] at hd ⊢
    cases hd
    cases w' <;> rfl

/-! ### make -/

theorem buildPlan_ok {W : BuildWorld} {argv : List Str} {s : Spawned} (h : buildPlan W argv = .ok s) :
    ∃ text config, W.configFile = some text ∧ W.parse (dropComment text) = some config ∧ buildWith W argv config = .ok s := by
  unfold buildPlan at h
  cases h1 : W.configFile with
  | none => rw [h1] at h; cases h
  | some text =>
    rw [h1] at h
    simp only at h
    cases h2 : W.parse (dropComment text) with
    | none => rw [h2] at h; cases h
    | some config => rw [h2] at h; exact ⟨text, config, rfl, h2, h⟩

/-- The settings that a build looks at. -/
theorem buildWith_ok {W : BuildWorld} {argv : List Str} {config : JVal} {s : Spawned}
    (h : buildWith W argv config = .ok s) :
    (if W.win then
      match W.solutions with
      | [] =>
        if W.makefiles then withMake W (userArgs W argv)
          (buildType W (at_ config [c!"target_defaults", c!"default_configuration"])) (at_ config [c!"variables", c!"python"])
        else .error .noSolution
      | s :: _ => withMsbuild W (userArgs W argv)
          (buildType W (at_ config [c!"target_defaults", c!"default_configuration"]))
          (at_ config [c!"variables", c!"target_arch"]) (at_ config [c!"variables", c!"msbuild_path"])
          (at_ config [c!"variables", c!"python"]) s
    else withMake W (userArgs W argv)
      (buildType W (at_ config [c!"target_defaults", c!"default_configuration"])) (at_ config [c!"variables", c!"python"])) =
      .ok s := by
  unfold buildWith at h
  cases h1 : prop (some config) c!"target_defaults" with
  | error e => rw [h1] at h; cases h
  | ok d =>
  cases h2 : prop d c!"default_configuration" with
  | error e => rw [h1] at h; simp only [bind, Except.bind] at h; rw [h2] at h; cases h
  | ok t =>
  cases h3 : prop (some config) c!"variables" with
  | error e => rw [h1] at h; simp only [bind, Except.bind] at h; rw [h2, h3] at h; cases h
  | ok v =>
  cases h4 : prop v c!"target_arch" with
  | error e => rw [h1] at h; simp only [bind, Except.bind] at h; rw [h2, h3] at h; simp only at h; rw [h4] at h; cases h
  | ok a =>
  cases h5 : prop v c!"python" with
  | error e => rw [h1] at h; simp only [bind, Except.bind] at h; rw [h2, h3] at h; simp only at h; rw [h4, h5] at h; cases h
  | ok p =>
  cases h6 : prop v c!"msbuild_path" with
  | error e => rw [h1] at h; simp only [bind, Except.bind] at h; rw [h2, h3] at h; simp only at h; rw [h4, h5, h6] at h; cases h
  | ok m =>
  rw [h1] at h
  simp only [bind, Except.bind] at h
  rw [h2, h3] at h
  simp only at h
  rw [h4, h5, h6] at h
  rw [← prop2 h1 h2, ← prop2 h3 h4, ← prop2 h3 h5, ← prop2 h3 h6]
  exact h

/-- **C66** (make).  What is run outside Windows: the `make` asked for, in the directory `build`, with
the build type and the number of jobs asked for and the goals given by the user; and Python is
the one of the settings. -/
theorem C66_make (W : BuildWorld) (argv : List Str) (s : Spawned) (hw : W.win = false)
    (ha : ∀ w ∈ argv, PlainGoal w) (h : buildPlan W argv = .ok s) :
    ∃ text config type js, W.configFile = some text ∧ W.parse (dropComment text) = some config ∧
      MakeIs W s.command ∧ W.found s.command = true ∧
      BuildTypeIs W (at_ config [c!"target_defaults", c!"default_configuration"]) type ∧ JobsAre W js ∧
      readMake s.args = some ⟨[c!"build"],
        (if W.verbose then [(c!"V", c!"1")] else []) ++ [(c!"BUILDTYPE", type)], js, argv⟩ ∧
      s.path = W.binsDir ++ c!":" ++ W.pathVar ∧
      (∀ p, at_ config [c!"variables", c!"python"] = some (.str p) → s.link = some p) := by
  obtain ⟨text, config, h1, h2, h3⟩ := buildPlan_ok h
  have h4 := buildWith_ok h3
  rw [hw] at h4
  simp only [Bool.false_eq_true, if_false] at h4
  unfold withMake at h4
  split at h4
  · rename_i hf
    obtain ⟨js, hj, hr⟩ := readMake_args W argv
      (buildType W (at_ config [c!"target_defaults", c!"default_configuration"])) ha
    have hu : userArgs W argv = argv := by unfold userArgs; rw [hw]; rfl
    rw [hu] at h4
    unfold withLink at h4
    rw [hw] at h4
    simp only [Bool.false_eq_true, if_false, Except.ok.injEq] at h4
    subst h4
    refine ⟨text, config, _, js, h1, h2, makeCommand_spec W, hf, buildType_spec W _, hj, hr, rfl, ?_⟩
    intro p hp
    simp only [hp]
    rfl
  · cases h4

theorem prop_obj (l : List (Str × JVal)) (k : Str) : prop (some (.obj l)) k = .ok (aget l k) := rfl

theorem aget_written (l : List (Str × JVal)) (k : Str) :
    prop (some (boolsAsText (.obj l))) k = .ok ((aget l k).map boolsAsText) := by
  rw [boolsAsText, prop_obj, aget_boolsAsTextM]

/-- **C66** (configure, then build).  A build outside Windows after `configure` runs if the `make`
is found.  It builds what `--debug` asks for; without that, what `--debug` asked `configure` for; without
that, what Node was built as; and Python is the one that `configure` found. -/
theorem C66_configured (E : CfgEnv) (base : List (Str × JVal)) (W : BuildWorld) (argv : List Str)
    (hp : ParsesJson W.parse) (hf : W.configFile = some (gypiText (.obj (currentConfig E base))))
    (hw : W.win = false) (hm : ∀ c, MakeIs W c → W.found c = true)
    (hpy : ∀ p ∈ E.opts, ¬ SetsVariable E p.1 c!"python") (ha : ∀ w ∈ argv, PlainGoal w) :
    ∃ s type js, buildPlan W argv = .ok s ∧ MakeIs W s.command ∧ JobsAre W js ∧
      readMake s.args = some ⟨[c!"build"],
        (if W.verbose then [(c!"V", c!"1")] else []) ++ [(c!"BUILDTYPE", type)], js, argv⟩ ∧
      s.link = some E.python ∧
      (∀ d, aget W.opts c!"debug" = some d → type = if d.truthy then c!"Debug" else c!"Release") ∧
      (aget W.opts c!"debug" = none →
        (∀ d, aget E.opts c!"debug" = some d → type = if d.truthy then c!"Debug" else c!"Release") ∧
        (aget E.opts c!"debug" = none →
          (∀ t, at_ (.obj base) [c!"target_defaults", c!"default_configuration"] = some (.str t) → t ≠ [] → type = t) ∧
          (at_ (.obj base) [c!"target_defaults", c!"default_configuration"] = none → type = c!"Release"))) := by
  have hr := hp _ _ (C65_build (.obj (currentConfig E base)))
  have hplan : ∃ s, buildPlan W argv = .ok s := by
    unfold buildPlan
    rw [hf]
    simp only
    rw [hr]
    simp only
    unfold buildWith
    rw [aget_written, aget_written]
    have e1 : aget (currentConfig E base) c!"target_defaults" =
        some (.obj (cfgDefaults E (objOrEmpty (aget base c!"target_defaults")))) := by
      unfold currentConfig
      simp only [aget_aset, if_true]
      rfl
    have e2 : aget (currentConfig E base) c!"variables" =
        some (.obj (cfgVariables E (objOrEmpty (aget base c!"variables")))) := by
      unfold currentConfig
      simp only [aget_aset, if_true]
    simp only [bind, Except.bind]
    rw [e1, e2]
    simp only [Option.map_some]
    rw [aget_written, aget_written, aget_written, aget_written, hw]
    simp only [Bool.false_eq_true, if_false]
    unfold withMake
    rw [if_pos (hm _ (makeCommand_spec W))]
    exact ⟨_, rfl⟩
  obtain ⟨s, hs⟩ := hplan
  obtain ⟨text, config, type, js, h1, h2, h3, h4, h5, h6, h7, h8, h9⟩ := C66_make W argv s hw ha hs
  rw [hf] at h1
  cases h1
  rw [hr] at h2
  cases h2
  refine ⟨s, type, js, hs, h3, h6, h7, ?_, ?_, ?_⟩
  · apply h9
    rw [at_boolsAsText, (C65_variables E base c!"python" hpy).2.1 rfl]
    rfl
  · intro d hd
    rcases h5 with ⟨d', hd', rfl⟩ | ⟨h, _⟩
    · rw [hd] at hd'; cases hd'; rfl
    · rw [hd] at h; cases h
  · intro hd
    rcases h5 with ⟨d', hd', _⟩ | ⟨_, h5⟩
    · rw [hd] at hd'; cases hd'
    rw [at_boolsAsText] at h5
    have hdef := (C65_defaults E base c!"default_configuration").2.1 rfl
    constructor
    · intro d he
      rw [hdef.1 d he] at h5
      rcases h5 with ⟨v, hv, _, rfl⟩ | ⟨hn, _⟩
      · cases hv; rfl
      · have := hn _ rfl
        revert this
        cases d.truthy <;> exact fun h => absurd h (by decide)
    · intro he
      obtain ⟨g1, g2⟩ := hdef.2 he
      constructor
      · intro t ht hne
        have htr : (JVal.str t).truthy = true := by simpa [JVal.truthy] using hne
        rw [g1 _ ht htr] at h5
        rcases h5 with ⟨v, hv, _, rfl⟩ | ⟨hn, _⟩
        · cases hv; rfl
        · have := hn _ rfl
          simp only [boolsAsText] at this
          rw [htr] at this; cases this
      · intro hn
        rw [g2 (fun d hd => by rw [hn] at hd; cases hd)] at h5
        rcases h5 with ⟨v, hv, _, rfl⟩ | ⟨_, rfl⟩
        · cases hv; rfl
        · rfl

/-! ### MSBuild -/

/-- The platform of MSBuild for an architecture. -/
def Spec.MsPlatformIs (arch p : Str) : Prop :=
  (arch.map Char.toLower = c!"x64" ∧ p = c!"x64") ∨ (arch.map Char.toLower = c!"arm" ∧ p = c!"ARM") ∨
  (arch.map Char.toLower = c!"arm64" ∧ p = c!"ARM64") ∨
  (arch.map Char.toLower ∉ [c!"x64", c!"arm", c!"arm64"] ∧ p = c!"Win32")

theorem msPlatform_spec (arch : Str) : MsPlatformIs arch (msPlatform arch) := by
  unfold MsPlatformIs msPlatform asciiLower
  by_cases h1 : arch.map Char.toLower = c!"x64"
  · rw [if_pos h1]; exact .inl ⟨h1, rfl⟩
  rw [if_neg h1]
  by_cases h2 : arch.map Char.toLower = c!"arm"
  · rw [if_pos h2]; exact .inr (.inl ⟨h2, rfl⟩)
  rw [if_neg h2]
  by_cases h3 : arch.map Char.toLower = c!"arm64"
  · rw [if_pos h3]; exact .inr (.inr (.inl ⟨h3, rfl⟩))
  rw [if_neg h3]
  exact .inr (.inr (.inr ⟨by simp [h1, h2, h3], rfl⟩))

theorem msPlatform_end (arch : Str) : msPlatform arch ∈ [c!"x64", c!"ARM", c!"ARM64", c!"Win32"] := by
  rcases msPlatform_spec arch with ⟨_, h⟩ | ⟨_, h⟩ | ⟨_, h⟩ | ⟨_, h⟩ <;> rw [h] <;> decide

/-- The solution: that of `--solution`, or the first one in the directory `build`. -/
def Spec.SolutionIs (W : BuildWorld) (sln : Str) : Prop :=
  (∃ v, aget W.opts c!"solution" = some v ∧ v.truthy = true ∧ sln = jsText v) ∨
  ((∀ v, aget W.opts c!"solution" = some v → v.truthy = false) ∧ W.solutions.head? = some sln)

theorem readMs_targets : ∀ (l r : List Str) (m : MsCall), (∀ t ∈ l, ';' ∉ t) → readMs r = some m →
    readMs (l.map (fun t => c!"/t:" ++ t) ++ r) = some { m with targets := l ++ m.targets }
  | [], _, _, _, h => h
  | t :: l, r, m, hl, h => by
    have ih := readMs_targets l r m (fun x hx => hl x (by simp [hx])) h
    rw [List.map_cons, List.cons_append, readMs, ih]
    have e1 : (c!"/t:" ++ t).take 3 = c!"/t:" := rfl
    have e2 : (c!"/t:" ++ t).drop 3 = t := rfl
    simp only [Option.bind_some]
    rw [if_pos e1, e2, splitOn_noSep (hl t (by simp))]
    rfl

theorem readMs_skip {w : Str} {r : List Str} {m : MsCall} (h : readMs r = some m)
    (hw : w = c!"/nologo" ∨ w = c!"/clp:Verbosity=minimal") : readMs (w :: r) = some m := by
  rw [readMs, h]
  rcases hw with rfl | rfl <;> rfl

theorem msProps_two {type p : Str} (h1 : ';' ∉ type) (h2 : ';' ∉ p) :
    msProps (c!"Configuration=" ++ type ++ c!";Platform=" ++ p) = some [(c!"Configuration", type), (c!"Platform", p)] := by
  unfold msProps
  have e : c!"Configuration=" ++ type ++ c!";Platform=" ++ p = (c!"Configuration=" ++ type) ++ ';' :: (c!"Platform=" ++ p) := by
    simp
  rw [e, splitOn_append_sep, splitOn_noSep (w := c!"Platform=" ++ p), splitOn_noSep (w := c!"Configuration=" ++ type)]
  · rfl
  · intro h
    rcases List.mem_append.mp h with h | h
    · revert h; decide
    · exact h1 h
  · intro h
    rcases List.mem_append.mp h with h | h
    · revert h; decide
    · exact h2 h

theorem not_semicolon_platform (arch : Str) : ';' ∉ msPlatform arch := by
  have := msPlatform_end arch
  simp only [List.mem_cons, List.not_mem_nil, or_false] at this
  rcases this with h | h | h | h <;> rw [h] <;> decide

theorem readMs_args (W : BuildWorld) (argv : List Str) (type arch sol : Str) (ht : ∀ t ∈ argv, ';' ∉ t)
    (hty : ';' ∉ type) (hsol : (solutionArg W sol).head? ≠ some '/')
    (hsln : ∀ w, W.isSln w = true → ∃ a, w = a ++ c!".sln") (hno : ∀ t ∈ argv, ¬ ∃ a, t = a ++ c!".sln") :
    ∃ js, JobsAre W js ∧ readMs (msArgs W (argv.map fun t => c!"/t:" ++ t) type arch sol) =
      some ⟨[solutionArg W sol], argv, [(c!"Configuration", type), (c!"Platform", msPlatform arch)], js⟩ := by
  have hj : ∃ js, JobsAre W js ∧ readMs (msJobs W) = some { jobs := js } ∧ ∀ w ∈ msJobs W, ¬ ∃ a, w = a ++ c!".sln" := by
    unfold msJobs
    cases e : jobsCount W with
    | none =>
      refine ⟨[], .inr ⟨fun n hn => ?_, rfl⟩, rfl, by simp⟩
      rw [jobs_iff, e] at hn; cases hn
    | some j =>
      have hd := natStr_digits j
      have hv : decValue (natStr j) = j := hd.2.2
      refine ⟨[j], .inl ⟨j, (jobs_iff W j).mpr e, rfl⟩, ?_, ?_⟩
      · have e1 : (c!"/m:" ++ natStr j).take 3 = c!"/m:" := rfl
        have e2 : (c!"/m:" ++ natStr j).drop 3 = natStr j := rfl
        simp only [readMs, Option.bind_some]
        rw [if_neg (by rw [e1]; decide), if_neg (by rw [e1]; decide), if_pos e1, e2, hv]
      · intro w hw
        simp only [List.mem_cons, List.not_mem_nil, or_false] at hw
        subst hw
        rintro ⟨a, ha⟩
        have hl := congrArg List.getLast? ha
        rw [List.getLast?_append_of_ne_nil _ hd.1, List.getLast?_append_of_ne_nil _ (by simp)] at hl
        have := hd.2.1 'n' (List.mem_of_mem_getLast? hl)
        exact absurd this (by decide)
  obtain ⟨js, h1, h2, h3⟩ := hj
  refine ⟨js, h1, ?_⟩
  have h4 : readMs ((c!"/p:Configuration=" ++ type ++ c!";Platform=" ++ msPlatform arch) :: msJobs W) =
      some { props := [(c!"Configuration", type), (c!"Platform", msPlatform arch)], jobs := js } := by
    rw [readMs, h2]
    have e1 : (c!"/p:Configuration=" ++ type ++ c!";Platform=" ++ msPlatform arch).take 3 = c!"/p:" := rfl
    have e2 : (c!"/p:Configuration=" ++ type ++ c!";Platform=" ++ msPlatform arch).drop 3 =
      c!"Configuration=" ++ type ++ c!";Platform=" ++ msPlatform arch := rfl
    simp only [Option.bind_some]
    rw [if_neg (by rw [e1]; decide), if_pos e1, e2, msProps_two hty (not_semicolon_platform arch)]
    rfl
  have h5 := readMs_skip h4 (w := c!"/nologo") (.inl rfl)
  have h6 : readMs ((if W.verbose = true then [] else [c!"/clp:Verbosity=minimal"]) ++
      (c!"/nologo" :: (c!"/p:Configuration=" ++ type ++ c!";Platform=" ++ msPlatform arch) :: msJobs W)) =
      some { props := [(c!"Configuration", type), (c!"Platform", msPlatform arch)], jobs := js } := by
    cases W.verbose
    · exact readMs_skip h5 (.inr rfl)
    · exact h5
  have h7 := readMs_targets argv _ _ ht h6
  unfold msArgs
  simp only
  have hargs : (argv.map (fun t => c!"/t:" ++ t) ++ (if W.verbose = true then [] else [c!"/clp:Verbosity=minimal"]) ++ [c!"/nologo"] ++
      [c!"/p:Configuration=" ++ type ++ c!";Platform=" ++ msPlatform arch] ++ msJobs W : List Str) =
      argv.map (fun t => c!"/t:" ++ t) ++ ((if W.verbose = true then [] else [c!"/clp:Verbosity=minimal"]) ++
      (c!"/nologo" :: (c!"/p:Configuration=" ++ type ++ c!";Platform=" ++ msPlatform arch) :: msJobs W)) := by
    simp
  rw [hargs]
  rw [if_neg]
  · rw [readMs, h7]
    simp only [Option.bind_some]
    have hs : ∀ c w, (solutionArg W sol).take (w + 1) ≠ '/' :: c := by
      intro c w h
      cases e : solutionArg W sol with
      | nil => rw [e] at h; cases h
      | cons x xs =>
        rw [e, List.take_succ_cons] at h
        injection h with h _
        exact hsol (by rw [e, h]; rfl)
    rw [if_neg (hs _ 2), if_neg (hs _ 2), if_neg (hs _ 2), if_neg, if_neg hsol]
    · simp
    · rintro (h | h)
      · exact hsol (by rw [h]; rfl)
      · exact hs _ 4 h
  · intro hany
    obtain ⟨w, hw, hs⟩ := List.any_eq_true.mp hany
    obtain ⟨a, ha⟩ := hsln w hs
    rcases List.mem_append.mp hw with hw | hw
    · obtain ⟨t, ht', rfl⟩ := List.mem_map.mp hw
      rcases List.append_eq_append_iff.mp ha with ⟨b, hb, hb'⟩ | ⟨b, hb, hb'⟩
      · exact hno t ht' ⟨b, hb'⟩
      · have hb2 : b = [] := by
          cases b with
          | nil => rfl
          | cons x b =>
            injection hb' with hx _
            have hm : x ∈ c!"/t:" := by rw [hb]; simp
            rw [← hx] at hm
            exact absurd hm (by decide)
        subst hb2
        exact hno t ht' ⟨[], hb'.symm⟩
    · rcases List.mem_append.mp hw with hw | hw
      · cases hv : W.verbose
        · rw [hv] at hw
          simp only [Bool.false_eq_true, if_false, List.mem_cons, List.not_mem_nil, or_false] at hw
          subst hw
          have := congrArg List.getLast? ha
          rw [List.getLast?_append_of_ne_nil _ (by simp)] at this
          revert this; decide
        · rw [hv] at hw; cases hw
      · simp only [List.mem_cons] at hw
        rcases hw with rfl | rfl | hw
        · have := congrArg List.getLast? ha
          rw [List.getLast?_append_of_ne_nil _ (by simp)] at this
          revert this; decide
        · have := congrArg List.getLast? ha
          have hp := msPlatform_end arch
          have hne : msPlatform arch ≠ [] := by
            intro h; rw [h] at hp; revert hp; decide
          rw [List.getLast?_append_of_ne_nil _ hne, List.getLast?_append_of_ne_nil _ (by simp)] at this
          simp only [List.mem_cons, List.not_mem_nil, or_false] at hp
          rcases hp with h | h | h | h <;> (rw [h] at this; revert this; decide)
        · exact h3 w hw ⟨a, ha⟩

/-- **C66** (MSBuild).  What is run on Windows if there is a solution: the MSBuild that `configure` found,
on the solution asked for (or the first one), with the configuration, platform and number of jobs
asked for, and the targets given by the user.  (The targets are not names of solutions; names contain
no semicolon.) -/
theorem C66_msbuild (W : BuildWorld) (argv : List Str) (s : Spawned) (sol : Str) (hw : W.win = true)
    (hs : W.solutions.head? = some sol) (h : buildPlan W argv = .ok s)
    (hsln : ∀ w, W.isSln w = true → ∃ a, w = a ++ c!".sln") (hno : ∀ t ∈ argv, ¬ ∃ a, t = a ++ c!".sln")
    (ht : ∀ t ∈ argv, ';' ∉ t) (hsol : ∀ sln, SolutionIs W sln → sln.head? ≠ some '/')
    (hty : ∀ text config type, W.configFile = some text → W.parse (dropComment text) = some config →
      BuildTypeIs W (at_ config [c!"target_defaults", c!"default_configuration"]) type → ';' ∉ type) :
    ∃ text config arch type p sln js, W.configFile = some text ∧ W.parse (dropComment text) = some config ∧
      at_ config [c!"variables", c!"target_arch"] = some (.str arch) ∧ MsPlatformIs arch p ∧
      (∃ ms, at_ config [c!"variables", c!"msbuild_path"] = some ms ∧ ms.truthy = true ∧ s.command = jsText ms) ∧
      BuildTypeIs W (at_ config [c!"target_defaults", c!"default_configuration"]) type ∧
      SolutionIs W sln ∧ JobsAre W js ∧
      readMs s.args = some ⟨[sln], argv, [(c!"Configuration", type), (c!"Platform", p)], js⟩ ∧
      s.path = W.pathVar ∧ s.link = none := by
  obtain ⟨text, config, h1, h2, h3⟩ := buildPlan_ok h
  have h4 := buildWith_ok h3
  rw [hw] at h4
  simp only [if_true] at h4
  cases hl : W.solutions with
  | nil => rw [hl] at hs; cases hs
  | cons x xs =>
    rw [hl] at h4 hs
    simp only at h4
    have hx : x = sol := by simpa using hs
    subst hx
    unfold withMsbuild at h4
    split at h4
    · rename_i ms hms
      split at h4
      · rename_i htr
        split at h4
        · rename_i arch harch
          have hu : userArgs W argv = argv.map fun t => c!"/t:" ++ t := by unfold userArgs; rw [hw]; rfl
          rw [hu] at h4
          unfold withLink at h4
          rw [hw] at h4
          simp only [if_true, Except.ok.injEq] at h4
          subst h4
          have hsa : SolutionIs W (solutionArg W x) := by
            unfold SolutionIs solutionArg
            cases e : truthyOpt W c!"solution" with
            | some v =>
              obtain ⟨a, b⟩ := truthyOpt_some.mp e
              exact .inl ⟨v, a, b, rfl⟩
            | none => exact .inr ⟨truthyOpt_none.mp e, by rw [hl]; rfl⟩
          obtain ⟨js, hj, hr⟩ := readMs_args W argv
            (buildType W (at_ config [c!"target_defaults", c!"default_configuration"])) arch x ht
            (hty _ _ _ h1 h2 (buildType_spec W _)) (hsol _ hsa) hsln hno
          exact ⟨text, config, arch, _, _, _, js, h1, h2, harch, msPlatform_spec arch, ⟨ms, hms, htr, rfl⟩,
            buildType_spec W _, hsa, hj, hr, rfl, rfl⟩
        · cases h4
      · cases h4
    · cases h4

/-- **C66** (the end).  A build succeeds exactly if its command ends with code zero and was not killed; in both
cases the directory of links that it made is gone. -/
theorem C66_result (W : BuildWorld) (argv : List Str) (s : Spawned) (h : buildPlan W argv = .ok s)
    (code : Option Nat) (signal : Option Str) (before : Bool) :
    ((finishBuild s code signal before).1 = .ok () ↔ code = some 0 ∧ signal = none) ∧
    (W.win = false → (finishBuild s code signal before).2 = false) := by
  constructor
  · unfold finishBuild
    by_cases h1 : code = some 0
    · by_cases h2 : signal = none
      · simp [h1, h2]
      · simp [h1, h2]
    · simp [h1]
  · intro hw
    obtain ⟨text, config, h1, h2, h3⟩ := buildPlan_ok h
    have h4 := buildWith_ok h3
    rw [hw] at h4
    simp only [Bool.false_eq_true, if_false] at h4
    unfold withMake at h4
    split at h4
    · unfold withLink at h4
      rw [hw] at h4
      simp only [Bool.false_eq_true, if_false, Except.ok.injEq] at h4
      subst h4
      rfl
    · cases h4

/-- **C66** (not configured).  Without the file that `configure` writes nothing is run. -/
theorem C66_unconfigured (W : BuildWorld) (argv : List Str) (h : W.configFile = none) (s : Spawned) :
    buildPlan W argv ≠ .ok s := by
  intro hs
  obtain ⟨text, _, h1, _⟩ := buildPlan_ok hs
  rw [h] at h1; cases h1

/-! ### Examples and limits -/

/-- A build on Linux after the configuration of the example in C65. -/
def exBuild : BuildWorld where
  platform := c!"linux"
  opts := [(c!"jobs", .str c!"max")]
  makeVar := []
  jobsVar := c!"3"
  pathVar := c!"/usr/bin:/bin"
  configFile := some (gypiText (.obj (currentConfig exCfg exBase)))
  parse := readText .json
  verbose := true
  solutions := []
  makefiles := true
  found := fun c => c = c!"make"
  cpus := 8
  isSln := fun w => endsWith w c!".sln"
  binsDir := c!"/p/build/node_gyp_bins"

theorem exBuild_make : ∀ c, MakeIs exBuild c → exBuild.found c = true := by
  rintro c (⟨v, hv, _⟩ | ⟨_, ⟨h, _⟩ | ⟨_, ⟨h, _⟩ | ⟨_, _, rfl⟩⟩⟩)
  · revert hv
    have : aget exBuild.opts c!"make" = none := by decide +kernel
    rw [this]; intro h; cases h
  · exact absurd rfl h
  · exfalso
    rcases h with h | h
    · revert h; decide
    · have := (hasSub_iff c!"bsd" c!"linux").mpr h
      revert this; decide
  · rfl

example : ParsesJson exBuild.parse ∧ exBuild.configFile = some (gypiText (.obj (currentConfig exCfg exBase))) ∧
    exBuild.win = false ∧ (∀ c, MakeIs exBuild c → exBuild.found c = true) ∧
    (∀ w ∈ [c!"clean", c!"all"], PlainGoal w) :=
  ⟨fun _ _ h => h, rfl, rfl, exBuild_make, by intro w hw; simp only [List.mem_cons, List.not_mem_nil, or_false] at hw; rcases hw with rfl | rfl <;> exact ⟨by decide, by decide⟩⟩

/-- A build on Windows. -/
def exBuildWin : BuildWorld where
  platform := c!"win32"
  opts := []
  makeVar := []
  jobsVar := c!"3"
  pathVar := c!"C:\\Windows"
  configFile := some (gypiText (.obj [(c!"target_defaults", .obj [(c!"default_configuration", .str c!"Debug")]),
    (c!"variables", .obj [(c!"target_arch", .str c!"ARM64"), (c!"msbuild_path", .str c!"C:\\VS\\MSBuild.exe")])]))
  parse := readText .json
  verbose := false
  solutions := [c!"build/binding.sln"]
  makefiles := false
  found := fun _ => true
  cpus := 8
  isSln := fun w => endsWith w c!".sln"
  binsDir := []

def planArgs : Except BuildErr Spawned → Option (Str × List Str)
  | .ok s => some (s.command, s.args)
  | .error _ => none

example : planArgs (buildPlan exBuildWin [c!"addon"]) = some (c!"C:\\VS\\MSBuild.exe",
    [c!"build/binding.sln", c!"/t:addon", c!"/clp:Verbosity=minimal", c!"/nologo",
     c!"/p:Configuration=Debug;Platform=ARM64", c!"/m:3"]) := by decide +kernel

/-- The hypotheses of `C66_msbuild` can be met. -/
example : exBuildWin.win = true ∧ exBuildWin.solutions.head? = some c!"build/binding.sln" ∧
    (∃ s, buildPlan exBuildWin [c!"core"] = .ok s) ∧
    (∀ w, exBuildWin.isSln w = true → ∃ a, w = a ++ c!".sln") ∧
    (∀ t ∈ [c!"core"], ¬ ∃ a, t = a ++ c!".sln") ∧ (∀ t ∈ [c!"core"], ';' ∉ t) ∧
    (∀ sln, SolutionIs exBuildWin sln → sln.head? ≠ some '/') ∧
    (∀ text config type, exBuildWin.configFile = some text → exBuildWin.parse (dropComment text) = some config →
      BuildTypeIs exBuildWin (at_ config [c!"target_defaults", c!"default_configuration"]) type → ';' ∉ type) := by
  refine ⟨rfl, rfl, ?_, ?_, ?_, ?_, ?_, ?_⟩
  · cases h : buildPlan exBuildWin [c!"core"] with
    | ok s => exact ⟨s, rfl⟩
    | error e =>
      have : (planArgs (buildPlan exBuildWin [c!"core"])).isSome = true := by decide +kernel
      rw [h] at this; cases this
  · intro w hw
    have : endsWith w c!".sln" = true := hw
    unfold endsWith at this
    obtain ⟨a, ha⟩ := List.isSuffixOf_iff_suffix.mp this
    exact ⟨a, ha.symm⟩
  · intro t ht
    simp only [List.mem_cons, List.not_mem_nil, or_false] at ht
    subst ht
    rintro ⟨a, ha⟩
    have := congrArg List.getLast? ha
    rw [List.getLast?_append_of_ne_nil _ (by simp)] at this
    revert this; decide
  · intro t ht
    simp only [List.mem_cons, List.not_mem_nil, or_false] at ht
    subst ht
    decide
  · rintro sln (⟨v, hv, _⟩ | ⟨_, h⟩)
    · cases hv
    · cases h; decide
  · intro text config type h1 h2 h3
    cases h1
    have := C65_build (.obj [(c!"target_defaults", .obj [(c!"default_configuration", .str c!"Debug")]),
      (c!"variables", .obj [(c!"target_arch", .str c!"ARM64"), (c!"msbuild_path", .str c!"C:\\VS\\MSBuild.exe")])])
    rw [show exBuildWin.parse = readText .json from rfl, this] at h2
    cases h2
    rcases h3 with ⟨d, hd, _⟩ | ⟨_, ⟨v, hv, _, rfl⟩ | ⟨_, rfl⟩⟩
    · cases hd
    · cases hv; decide
    · decide

/-- **Limit of C66**: a solution named by the user on Windows is passed as a target, and no
solution is passed at all. -/
theorem C66_own_solution : planArgs (buildPlan exBuildWin [c!"my.sln"]) = some (c!"C:\\VS\\MSBuild.exe",
    [c!"/t:my.sln", c!"/clp:Verbosity=minimal", c!"/nologo", c!"/p:Configuration=Debug;Platform=ARM64", c!"/m:3"]) ∧
    (readMs [c!"/t:my.sln", c!"/clp:Verbosity=minimal", c!"/nologo", c!"/p:Configuration=Debug;Platform=ARM64",
      c!"/m:3"]).map (fun m => (m.projects, m.targets)) = some ([], [c!"my.sln"]) := by
  decide +kernel

/-- **Limit of C66**: with makefiles on Windows the targets of the user reach `make` in the syntax of MSBuild. -/
theorem C66_windows_make : planArgs (buildPlan { exBuildWin with solutions := [], makefiles := true } [c!"addon"]) =
    some (c!"make", [c!"/t:addon", c!"BUILDTYPE=Debug", c!"-C", c!"build", c!"--jobs", c!"3"]) := by decide +kernel

end Gyp
