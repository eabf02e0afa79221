import Verif.Spec.MsvsRules
import Verif.Proofs.MsvsSources
import Verif.Proofs.MsvsActions
import Verif.Props.MsvsCygwin
import Verif.Props.XcodeLink
/-
C98: rules in projects of Visual Studio.
-/
namespace Gyp
open Spec

/-! ### The parts of a file -/

theorem dropWhile_stop {p : Char → Bool} : ∀ (a b : Str), (∀ c ∈ a, p c = true) → (∀ c, b.head? = some c → p c = false) →
    (a ++ b).dropWhile p = b ∧ (a ++ b).takeWhile p = a
  | [], [], _, _ => ⟨rfl, rfl⟩
  | [], c :: b, _, h => by simp [h c rfl]
  | c :: a, b, ha, h => by
    have := dropWhile_stop a b (fun d hd => ha d (List.mem_cons_of_mem _ hd)) h
    simp [ha c (List.mem_cons_self ..), this.1, this.2]

theorem name_noSep {p : FileParts} (h : p.Valid) : ∀ c ∈ p.name, c ≠ '/' ∧ c ≠ '\\' := h.2.1

theorem winBasename_parts {p : FileParts} (h : p.Valid) : winBasename p.path = p.name := by
  unfold winBasename FileParts.path
  rw [List.reverse_append, List.reverse_append]
  rw [(dropWhile_stop p.name.reverse (p.separator.reverse ++ p.directory.reverse) ?_ ?_).2, List.reverse_reverse]
  · intro c hc
    have := name_noSep h c (List.mem_reverse.1 hc)
    simp [this.1, this.2]
  · intro c hc
    rcases h.1 with ⟨h1, h2⟩ | ⟨h1, h2 | h2, h3⟩
    · rw [h1, h2] at hc; cases hc
    · rw [h2] at hc; simp at hc; simp [← hc]
    · rw [h2] at hc; simp at hc; simp [← hc]

theorem winDirname_parts {p : FileParts} (h : p.Valid) : winDirname p.path = p.directory := by
  unfold winDirname FileParts.path
  rw [List.reverse_append, List.reverse_append]
  have h1 := (dropWhile_stop (p := fun c => c ≠ '/' && c ≠ '\\') p.name.reverse
    (p.separator.reverse ++ p.directory.reverse) ?_ ?_).1
  · rw [h1]
    rcases h.1 with ⟨h1, h2⟩ | ⟨h1, h2, h3⟩
    · rw [h1, h2]; rfl
    · have hs : ∀ c ∈ p.separator.reverse, (decide (c = '/') || decide (c = '\\')) = true := by
        rcases h2 with h2 | h2 <;> rw [h2] <;> decide
      have h4 := (dropWhile_stop (p := fun c => c = '/' || c = '\\') p.separator.reverse p.directory.reverse hs ?_).1
      · simp only [List.reverse_append, List.reverse_reverse] at h4 ⊢
        rw [h4, List.reverse_reverse, if_neg h1]
      · intro c hc
        rw [List.head?_reverse] at hc
        have := h3 c hc
        simp [this.1, this.2]
  · intro c hc
    have := name_noSep h c (List.mem_reverse.1 hc)
    simp [this.1, this.2]
  · intro c hc
    rcases h.1 with ⟨h1, h2⟩ | ⟨h1, h2 | h2, h3⟩
    · rw [h1, h2] at hc; cases hc
    · rw [h2] at hc; simp at hc; simp [← hc]
    · rw [h2] at hc; simp at hc; simp [← hc]

theorem winSplitext_parts {p : FileParts} (h : p.Valid) : winSplitext p.name = (p.root, p.extension) := by
  unfold winSplitext FileParts.name
  have hn := h.2.1
  rcases h.2.2 with ⟨h1, h2⟩ | ⟨e, h1, h2, c, hc, hd⟩
  · rw [h1, List.append_nil, (rsplit1_none_iff).2 h2]
  · rw [h1, rsplit1_append h2]
    simp only
    have he : ∀ c ∈ e, c ≠ '/' ∧ c ≠ '\\' := by
      intro x hx; exact hn x (List.mem_append_right _ (by rw [h1]; exact List.mem_cons_of_mem _ hx))
    rw [if_neg (by rintro (h | h); exacts [(he _ h).2 rfl, (he _ h).1 rfl])]
    have ht : (p.root.reverse.takeWhile fun c => c ≠ '\\' && c ≠ '/') = p.root.reverse := by
      have := (dropWhile_stop (p := fun c => c ≠ '\\' && c ≠ '/') p.root.reverse [] ?_ (by simp)).2
      · simpa using this
      · intro x hx
        have := hn x (List.mem_append_left _ (List.mem_reverse.1 hx))
        simp [this.1, this.2]
    rw [ht, if_pos]
    rw [List.any_eq_true]
    exact ⟨c, List.mem_reverse.2 hc, by simpa using hd⟩

/-! ### References -/

theorem replaceStr_noRef {P v s : Str} (hP : c!"$(Input" <+: P) (hs : NoInputRef s) (r : Str) :
    replaceStr P v (s ++ r) = s ++ replaceStr P v r := by
  apply replaceStr_passes
  intro a b e hb
  rw [Bool.eq_false_iff]
  intro hp
  rw [List.isPrefixOf_iff_prefix] at hp
  have hp2 : c!"$(Input" <+: b ++ r := hP.trans hp
  cases b with
  | nil => exact absurd rfl hb
  | cons c b =>
    obtain ⟨q, hq⟩ := hp2
    simp only [List.cons_append, List.cons.injEq] at hq
    obtain ⟨rfl, hq⟩ := hq
    have hs' := hs a b e
    have hpre : c!"(Input" <+: b ++ r := ⟨q, by simpa using hq⟩
    rcases List.prefix_or_prefix_of_prefix hpre (List.prefix_append b r) with h | h
    · exact hs'.1 h
    · exact hs'.2 h

/-- References of a rule to its file are replaced by the parts of the file, whatever else is written. -/
theorem C98_expand (p : FileParts) (hp : p.Valid) (hpl : p.Plain) (ps : List RulePiece)
    (ht : ∀ s, RulePiece.text s ∈ ps → NoInputRef s) :
    ruleExpandPath (ps.flatMap RulePiece.written) p.path = ps.flatMap (RulePiece.meaning p) := by
  obtain ⟨d1, d2, d3, d4, d5⟩ := hpl
  unfold ruleExpandPath
  simp only [winBasename_parts hp, winDirname_parts hp, winSplitext_parts hp]
  have h1 : replaceStr c!"$(InputName)" p.root (ps.flatMap RulePiece.written) =
      ps.flatMap fun x => match x with
        | .root => p.root
        | x => x.written := by
    apply replaceStr_pieces
    intro x hx r
    cases x with
    | text s => exact replaceStr_noRef ⟨_, rfl⟩ (ht s hx) r
    | root => exact replaceStr_here (by decide)
    | directory => exact replaceStr_other rfl (by decide) rfl
    | extension => exact replaceStr_other rfl (by decide) rfl
    | name => exact replaceStr_other rfl (by decide) rfl
    | path => exact replaceStr_other rfl (by decide) rfl
  have h2 : replaceStr c!"$(InputDir)" p.directory (ps.flatMap fun x => match x with
        | .root => p.root
        | x => x.written) =
      ps.flatMap fun x => match x with
        | .root => p.root
        | .directory => p.directory
        | x => x.written := by
    apply replaceStr_pieces
    intro x hx r
    cases x with
    | text s => exact replaceStr_noRef ⟨_, rfl⟩ (ht s hx) r
    | root => exact replaceStr_noRef ⟨_, rfl⟩ d2 r
    | directory => exact replaceStr_here (by decide)
    | extension => exact replaceStr_other rfl (by decide) rfl
    | name => exact replaceStr_other rfl (by decide) rfl
    | path => exact replaceStr_other rfl (by decide) rfl
  have h3 : replaceStr c!"$(InputExt)" p.extension (ps.flatMap fun x => match x with
        | .root => p.root
        | .directory => p.directory
        | x => x.written) =
      ps.flatMap fun x => match x with
        | .name => x.written
        | .path => x.written
        | x => x.meaning p := by
    apply replaceStr_pieces
    intro x hx r
    cases x with
    | text s => exact replaceStr_noRef ⟨_, rfl⟩ (ht s hx) r
    | root => exact replaceStr_noRef ⟨_, rfl⟩ d2 r
    | directory => exact replaceStr_noRef ⟨_, rfl⟩ d1 r
    | extension => exact replaceStr_here (by decide)
    | name => exact replaceStr_other rfl (by decide) rfl
    | path => exact replaceStr_other rfl (by decide) rfl
  have h4 : replaceStr c!"$(InputFileName)" p.name (ps.flatMap fun x => match x with
        | .name => x.written
        | .path => x.written
        | x => x.meaning p) =
      ps.flatMap fun x => match x with
        | .path => x.written
        | x => x.meaning p := by
    apply replaceStr_pieces
    intro x hx r
    cases x with
    | text s => exact replaceStr_noRef ⟨_, rfl⟩ (ht s hx) r
    | root => exact replaceStr_noRef ⟨_, rfl⟩ d2 r
    | directory => exact replaceStr_noRef ⟨_, rfl⟩ d1 r
    | extension => exact replaceStr_noRef ⟨_, rfl⟩ d3 r
    | name => exact replaceStr_here (by decide)
    | path => exact replaceStr_other rfl (by decide) rfl
  have h5 : replaceStr c!"$(InputPath)" p.path (ps.flatMap fun x => match x with
        | .path => x.written
        | x => x.meaning p) = ps.flatMap (RulePiece.meaning p) := by
    apply replaceStr_pieces
    intro x hx r
    cases x with
    | text s => exact replaceStr_noRef ⟨_, rfl⟩ (ht s hx) r
    | root => exact replaceStr_noRef ⟨_, rfl⟩ d2 r
    | directory => exact replaceStr_noRef ⟨_, rfl⟩ d1 r
    | extension => exact replaceStr_noRef ⟨_, rfl⟩ d3 r
    | name => exact replaceStr_noRef ⟨_, rfl⟩ d4 r
    | path => exact replaceStr_here (by decide)
  rw [h1, h2, h3, h4, h5]

/-! ### Sources -/

theorem adjustForFile_sources {w : WinPaths} {r : WinRule} {acc : List Str × List Str} {t f : Str} :
    f ∈ (adjustForFile w r acc t).1 ↔ f ∈ acc.1 ∨ (r.asSources = true ∧
      ((f ≠ fixPath w t ∧ ∃ g, RuleInput w r t g ∧ f = fixPath w g) ∨ ∃ g, RuleOutput w r t g ∧ f = fixPath w g)) := by
  unfold adjustForFile
  cases hr : r.asSources with
  | false => simp
  | true =>
    simp only [if_true, true_and]
    rw [mem_winUpdate, mem_winUpdate, List.mem_filter, mem_winUpdate, mem_winUpdate, List.mem_map, List.mem_map]
    have h1 : ∀ g, g ∈ (ruleInputsOutputs w r t).1 ↔ g = t ∨ RuleInput w r t g := by
      intro g
      unfold ruleInputsOutputs RuleInput
      simp only
      rw [mem_winUpdate, List.mem_singleton, List.mem_map]
      constructor
      · rintro (h | ⟨i, h, rfl⟩); exacts [.inl h, .inr ⟨i, h, rfl⟩]
      · rintro (h | ⟨i, h, rfl⟩); exacts [.inl h, .inr ⟨i, h, rfl⟩]
    have h2 : ∀ g, g ∈ (ruleInputsOutputs w r t).2 ↔ RuleOutput w r t g := by
      intro g
      unfold ruleInputsOutputs RuleOutput
      simp only
      rw [mem_winUpdate, List.mem_map]
      constructor
      · rintro (h | ⟨i, h, rfl⟩); exacts [absurd h (by simp), ⟨i, h, rfl⟩]
      · rintro ⟨i, h, rfl⟩; exact .inr ⟨i, h, rfl⟩
    simp only [h1, h2, List.not_mem_nil, false_or, decide_eq_true_eq]
    constructor
    · rintro ((h | ⟨⟨g, h3 | h3, rfl⟩, h4⟩) | ⟨g, h3, rfl⟩)
      · exact .inl h
      · exact absurd (by rw [h3]) h4
      · exact .inr (.inl ⟨h4, g, h3, rfl⟩)
      · exact .inr (.inr ⟨g, h3, rfl⟩)
    · rintro (h | ⟨h4, g, h3, rfl⟩ | ⟨g, h3, rfl⟩)
      · exact .inl (.inl h)
      · exact .inl (.inr ⟨⟨g, .inr h3, rfl⟩, h4⟩)
      · exact .inr ⟨g, h3, rfl⟩

theorem adjustForFile_excluded {w : WinPaths} {r : WinRule} {acc : List Str × List Str} {t f : Str} :
    f ∈ (adjustForFile w r acc t).2 ↔ f ∈ acc.2 ∧ f ≠ fixPath w t := by
  unfold adjustForFile
  cases r.asSources <;> simp

theorem adjustForFile_nodup {w : WinPaths} {r : WinRule} {acc : List Str × List Str} {t : Str} (h : acc.1.Nodup) :
    (adjustForFile w r acc t).1.Nodup := by
  unfold adjustForFile
  cases r.asSources
  · exact h
  · exact nodup_winUpdate (nodup_winUpdate h)

theorem adjustFiles_sources {w : WinPaths} {r : WinRule} {f : Str} (ts : List Str) (acc : List Str × List Str) :
    f ∈ (ts.foldl (adjustForFile w r) acc).1 ↔ f ∈ acc.1 ∨ ∃ t ∈ ts, r.asSources = true ∧
      ((f ≠ fixPath w t ∧ ∃ g, RuleInput w r t g ∧ f = fixPath w g) ∨ ∃ g, RuleOutput w r t g ∧ f = fixPath w g) := by
  induction ts generalizing acc with
  | nil => simp
  | cons t ts ih =>
    rw [List.foldl_cons, ih, adjustForFile_sources]
    simp only [List.exists_mem_cons_iff]
    exact or_assoc

theorem adjustFiles_excluded {w : WinPaths} {r : WinRule} {f : Str} (ts : List Str) (acc : List Str × List Str) :
    f ∈ (ts.foldl (adjustForFile w r) acc).2 ↔ f ∈ acc.2 ∧ ∀ t ∈ ts, f ≠ fixPath w t := by
  induction ts generalizing acc with
  | nil => simp
  | cons t ts ih =>
    rw [List.foldl_cons, ih, adjustForFile_excluded]
    simp only [List.forall_mem_cons]
    tauto

/-- The rules of a target add to its sources the inputs and the outputs of those whose outputs are sources, for
each of their files, and nothing else. -/
theorem C98_sources (w : WinPaths) (rules : List WinRule) (sources excluded : List Str) (f : Str) :
    f ∈ (adjustForRules w rules (sources, excluded)).1 ↔ f ∈ sources ∨ ∃ r ∈ rules, ∃ t ∈ r.sources, r.asSources = true ∧
      ((f ≠ fixPath w t ∧ ∃ g, RuleInput w r t g ∧ f = fixPath w g) ∨ ∃ g, RuleOutput w r t g ∧ f = fixPath w g) := by
  unfold adjustForRules
  generalize hacc : (sources, excluded) = acc
  rw [show sources = acc.1 by rw [← hacc]]
  clear hacc
  induction rules generalizing acc with
  | nil => simp
  | cons r rules ih =>
    rw [List.foldl_cons, ih, adjustFiles_sources]
    simp only [List.exists_mem_cons_iff]
    exact or_assoc

/-- The file of a rule is built even when an action has it as an input: it is no longer excluded.  Everything
else stays excluded. -/
theorem C98_excluded (w : WinPaths) (rules : List WinRule) (sources excluded : List Str) (f : Str) :
    f ∈ (adjustForRules w rules (sources, excluded)).2 ↔
      f ∈ excluded ∧ ∀ r ∈ rules, ∀ t ∈ r.sources, f ≠ fixPath w t := by
  unfold adjustForRules
  generalize hacc : (sources, excluded) = acc
  rw [show excluded = acc.2 by rw [← hacc]]
  clear hacc
  induction rules generalizing acc with
  | nil => simp
  | cons r rules ih =>
    rw [List.foldl_cons, ih, adjustFiles_excluded]
    simp only [List.forall_mem_cons]
    tauto

/-- No source is added twice. -/
theorem C98_sources_once (w : WinPaths) (rules : List WinRule) (sources excluded : List Str) (h : sources.Nodup) :
    (adjustForRules w rules (sources, excluded)).1.Nodup := by
  unfold adjustForRules
  have hfiles : ∀ (r : WinRule) (ts : List Str) (acc : List Str × List Str), acc.1.Nodup →
      (ts.foldl (adjustForFile w r) acc).1.Nodup := by
    intro r ts
    induction ts with
    | nil => exact fun _ h => h
    | cons t ts ih => exact fun acc h => ih _ (adjustForFile_nodup h)
  have : ∀ (rules : List WinRule) (acc : List Str × List Str), acc.1.Nodup →
      (rules.foldl (fun acc r => r.sources.foldl (adjustForFile w r) acc) acc).1.Nodup := by
    intro rules
    induction rules with
    | nil => exact fun _ h => h
    | cons r rules ih => exact fun acc h => ih _ (hfiles r r.sources acc h)
  exact this rules _ h

/-! ### Rules of MSBuild -/

theorem msbuildRule_made {w : WinPaths} {cyg : Str} {r : WinRule} {m : MsRule} (h : msbuildRule w cyg r = some m) :
    RuleMade w cyg r m ∧ m.ruleName = ruleIdent r.name := by
  unfold msbuildRule at h
  cases ha : r.action with
  | none => simp [ha] at h
  | some action =>
    simp only [ha] at h
    cases hb : buildCommandLine w cyg action r.cygwin true r.quote true with
    | none => simp [hb] at h
    | some line =>
      simp only [hb, Option.some.injEq] at h
      subst h
      refine ⟨⟨rfl, ?_, ?_, ?_, ?_, ?_, action, line, ha, hb, rfl⟩, rfl⟩
      · cases he : r.extension with
        | nil => exact .inr ⟨rfl, by simp⟩
        | cons c e =>
          by_cases hc : c = '.'
          · subst hc; exact .inl ⟨by simp [startsWith], e, rfl⟩
          · refine .inr ⟨?_, by simp [hc]⟩
            have : startsWith (c :: e) c!"." = false := by
              rw [Bool.eq_false_iff]; intro h
              rw [startsWith_iff] at h
              obtain ⟨q, hq⟩ := h
              simp at hq
              exact hc hq.1.symm
            simp [this]
      · intro text ht; simp [ht]
      · intro ht; simp [ht]
      · intro h1 h2
        exact splitOn_joinWith (by simpa using h2) (by simpa using h1)
      · intro h1 h2
        exact splitOn_joinWith (by simpa using h2) (by simpa using h1)

/-- A project has one rule for each rule of the target that has an action and is not external, in the same
order, and it says what the rule says. -/
theorem C98_native {w : WinPaths} {cyg : Str} {rules : List WinRule} {ms : List MsRule}
    (h : msbuildRules w cyg rules = some ms) :
    List.Forall₂ (RuleMade w cyg) (rules.filter fun r => !r.external && r.action.isSome) ms := by
  induction rules generalizing ms with
  | nil => simp only [msbuildRules, Option.some.injEq] at h; subst h; exact .nil
  | cons r rules ih =>
    unfold msbuildRules at h
    by_cases he : r.external = true
    · rw [if_pos he] at h
      rw [List.filter_cons_of_neg (by simp [he])]
      exact ih h
    · rw [if_neg he] at h
      by_cases hs : r.action = none ∧ r.sources = []
      · rw [if_pos hs] at h
        rw [List.filter_cons_of_neg (by simp [hs.1])]
        exact ih h
      · rw [if_neg hs] at h
        cases hm : msbuildRule w cyg r with
        | none => simp [hm] at h
        | some m =>
          cases hms : msbuildRules w cyg rules with
          | none => simp [hm, hms] at h
          | some ms' =>
            simp only [hm, hms, Option.some.injEq] at h
            subst h
            have hmade := msbuildRule_made hm
            obtain ⟨a, _, ha, _⟩ := hmade.1.command
            rw [List.filter_cons_of_pos (by simp [he, ha])]
            exact .cons hmade.1 (ih hms)

theorem buildCommandLine_none {w : WinPaths} {cyg : Str} {cmd : List Str} {cygwin i q s : Bool} :
    buildCommandLine w cyg cmd cygwin i q s = none ↔ cmd = [] ∧ cygwin = false := by
  unfold buildCommandLine
  cases cygwin <;> cases cmd <;> simp

/-- Generating stops exactly when a rule with files has no action, or an empty one that is run directly. -/
theorem C98_stops (w : WinPaths) (cyg : Str) (rules : List WinRule) :
    msbuildRules w cyg rules = none ↔ ∃ r ∈ rules, NoCommand r := by
  induction rules with
  | nil => simp [msbuildRules]
  | cons r rules ih =>
    unfold msbuildRules
    simp only [List.exists_mem_cons_iff]
    by_cases he : r.external = true
    · rw [if_pos he, ih]
      simp [NoCommand, he]
    · rw [if_neg he]
      by_cases hs : r.action = none ∧ r.sources = []
      · rw [if_pos hs, ih]
        simp [NoCommand, hs.1, hs.2]
      · rw [if_neg hs]
        have hm : msbuildRule w cyg r = none ↔ NoCommand r := by
          unfold msbuildRule NoCommand
          cases ha : r.action with
          | none =>
            have : r.sources ≠ [] := fun h => hs ⟨ha, h⟩
            simp [he, this]
          | some action =>
            simp only
            cases hb : buildCommandLine w cyg action r.cygwin true r.quote true with
            | none => have := buildCommandLine_none.1 hb; simp [he, this.1, this.2]
            | some line =>
              simp only [reduceCtorEq, false_and, false_or, false_iff, Option.some.injEq]
              rintro ⟨_, h1, h2⟩
              have := (buildCommandLine_none (w := w) (cyg := cyg) (i := true) (q := r.quote) (s := true)).2 ⟨h1, h2⟩
              rw [hb] at this; cases this
        cases h1 : msbuildRule w cyg r with
        | none => simp only [true_iff]; exact .inl (hm.1 h1)
        | some m =>
          have h1' : ¬ NoCommand r := fun h => by rw [hm.2 h] at h1; cases h1
          cases h2 : msbuildRules w cyg rules with
          | none => simp only [true_iff]; exact .inr (ih.1 h2)
          | some ms =>
            simp only [reduceCtorEq, false_iff]
            rintro (h | h)
            · exact h1' h
            · rw [ih.2 h] at h2; cases h2

/-- The name of a rule in a project has only letters, digits and `_`, and a name like that is kept. -/
theorem C98_names {w : WinPaths} {cyg : Str} {r : WinRule} {m : MsRule} (h : msbuildRule w cyg r = some m) :
    (∀ c ∈ m.ruleName, c.isAlphanum = true ∨ c = '_') ∧ m.ruleName.length = r.name.length ∧
      ((∀ c ∈ r.name, c.isAlphanum = true ∨ c = '_') → m.ruleName = r.name) := by
  rw [(msbuildRule_made h).2]
  unfold ruleIdent
  refine ⟨?_, by simp, ?_⟩
  · intro c hc
    obtain ⟨d, _, rfl⟩ := List.mem_map.1 hc
    by_cases hd : (d.isAlphanum || decide (d = '_')) = true
    · rw [if_pos hd]; simpa using hd
    · rw [if_neg hd]; exact .inr rfl
  · intro hn
    conv => rhs; rw [← List.map_id r.name]
    apply List.map_congr_left
    intro c hc
    have := hn c hc
    rw [if_pos (by simpa using this)]
    rfl

theorem append_ne {x y s t : Str} (h : s.isSuffixOf t = false) (h' : t.isSuffixOf s = false) : x ++ s ≠ y ++ t := by
  intro e
  have h1 : s <:+ y ++ t := ⟨x, e⟩
  have h2 : t <:+ y ++ t := ⟨y, rfl⟩
  rcases List.suffix_or_suffix_of_suffix h1 h2 with h3 | h3
  · rw [List.isSuffixOf_iff_suffix.2 h3] at h; cases h
  · rw [List.isSuffixOf_iff_suffix.2 h3] at h'; cases h'

theorem msbuildRule_elements {w : WinPaths} {cyg : Str} {r : WinRule} {m : MsRule} (h : msbuildRule w cyg r = some m) :
    m.targetName = '_' :: m.ruleName ∧ m.computeOutput = c!"Compute" ++ m.ruleName ++ c!"Output" ∧
    m.afterTargets = m.ruleName ++ c!"AfterTargets" ∧ m.beforeTargets = m.ruleName ++ c!"BeforeTargets" ∧
    m.dependsOn = m.ruleName ++ c!"DependsOn" ∧ m.dirsToMake = m.ruleName ++ c!"DirsToMake" ∧
    m.inputs = m.ruleName ++ c!"_inputs" ∧ m.tlog = m.ruleName ++ c!"_tlog" := by
  unfold msbuildRule at h
  cases ha : r.action with
  | none => simp [ha] at h
  | some action =>
    simp only [ha] at h
    cases hb : buildCommandLine w cyg action r.cygwin true r.quote true with
    | none => simp [hb] at h
    | some line =>
      simp only [hb, Option.some.injEq] at h
      subst h
      exact ⟨rfl, rfl, rfl, rfl, rfl, rfl, rfl, rfl⟩

/-- The targets, properties and items of the files of a rule have different names, and rules with different
names have none of them in common. -/
theorem C98_elements {w : WinPaths} {cyg : Str} {r r' : WinRule} {m m' : MsRule} (h : msbuildRule w cyg r = some m)
    (h' : msbuildRule w cyg r' = some m') :
    m.targetName ≠ m'.computeOutput ∧
    (m.afterTargets ≠ m'.beforeTargets ∧ m.afterTargets ≠ m'.dependsOn ∧ m.beforeTargets ≠ m'.dependsOn) ∧
    (m.dirsToMake ≠ m'.inputs ∧ m.dirsToMake ≠ m'.tlog ∧ m.inputs ≠ m'.tlog) ∧
    (m.ruleName ≠ m'.ruleName → m.targetName ≠ m'.targetName ∧ m.computeOutput ≠ m'.computeOutput ∧
      m.afterTargets ≠ m'.afterTargets ∧ m.beforeTargets ≠ m'.beforeTargets ∧ m.dependsOn ≠ m'.dependsOn ∧
      m.dirsToMake ≠ m'.dirsToMake ∧ m.inputs ≠ m'.inputs ∧ m.tlog ≠ m'.tlog) := by
  obtain ⟨e1, e2, e3, e4, e5, e6, e7, e8⟩ := msbuildRule_elements h
  obtain ⟨f1, f2, f3, f4, f5, f6, f7, f8⟩ := msbuildRule_elements h'
  rw [e1, e2, e3, e4, e5, e6, e7, e8, f1, f2, f3, f4, f5, f6, f7, f8]
  refine ⟨?_, ⟨append_ne rfl rfl, append_ne rfl rfl, append_ne rfl rfl⟩,
    ⟨append_ne rfl rfl, append_ne rfl rfl, append_ne rfl rfl⟩, ?_⟩
  · intro e
    simp only [List.cons_append, List.cons.injEq] at e
    exact absurd e.1 (by decide)
  · intro hn
    refine ⟨?_, ?_, ?_, ?_, ?_, ?_, ?_, ?_⟩
    · intro e; exact hn (List.cons.inj e).2
    · intro e; exact hn (List.append_cancel_left (List.append_cancel_right e))
    all_goals (intro e; exact hn (List.append_cancel_right e))

/-! ### The rule of a source -/

theorem aget_extensionNames (ms : List MsRule) (d : List (Str × Str)) (k : Str) :
    aget (ms.foldl (fun d m => aset d m.extension m.ruleName) d) k =
      match (ms.filter (·.extension = k)).getLast? with
      | some m => some m.ruleName
      | none => aget d k := by
  induction ms generalizing d with
  | nil => rfl
  | cons m ms ih =>
    rw [List.foldl_cons, ih]
    by_cases h : m.extension = k
    · rw [List.filter_cons_of_pos (by simpa using h)]
      cases hl : ms.filter (·.extension = k) with
      | nil => simp [h, aget_aset]
      | cons x xs =>
        obtain ⟨y, hy⟩ : ∃ y, (x :: xs).getLast? = some y := ⟨_, List.getLast?_eq_getLast_of_ne_nil (by simp)⟩
        rw [List.getLast?_cons_cons, hy]
    · rw [List.filter_cons_of_neg (by simpa using h)]
      cases (ms.filter (·.extension = k)).getLast? with
      | some x => rfl
      | none => simp only; rw [aget_aset, if_neg (Ne.symm h)]

/-- A source with the extension of a rule is left to the last rule with it, whatever it is otherwise. -/
theorem C98_kind {a b : List MsRule} {m : MsRule} {deps platforms : List Str} {toolset s : Str}
    (h : lowerStr (winSplitext s).2 = m.extension) (hb : ∀ x ∈ b, x.extension ≠ m.extension) :
    sourceType (extensionNames (a ++ m :: b)) deps platforms toolset s = (c!"rule", m.ruleName) := by
  unfold sourceType extensionNames
  simp only
  have : b.filter (·.extension = m.extension) = [] :=
    List.filter_eq_nil_iff.2 (by intro x hx; simpa using hb x hx)
  rw [aget_extensionNames, h, List.filter_append, List.filter_cons_of_pos (by simp), this, List.getLast?_append]
  rfl

/-- A source with another extension is what it would be without rules. -/
theorem C98_kind_other {ms : List MsRule} {deps platforms : List Str} {toolset s : Str}
    (h : ∀ m ∈ ms, m.extension ≠ lowerStr (winSplitext s).2) :
    sourceType (extensionNames ms) deps platforms toolset s = sourceType [] deps platforms toolset s := by
  unfold sourceType extensionNames
  simp only
  rw [aget_extensionNames, List.filter_eq_nil_iff.2 (by intro x hx; simpa using h x hx)]
  rfl

theorem not_isUpper_toLower (c : Char) : c.toLower.isUpper = false := by
  unfold Char.toLower
  split
  · rename_i h
    simp only [Char.isUpper, ge_iff_le, decide_eq_false_iff_not] at h ⊢
    rintro ⟨_, h2⟩
    have e : ('a'.val - 'A'.val : UInt32) = 32 := by decide
    rw [e] at h2
    rw [UInt32.le_iff_toNat_le] at h2
    have h0 := h.1
    have h1 := h.2
    rw [UInt32.le_iff_toNat_le] at h0 h1
    have a1 : 'A'.val.toNat = 65 := by decide
    have a2 : 'Z'.val.toNat = 90 := by decide
    have a3 : (32 : UInt32).toNat = 32 := by decide
    rw [UInt32.toNat_add] at h2
    omega
  · rename_i h
    rw [Bool.eq_false_iff]
    intro h2
    apply h
    simpa [Char.isUpper] using h2

theorem lowerStr_noUpper {s : Str} {c : Char} (h : c ∈ lowerStr s) : c.isUpper = false := by
  unfold lowerStr at h
  obtain ⟨l, hl, hc⟩ := List.mem_flatten.1 h
  obtain ⟨d, _, rfl⟩ := List.mem_map.1 hl
  unfold lowerChar at hc
  split at hc
  · simp only [List.mem_cons, List.not_mem_nil, or_false] at hc
    rcases hc with rfl | rfl <;> decide
  · split at hc
    · simp only [List.mem_cons, List.not_mem_nil, or_false] at hc
      subst hc; decide
    · simp only [List.mem_cons, List.not_mem_nil, or_false] at hc
      subst hc
      exact not_isUpper_toLower d

/-- A rule whose extension has a capital letter is never used: the extensions of sources are compared in small
letters. -/
theorem C98_capital {a b : List MsRule} {m : MsRule} {deps platforms : List Str} {toolset s : Str} {c : Char}
    (hc : c ∈ m.extension) (hu : c.isUpper = true) :
    sourceType (extensionNames (a ++ m :: b)) deps platforms toolset s =
      sourceType (extensionNames (a ++ b)) deps platforms toolset s := by
  have hne : m.extension ≠ lowerStr (winSplitext s).2 := by
    intro h
    rw [h] at hc
    rw [lowerStr_noUpper hc] at hu
    cases hu
  unfold sourceType extensionNames
  simp only
  rw [aget_extensionNames, aget_extensionNames, List.filter_append, List.filter_append,
    List.filter_cons_of_neg (by simpa using hne)]

/-- The inputs of a rule are known as files rules depend on. -/
theorem C98_dependencies {w : WinPaths} {cyg : Str} {rules : List WinRule} {ms : List MsRule} {r : WinRule} {i : Str}
    (h : msbuildRules w cyg rules = some ms) (hr : r ∈ rules) (hn : r.external = false) (ha : r.action.isSome = true)
    (hi : i ∈ r.inputs) (hs : ∀ j ∈ r.inputs, ';' ∉ ConvertVCMacrosToMSBuild (fixPath w j)) :
    ConvertVCMacrosToMSBuild (fixPath w i) ∈ ruleDependencies ms := by
  have hf := C98_native h
  have hmem : r ∈ rules.filter fun r => !r.external && r.action.isSome :=
    List.mem_filter.2 ⟨hr, by simp [hn, ha]⟩
  have : ∀ {rs : List WinRule} {ms : List MsRule}, List.Forall₂ (RuleMade w cyg) rs ms → r ∈ rs →
      ∃ m ∈ ms, RuleMade w cyg r m := by
    intro rs ms hf
    induction hf with
    | nil => intro h; cases h
    | cons h1 _ ih =>
      intro hm
      rcases List.mem_cons.1 hm with rfl | hm
      · exact ⟨_, List.mem_cons_self .., h1⟩
      · obtain ⟨m, h2, h3⟩ := ih hm
        exact ⟨m, List.mem_cons_of_mem _ h2, h3⟩
  obtain ⟨m, hm, hmade⟩ := this hf hmem
  unfold ruleDependencies
  refine List.mem_flatMap.2 ⟨m, hm, ?_⟩
  rw [hmade.inputs hs (List.ne_nil_of_mem hi)]
  exact List.mem_map.2 ⟨i, hi, rfl⟩

/-! ### External rules -/

theorem outputs_of (w : WinPaths) (r : WinRule) (t f : Str) : f ∈ (ruleInputsOutputs w r t).2 ↔ RuleOutput w r t f := by
  unfold ruleInputsOutputs RuleOutput
  simp only
  rw [mem_winUpdate, List.mem_map]
  constructor
  · rintro (h | ⟨i, h, rfl⟩); exacts [absurd h (by simp), ⟨i, h, rfl⟩]
  · rintro ⟨i, h, rfl⟩; exact .inr ⟨i, h, rfl⟩

theorem inputs_of (w : WinPaths) (r : WinRule) (t f : Str) :
    f ∈ (ruleInputsOutputs w r t).1 ↔ f = t ∨ RuleInput w r t f := by
  unfold ruleInputsOutputs RuleInput
  simp only
  rw [mem_winUpdate, List.mem_singleton, List.mem_map]
  constructor
  · rintro (h | ⟨i, h, rfl⟩); exacts [.inl h, .inr ⟨i, h, rfl⟩]
  · rintro (h | ⟨i, h, rfl⟩); exacts [.inl h, .inr ⟨i, h, rfl⟩]

theorem mem_foldUpdate {α : Type} (g : α → List Str) (xs : List α) (acc : List Str) (f : Str) :
    f ∈ xs.foldl (fun acc p => winUpdate acc (g p)) acc ↔ f ∈ acc ∨ ∃ p ∈ xs, f ∈ g p := by
  induction xs generalizing acc with
  | nil => simp
  | cons x xs ih =>
    rw [List.foldl_cons, ih, mem_winUpdate]
    simp only [List.exists_mem_cons_iff]
    exact or_assoc

theorem mem_ruleTriggers {rules : List WinRule} {r : WinRule} {t : Str} :
    (r, t) ∈ ruleTriggers rules ↔ r ∈ rules ∧ t ∈ r.sources := by
  unfold ruleTriggers
  simp only [List.mem_flatMap, List.mem_map, Prod.mk.injEq]
  constructor
  · rintro ⟨r', h1, t', h2, rfl, rfl⟩; exact ⟨h1, h2⟩
  · rintro ⟨h1, h2⟩; exact ⟨r, h1, t, h2, rfl, rfl⟩

theorem mapM_eq_none {α β : Type} {f : α → Option β} {l : List α} : l.mapM f = none ↔ ∃ x ∈ l, f x = none := by
  induction l with
  | nil => simp
  | cons x l ih =>
    rw [List.mapM_cons]
    simp only [List.exists_mem_cons_iff]
    cases hx : f x with
    | none => simp
    | some y =>
      cases hl : l.mapM f with
      | none => simpa using ih.1 hl
      | some ys =>
        have : ¬ ∃ x ∈ l, f x = none := fun h => by rw [ih.2 h] at hl; cases hl
        simpa using this

theorem mapM_eq_some {α β : Type} {f : α → Option β} {l : List α} {ys : List β} (h : l.mapM f = some ys) :
    List.Forall₂ (fun x y => f x = some y) l ys := by
  induction l generalizing ys with
  | nil => simp at h; subst h; exact .nil
  | cons x l ih =>
    rw [List.mapM_cons] at h
    cases hx : f x with
    | none => simp [hx] at h
    | some y =>
      cases hl : l.mapM f with
      | none => simp [hx, hl] at h
      | some ys' =>
        simp [hx, hl] at h
        subst h
        exact .cons hx (ih hl)

/-- Everything `externalRules` gives, by parts. -/
theorem externalRules_some {w : WinPaths} {cyg target suffix : Str} {rules : List WinRule} {name text : Str}
    {step : WinStep} (h : externalRules w cyg target suffix rules = some (name, text, step)) :
    ∃ firsts recipes dirs, name = target ++ c!"_rules" ++ suffix ++ c!".mk" ∧
      ((ruleTriggers rules).map fun rf => ruleInputsOutputs w rf.1 rf.2).mapM (fun p => p.2.head?) = some firsts ∧
      (ruleTriggers rules).mapM (fun rf => externalRecipe w rf.1 rf.2) = some recipes ∧
      text = c!"OutDirCygwin:=$(shell cygpath -u \"$(OutDir)\")\n" ++
        c!"IntDirCygwin:=$(shell cygpath -u \"$(IntDir)\")\n" ++ c!"all: " ++ joinWith c!" " (firsts.map cygwinify) ++
        c!"\n" ++ (dirs.filter (· ≠ [])).flatMap (fun d => c!"\tmkdir -p `cygpath -u \"" ++ d ++ c!"\"`\n") ++ c!"\n" ++
        recipes.flatten ∧
      dirs = ((ruleTriggers rules).map fun rf => ruleInputsOutputs w rf.1 rf.2).foldl
        (fun acc p => winUpdate acc (p.2.map winDirname)) [] ∧
      step.inputs = (name :: ((ruleTriggers rules).map fun rf => ruleInputsOutputs w rf.1 rf.2).foldl
        (fun acc p => winUpdate acc p.1) []).map (fixPath w) ∧
      step.outputs = (((ruleTriggers rules).map fun rf => ruleInputsOutputs w rf.1 rf.2).foldl
        (fun acc p => winUpdate acc p.2) []).map (fixPath w) ∧
      step.description = c!"Running external rules for " ++ target ∧
      buildCommandLine w cyg [c!"make", c!"OutDir=$(OutDir)", c!"IntDir=$(IntDir)", c!"-j",
          c!"${NUMBER_OF_PROCESSORS_PLUS_1}", c!"-f", name] true false true true = some step.command := by
  unfold externalRules at h
  dsimp only at h
  cases h1 : ((ruleTriggers rules).map fun rf => ruleInputsOutputs w rf.1 rf.2).mapM (fun p => p.2.head?) with
  | none => rw [h1] at h; cases h
  | some firsts =>
    rw [h1] at h
    dsimp only at h
    cases h2 : (ruleTriggers rules).mapM (fun rf => externalRecipe w rf.1 rf.2) with
    | none => rw [h2] at h; cases h
    | some recipes =>
      rw [h2] at h
      dsimp only at h
      split at h
      · cases h
      · rename_i command hc
        simp only [Option.some.injEq, Prod.mk.injEq] at h
        obtain ⟨rfl, rfl, rfl⟩ := h
        exact ⟨firsts, recipes, _, rfl, rfl, rfl, rfl, rfl, rfl, rfl, rfl, hc⟩

/-- External rules are run by one step, attached to the makefile: its inputs are the makefile, the files of the
rules and their inputs, its outputs are the outputs of the rules. -/
theorem C98_external_step {w : WinPaths} {cyg target suffix : Str} {rules : List WinRule} {name text : Str}
    {step : WinStep} (h : externalRules w cyg target suffix rules = some (name, text, step)) :
    name = target ++ c!"_rules" ++ suffix ++ c!".mk" ∧ step.inputs.head? = some (fixPath w name) ∧
    (∀ f, f ∈ step.inputs ↔ f = fixPath w name ∨
      ∃ r ∈ rules, ∃ t ∈ r.sources, f = fixPath w t ∨ ∃ g, RuleInput w r t g ∧ f = fixPath w g) ∧
    (∀ f, f ∈ step.outputs ↔ ∃ r ∈ rules, ∃ t ∈ r.sources, ∃ g, RuleOutput w r t g ∧ f = fixPath w g) ∧
    step.description = c!"Running external rules for " ++ target ∧
    buildCommandLine w cyg [c!"make", c!"OutDir=$(OutDir)", c!"IntDir=$(IntDir)", c!"-j",
      c!"${NUMBER_OF_PROCESSORS_PLUS_1}", c!"-f", name] true false true true = some step.command := by
  obtain ⟨firsts, recipes, dirs, h1, h2, h3, h4, h5, h6, h7, h8, h9⟩ := externalRules_some h
  refine ⟨h1, by rw [h6]; rfl, ?_, ?_, h8, h9⟩
  · intro f
    rw [h6, List.map_cons, List.mem_cons, List.mem_map]
    refine or_congr Iff.rfl ?_
    constructor
    · rintro ⟨g, hg, rfl⟩
      rw [mem_foldUpdate (fun p : List Str × List Str => p.1)] at hg
      rcases hg with hg | ⟨p, hp, hg⟩
      · cases hg
      · obtain ⟨⟨r, t⟩, hrt, rfl⟩ := List.mem_map.1 hp
        obtain ⟨hr, ht⟩ := mem_ruleTriggers.1 hrt
        rcases (inputs_of ..).1 hg with rfl | hg
        · exact ⟨r, hr, _, ht, .inl rfl⟩
        · exact ⟨r, hr, t, ht, .inr ⟨g, hg, rfl⟩⟩
    · rintro ⟨r, hr, t, ht, rfl | ⟨g, hg, rfl⟩⟩
      · refine ⟨t, ?_, rfl⟩
        rw [mem_foldUpdate (fun p : List Str × List Str => p.1)]
        exact .inr ⟨_, List.mem_map.2 ⟨(r, t), mem_ruleTriggers.2 ⟨hr, ht⟩, rfl⟩, (inputs_of ..).2 (.inl rfl)⟩
      · refine ⟨g, ?_, rfl⟩
        rw [mem_foldUpdate (fun p : List Str × List Str => p.1)]
        exact .inr ⟨_, List.mem_map.2 ⟨(r, t), mem_ruleTriggers.2 ⟨hr, ht⟩, rfl⟩, (inputs_of ..).2 (.inr hg)⟩
  · intro f
    rw [h7, List.mem_map]
    constructor
    · rintro ⟨g, hg, rfl⟩
      rw [mem_foldUpdate (fun p : List Str × List Str => p.2)] at hg
      rcases hg with hg | ⟨p, hp, hg⟩
      · cases hg
      · obtain ⟨⟨r, t⟩, hrt, rfl⟩ := List.mem_map.1 hp
        obtain ⟨hr, ht⟩ := mem_ruleTriggers.1 hrt
        exact ⟨r, hr, t, ht, g, (outputs_of ..).1 hg, rfl⟩
    · rintro ⟨r, hr, t, ht, g, hg, rfl⟩
      refine ⟨g, ?_, rfl⟩
      rw [mem_foldUpdate (fun p : List Str × List Str => p.2)]
      exact .inr ⟨_, List.mem_map.2 ⟨(r, t), mem_ruleTriggers.2 ⟨hr, ht⟩, rfl⟩, (outputs_of ..).2 hg⟩

/-- The makefile of external rules: its default target needs one output of each rule for each file and makes the
directories of the outputs; then there is one recipe for each rule and file, from the inputs to the outputs. -/
theorem C98_external_makefile {w : WinPaths} {cyg target suffix : Str} {rules : List WinRule} {name text : Str}
    {step : WinStep} (h : externalRules w cyg target suffix rules = some (name, text, step)) :
    ∃ (firsts dirs recipes : List Str),
      text = c!"OutDirCygwin:=$(shell cygpath -u \"$(OutDir)\")\n" ++
        c!"IntDirCygwin:=$(shell cygpath -u \"$(IntDir)\")\n" ++ c!"all: " ++ joinWith c!" " (firsts.map cygwinify) ++
        c!"\n" ++ dirs.flatMap (fun d => c!"\tmkdir -p `cygpath -u \"" ++ d ++ c!"\"`\n") ++ c!"\n" ++
        recipes.flatten ∧
      List.Forall₂ (fun rf x => RuleOutput w rf.1 rf.2 x) (ruleTriggers rules) firsts ∧
      (∀ d, d ∈ dirs ↔ d ≠ [] ∧ ∃ r ∈ rules, ∃ t ∈ r.sources, ∃ o, RuleOutput w r t o ∧ d = winDirname o) ∧
      List.Forall₂ (fun rf x => ∃ (outs ins action : List Str), (∀ f, f ∈ outs ↔ RuleOutput w rf.1 rf.2 f) ∧
        (∀ f, f ∈ ins ↔ f = rf.2 ∨ RuleInput w rf.1 rf.2 f) ∧ rf.1.action = some action ∧
        x = recipe (outs.map cygwinify) (ins.map cygwinify) (action.map fun c => ruleExpandPath c rf.2))
        (ruleTriggers rules) recipes := by
  obtain ⟨firsts, recipes, dirs, h1, h2, h3, h4, h5, h6, h7, h8, h9⟩ := externalRules_some h
  refine ⟨firsts, dirs.filter (· ≠ []), recipes, h4, ?_, ?_, ?_⟩
  · have := mapM_eq_some h2
    rw [List.forall₂_map_left_iff] at this
    refine this.imp ?_
    intro rf x hx
    exact (outputs_of ..).1 (List.mem_of_mem_head? (by simpa using hx))
  · intro d
    rw [List.mem_filter, h5, mem_foldUpdate (fun p : List Str × List Str => p.2.map winDirname)]
    simp only [decide_eq_true_eq]
    rw [and_comm]
    refine and_congr Iff.rfl ?_
    constructor
    · rintro (hg | ⟨p, hp, hg⟩)
      · cases hg
      · obtain ⟨⟨r, t⟩, hrt, rfl⟩ := List.mem_map.1 hp
        obtain ⟨hr, ht⟩ := mem_ruleTriggers.1 hrt
        obtain ⟨o, ho, rfl⟩ := List.mem_map.1 hg
        exact ⟨r, hr, t, ht, o, (outputs_of ..).1 ho, rfl⟩
    · rintro ⟨r, hr, t, ht, o, ho, rfl⟩
      exact .inr ⟨_, List.mem_map.2 ⟨(r, t), mem_ruleTriggers.2 ⟨hr, ht⟩, rfl⟩,
        List.mem_map.2 ⟨o, (outputs_of ..).2 ho, rfl⟩⟩
  · refine (mapM_eq_some h3).imp ?_
    intro rf x hx
    unfold externalRecipe at hx
    cases ha : rf.1.action with
    | none => simp [ha] at hx
    | some action =>
      simp only [ha, Option.some.injEq] at hx
      subst hx
      refine ⟨_, _, action, outputs_of w rf.1 rf.2, inputs_of w rf.1 rf.2, rfl, ?_⟩
      unfold recipe
      rw [List.map_map]
      rfl

/-- Generating external rules stops exactly when one with a file has no outputs or no action. -/
theorem C98_external_stops (w : WinPaths) (cyg target suffix : Str) (rules : List WinRule) :
    externalRules w cyg target suffix rules = none ↔
      ∃ r ∈ rules, r.sources ≠ [] ∧ (r.outputs = [] ∨ r.action = none) := by
  have e1 : ((ruleTriggers rules).map fun rf => ruleInputsOutputs w rf.1 rf.2).mapM (fun p => p.2.head?) = none ↔
      ∃ r ∈ rules, r.sources ≠ [] ∧ r.outputs = [] := by
    rw [mapM_eq_none]
    constructor
    · rintro ⟨p, hp, hn⟩
      obtain ⟨⟨r, t⟩, hrt, rfl⟩ := List.mem_map.1 hp
      obtain ⟨hr, ht⟩ := mem_ruleTriggers.1 hrt
      refine ⟨r, hr, List.ne_nil_of_mem ht, ?_⟩
      rw [List.head?_eq_none_iff] at hn
      cases ho : r.outputs with
      | nil => rfl
      | cons o os =>
        have := (outputs_of w r t _).2 ⟨o, by rw [ho]; exact List.mem_cons_self .., rfl⟩
        rw [hn] at this
        cases this
    · rintro ⟨r, hr, hs, ho⟩
      obtain ⟨t, ht⟩ := List.exists_mem_of_ne_nil _ hs
      refine ⟨_, List.mem_map.2 ⟨(r, t), mem_ruleTriggers.2 ⟨hr, ht⟩, rfl⟩, ?_⟩
      unfold ruleInputsOutputs
      simp [ho, winUpdate]
  have e2 : (ruleTriggers rules).mapM (fun rf => externalRecipe w rf.1 rf.2) = none ↔
      ∃ r ∈ rules, r.sources ≠ [] ∧ r.action = none := by
    rw [mapM_eq_none]
    constructor
    · rintro ⟨⟨r, t⟩, hrt, hn⟩
      obtain ⟨hr, ht⟩ := mem_ruleTriggers.1 hrt
      refine ⟨r, hr, List.ne_nil_of_mem ht, ?_⟩
      unfold externalRecipe at hn
      cases ha : r.action with
      | none => rfl
      | some a => simp [ha] at hn
    · rintro ⟨r, hr, hs, ha⟩
      obtain ⟨t, ht⟩ := List.exists_mem_of_ne_nil _ hs
      refine ⟨(r, t), mem_ruleTriggers.2 ⟨hr, ht⟩, ?_⟩
      unfold externalRecipe
      simp [ha]
  unfold externalRules
  dsimp only
  cases h1 : ((ruleTriggers rules).map fun rf => ruleInputsOutputs w rf.1 rf.2).mapM (fun p => p.2.head?) with
  | none =>
    obtain ⟨r, hr, hs, ho⟩ := e1.1 h1
    simp only [true_iff]
    exact ⟨r, hr, hs, .inl ho⟩
  | some firsts =>
    dsimp only
    cases h2 : (ruleTriggers rules).mapM (fun rf => externalRecipe w rf.1 rf.2) with
    | none =>
      obtain ⟨r, hr, hs, ho⟩ := e2.1 h2
      simp only [true_iff]
      exact ⟨r, hr, hs, .inr ho⟩
    | some recipes =>
      dsimp only
      constructor
      · intro h
        split at h
        · rename_i hb
          have := buildCommandLine_none.1 hb
          cases this.2
        · cases h
      · rintro ⟨r, hr, hs, ho | ho⟩
        · rw [e1.2 ⟨r, hr, hs, ho⟩] at h1; cases h1
        · rw [e2.2 ⟨r, hr, hs, ho⟩] at h2; cases h2

/-- In the makefile, the output directory and the intermediate directory are named by their variables for
Cygwin, and the rest of a path is kept. -/
theorem C98_cygwin (ps : List MakePiece) (h : ∀ s, MakePiece.text s ∈ ps → '$' ∉ s) :
    cygwinify (ps.flatMap MakePiece.written) = ps.flatMap MakePiece.cygwin := by
  unfold cygwinify
  have h1 : replaceStr c!"$(OutDir)" c!"$(OutDirCygwin)" (ps.flatMap MakePiece.written) =
      ps.flatMap fun x => match x with
        | .outDir => c!"$(OutDirCygwin)"
        | x => x.written := by
    apply replaceStr_pieces
    intro x hx r
    cases x with
    | text s => exact replaceStr_skip rfl (h s hx) r
    | outDir => exact replaceStr_here (by decide)
    | intDir => exact replaceStr_other rfl (by decide) rfl
  rw [h1]
  apply replaceStr_pieces
  intro x hx r
  cases x with
  | text s => exact replaceStr_skip rfl (h s hx) r
  | outDir => exact replaceStr_other rfl (by decide) rfl
  | intDir => exact replaceStr_here (by decide)

/-! ### All rules -/

/-- What the rules of a target add to its project is what the parts above say, with the makefile of external rules
among the sources. -/
theorem C98_rules {w : WinPaths} {cyg target suffix : Str} {rules : List WinRule} {sources excluded : List Str}
    {out : RulesOut} (h : rulesForMSBuild w cyg target suffix rules sources excluded = some out) :
    msbuildRules w cyg rules = some out.native ∧
    (∀ f, f ∈ out.excluded ↔ f ∈ excluded ∧ ∀ r ∈ rules, ∀ t ∈ r.sources, f ≠ fixPath w t) ∧
    (∀ f, f ∈ sources → f ∈ out.sources) ∧
    (∀ r ∈ rules, r.asSources = true → ∀ t ∈ r.sources, ∀ g, RuleOutput w r t g → fixPath w g ∈ out.sources) ∧
    ((∀ r ∈ rules, r.external = false) → out.makefile = none ∧ out.steps = []) ∧
    ((∃ r ∈ rules, r.external = true) → ∃ name text step, out.makefile = some (name, text) ∧ out.steps = [step] ∧
      name ∈ out.sources ∧
      externalRules w cyg target suffix (rules.filter (·.external)) = some (name, text, step)) := by
  unfold rulesForMSBuild at h
  cases hm : msbuildRules w cyg rules with
  | none => simp [hm] at h
  | some native =>
    simp only [hm] at h
    by_cases he : rules.any (·.external) = true
    · rw [if_pos he] at h
      cases hx : externalRules w cyg target suffix (rules.filter (·.external)) with
      | none => simp [hx] at h
      | some out' =>
        obtain ⟨name, text, step⟩ := out'
        simp only [hx, Option.some.injEq] at h
        subst h
        refine ⟨rfl, fun f => C98_excluded .., ?_, ?_, ?_, ?_⟩
        · intro f hf
          exact (C98_sources ..).2 (.inl (mem_listAdd_str.2 (.inl hf)))
        · intro r hr ha t ht g hg
          exact (C98_sources ..).2 (.inr ⟨r, hr, t, ht, ha, .inr ⟨g, hg, rfl⟩⟩)
        · intro hn
          obtain ⟨r, hr, h2⟩ := List.any_eq_true.1 he
          rw [hn r hr] at h2; cases h2
        · intro _
          exact ⟨name, text, step, rfl, rfl, (C98_sources ..).2 (.inl (mem_listAdd_str.2 (.inr rfl))), rfl⟩
    · rw [if_neg he] at h
      simp only [Option.some.injEq] at h
      subst h
      refine ⟨rfl, fun f => C98_excluded .., ?_, ?_, fun _ => ⟨rfl, rfl⟩, ?_⟩
      · intro f hf
        exact (C98_sources ..).2 (.inl hf)
      · intro r hr ha t ht g hg
        exact (C98_sources ..).2 (.inr ⟨r, hr, t, ht, ha, .inr ⟨g, hg, rfl⟩⟩)
      · rintro ⟨r, hr, h2⟩
        exact absurd (List.any_eq_true.2 ⟨r, hr, h2⟩) he

/-! ### Cases -/

/-- Paths from a project in a directory of its own, as `node-gyp` has them. -/
def rulePaths : WinPaths where
  norm := fun s => s
  isabs := fun s => startsWith s c!"\\"
  join := fun a b => a ++ c!"\\" ++ b
  base := c!".."

/-- A rule for a grammar. -/
def grammarRule : WinRule where
  name := c!"run-bison"
  extension := c!"y"
  sources := [c!"src/expr.y"]
  inputs := [c!"tools/bison.py"]
  outputs := [c!"$(IntDir)/$(InputName).cc"]
  action := some [c!"python", c!"tools/bison.py", c!"$(InputPath)"]
  asSources := true
  cygwin := false

def grammarFile : FileParts := ⟨c!"src", c!"/", c!"expr", c!".y"⟩

theorem noRef_of {s : Str} (h : '$' ∉ s) : NoInputRef s := by
  intro a b e
  exact absurd (by rw [e]; simp) h

example : grammarFile.Valid ∧ grammarFile.Plain :=
  ⟨⟨.inr ⟨by decide, .inl rfl, by intro c h; cases h; decide⟩, by decide, .inr ⟨c!"y", rfl, by decide, 'e', by decide, by decide⟩⟩,
    noRef_of (by decide), noRef_of (by decide), noRef_of (by decide), noRef_of (by decide), noRef_of (by decide)⟩

example : ruleExpandPath c!"$(IntDir)/$(InputName).cc" c!"src/expr.y" = c!"$(IntDir)/expr.cc" := by decide +kernel

example : adjustForRules rulePaths [grammarRule] ([c!"src/expr.y"], [c!"..\\src\\expr.y"]) =
    ([c!"src/expr.y", c!"..\\..\\tools\\bison.py", c!"$(IntDir)\\expr.cc"], []) := by decide +kernel

example : ((msbuildRules rulePaths [] [grammarRule]).map fun ms =>
    ms.map fun m => (m.ruleName, m.extension, m.additionalDependencies, m.outputs)) =
    some [(c!"run_bison", c!".y", c!"..\\tools\\bison.py", c!"$(IntDir)%(Filename).cc")] := by decide +kernel

example : ((msbuildRules rulePaths [] [grammarRule]).map fun ms =>
    sourceType (extensionNames ms) [] [] [] c!"..\\src\\expr.y") = some (c!"rule", c!"run_bison") := by decide +kernel

example : ((externalRules rulePaths [] c!"t" [] [{ grammarRule with external := true }]).map fun x => x.2.1) =
    some (c!"OutDirCygwin:=$(shell cygpath -u \"$(OutDir)\")\n" ++ c!"IntDirCygwin:=$(shell cygpath -u \"$(IntDir)\")\n" ++
      c!"all: $(IntDirCygwin)\\expr.cc\n" ++ c!"\tmkdir -p `cygpath -u \"$(IntDir)\"`\n\n" ++
      c!"$(IntDirCygwin)\\expr.cc: src/expr.y " ++ c!"..\\tools\\bison.py\n" ++
      c!"\t\"python\" \"tools/bison.py\" \"src/expr.y\"\n\n") := by decide +kernel

example : (rulesForMSBuild rulePaths [] c!"t" [] [grammarRule] [] []).isSome = true := by decide +kernel

example : ∃ m m', msbuildRule rulePaths [] grammarRule = some m ∧
    msbuildRule rulePaths [] { grammarRule with name := c!"lex" } = some m' ∧ m.ruleName ≠ m'.ruleName := by
  have h1 : (msbuildRule rulePaths [] grammarRule).map (·.ruleName) = some c!"run_bison" := by decide +kernel
  have h2 : (msbuildRule rulePaths [] { grammarRule with name := c!"lex" }).map (·.ruleName) = some c!"lex" := by
    decide +kernel
  obtain ⟨m, e1, e2⟩ := Option.map_eq_some_iff.1 h1
  obtain ⟨m', e3, e4⟩ := Option.map_eq_some_iff.1 h2
  exact ⟨m, m', e1, e3, by rw [e2, e4]; decide⟩

example : NoCommand { grammarRule with action := none } := ⟨rfl, .inl ⟨rfl, by decide⟩⟩

example : cygwinify c!"$(OutDir)\\a.cc" = c!"$(OutDirCygwin)\\a.cc" := by decide +kernel

example : ∃ c ∈ c!".Y", c.isUpper = true := by decide

/-- With a project in a directory of its own, the file of a rule that is an input of an action stays excluded:
the list of excluded files has paths from the build file, but the path removed is one from the project. -/
theorem C98_trigger_witness :
    (adjustForRules rulePaths [grammarRule] ([c!"src\\expr.y"], [c!"src\\expr.y"])).2 = [c!"src\\expr.y"] := by
  decide +kernel

/-- An output outside the intermediate directory gets the path to the project three times until it is in the
project. -/
theorem C98_output_witness :
    (adjustForRules rulePaths [{ grammarRule with outputs := [c!"gen/$(InputName).cc"] }] ([], [])).1.map
      (fixPath rulePaths) = [c!"..\\..\\..\\tools\\bison.py", c!"..\\..\\..\\gen\\expr.cc"] := by
  decide +kernel

/-- Two rules can have the same name in a project. -/
theorem C98_name_witness :
    ((msbuildRules rulePaths [] [grammarRule, { grammarRule with name := c!"run_bison", extension := c!"z" }]).map
      fun ms => ms.map (·.ruleName)) = some [c!"run_bison", c!"run_bison"] := by
  decide +kernel

end Gyp
