import Verif.Model.CompileCommands
import Verif.Spec.CompileCommands
import Verif.Props.ShellQuote
import Verif.Proofs.Path
/-
C90: the compilation database.  C91: the dumped graph of dependencies.
-/
namespace Gyp

open Spec

/-! ### Reading commands made of several parts -/

/-- A text reads as a list of words, wherever it starts. -/
def ReadsAs (k : Bool) (text : Str) (ws : List Str) : Prop :=
  ∀ done, ∃ cur done', lexRun k ⟨.plain, none, done⟩ text = some ⟨.plain, cur, done'⟩ ∧
    done' ++ cur.toList = done ++ ws

theorem readsAs_append {k : Bool} {a b : Str} {x y : List Str} (ha : ReadsAs k a x)
    (hb : ReadsAs k b y) : ReadsAs k (a ++ c!" " ++ b) (x ++ y) := by
  intro done
  obtain ⟨cur, done', h1, h2⟩ := ha done
  obtain ⟨cur2, done2, h3, h4⟩ := hb (done' ++ cur.toList)
  refine ⟨cur2, done2, ?_, by rw [h4, h2, List.append_assoc]⟩
  rw [lexRun_append, lexRun_append, h1, Option.bind_some]
  have : lexRun k ⟨.plain, cur, done'⟩ c!" " = some ⟨.plain, none, done' ++ cur.toList⟩ := rfl
  rw [this, Option.bind_some, h3]

theorem readsAs_list {k : Bool} (args : List Str) (h : k = true ∨ ∀ a ∈ args, '$' ∉ a) :
    ReadsAs k (EncodePOSIXShellList args) args := by
  intro done
  have := lex_join k EncodePOSIXShellArgument args
    (fun a ha done => lex_encoded k a done (h.imp id fun h => h a ha)) done
  unfold EncodePOSIXShellList
  cases hr : lexRun k ⟨.plain, none, done⟩ (joinWith [' '] (args.map EncodePOSIXShellArgument)) with
  | none => rw [hr] at this; cases this
  | some s =>
    rw [hr, Option.bind_some] at this
    obtain ⟨m, c, d⟩ := s
    simp only at this
    split at this
    · rename_i hm
      cases hm
      exact ⟨c, d, rfl, by simpa using this⟩
    · cases this

theorem readsAs_argument {k : Bool} (arg : Str) (h : k = true ∨ '$' ∉ arg) :
    ReadsAs k (EncodePOSIXShellArgument arg) [arg] := fun done =>
  ⟨some arg, done, lex_encoded k arg done h, by simp⟩

theorem readsAs_words {k : Bool} {text : Str} {ws : List Str} (h : ReadsAs k text ws) :
    lexWords k text = some ws := by
  obtain ⟨cur, done, h1, h2⟩ := h []
  unfold lexWords
  rw [h1]
  simpa using h2

theorem readsAs_word {k : Bool} : ReadsAs k c!"cc" [c!"cc"] ∧ ReadsAs k c!"c++" [c!"c++"] ∧
    ReadsAs k c!"-c" [c!"-c"] :=
  ⟨fun done => ⟨some c!"cc", done, rfl, rfl⟩, fun done => ⟨some c!"c++", done, rfl, rfl⟩,
   fun done => ⟨some c!"-c", done, rfl, rfl⟩⟩

/-! ### The entries -/

theorem endsWith_suffix {s p : Str} : endsWith s p = true ↔ p <:+ s :=
  List.isSuffixOf_iff_suffix

theorem ccSource_iff (s : Str) : ccSource s = true ↔ IsC s ∨ IsCxx s := by
  unfold ccSource IsC IsCxx
  simp only [Bool.or_eq_true, endsWith_suffix, or_assoc]

theorem cxx_not_c {s : Str} (h : IsCxx s) : ¬ IsC s := by
  intro hc
  unfold IsCxx at h
  have key : ∀ e : Str, 2 ≤ e.length → e <:+ s → c!".c" <:+ e := fun e hl he =>
    List.suffix_of_suffix_length_le hc he (by simpa using hl)
  rcases h with h | h | h
  · exact absurd (key _ (by decide) h) (by decide)
  · exact absurd (key _ (by decide) h) (by decide)
  · exact absurd (key _ (by decide) h) (by decide)

theorem abspath_absolute {cwd : List Str} (h : ∀ c ∈ cwd, validName c) (p : Str) :
    AbsolutePathOf (abspath cwd p) (walk cwd.reverse p) := by
  obtain ⟨n, hn, _, hs, hv⟩ := abspath_shape h p
  refine ⟨?_, fun l => walk_abspath h p l, ?_⟩
  · rw [hs]
    cases n with
    | zero => omega
    | succ n => simp [List.replicate_succ]
  · rw [hs, splitOn_abspath n (fun c hc => hv c (by simpa using hc))]
    intro c hc
    rcases List.mem_append.mp hc with hc | hc
    · rw [(List.mem_replicate.mp hc).2]; decide
    · split at hc
      · simp at hc; subst hc; decide
      · have := hv c (by simpa using hc)
        exact ⟨this.2.2.1, this.2.2.2⟩

/-- The place of a file of a target. -/
theorem ccResolve_place {cwd : List Str} (h : ∀ c ∈ cwd, validName c) (dir f : Str) :
    AbsolutePathOf (ccResolve cwd dir f) (walk (walk cwd.reverse dir) f) := by
  unfold ccResolve
  have := abspath_absolute h (pathJoin dir f)
  rwa [walk_join] at this

theorem ccEntry_describes {cwd : List Str} (h : ∀ c ∈ cwd, validName c) (t : CcTarget)
    (outputDir : Str) (c : CcConfig) (source : Str) :
    Describes cwd t c source (ccEntry cwd (dirname t.buildFile) outputDir c source) := by
  let dirs := (c.includeDirs.filter fun s => !startsWith s c!"$(obj)").map
    (ccResolve cwd (dirname t.buildFile))
  let flags := if endsWith source c!".c" then c.cflags ++ c.cflagsC else c.cflags ++ c.cflagsCc
  let file := ccResolve cwd (dirname t.buildFile) source
  let cc := if endsWith source c!".c" then c!"cc" else c!"c++"
  let words := [cc] ++ c.defines.map (c!"-D" ++ ·) ++ dirs.map (c!"-I" ++ ·) ++ flags ++ [c!"-c", file]
  have hread : ∀ k, (k = true ∨ ∀ w ∈ words, '$' ∉ w) →
      ReadsAs k (ccEntry cwd (dirname t.buildFile) outputDir c source).command words := by
    intro k hk
    have sub : ∀ l : List Str, l ⊆ words → k = true ∨ ∀ w ∈ l, '$' ∉ w := fun l hl =>
      hk.imp id fun h w hw => h w (hl hw)
    have s1 : c.defines.map (c!"-D" ++ ·) ⊆ words := by
      intro w hw; simp only [words, List.mem_append]; exact Or.inl (Or.inl (Or.inl (Or.inr hw)))
    have s2 : dirs.map (c!"-I" ++ ·) ⊆ words := by
      intro w hw; simp only [words, List.mem_append]; exact Or.inl (Or.inl (Or.inr hw))
    have s3 : flags ⊆ words := by
      intro w hw; simp only [words, List.mem_append]; exact Or.inl (Or.inr hw)
    have s4 : [file] ⊆ words := by
      intro w hw
      simp only [words, List.mem_append]
      exact Or.inr (List.mem_cons_of_mem _ hw)
    have hcc : ReadsAs k cc [cc] := by
      simp only [cc]
      split
      · exact readsAs_word.1
      · exact readsAs_word.2.1
    have := readsAs_append hcc (readsAs_append (readsAs_list _ (sub _ s1))
      (readsAs_append (readsAs_list _ (sub _ s2)) (readsAs_append (readsAs_list _ (sub _ s3))
        (readsAs_append readsAs_word.2.2 (readsAs_argument file
          ((sub _ s4).imp id fun h => h file (by simp)))))))
    have e1 : (ccEntry cwd (dirname t.buildFile) outputDir c source).command =
        cc ++ c!" " ++ (EncodePOSIXShellList (c.defines.map (c!"-D" ++ ·)) ++ c!" " ++
          (EncodePOSIXShellList (dirs.map (c!"-I" ++ ·)) ++ c!" " ++
            (EncodePOSIXShellList flags ++ c!" " ++
              (c!"-c" ++ c!" " ++ EncodePOSIXShellArgument file)))) := by
      simp only [ccEntry, joinWith, dirs, flags, file, cc, List.map_map]
      simp only [List.append_assoc]
      rfl
    rw [e1]
    have e2 : words = [cc] ++ (c.defines.map (c!"-D" ++ ·) ++ (dirs.map (c!"-I" ++ ·) ++
        (flags ++ ([c!"-c"] ++ [file])))) := by
      simp [words]
    rw [e2]
    exact this
  refine ⟨ccResolve_place h _ _, dirs, words, ?_, ?_, ?_, ?_, ?_⟩
  · have : (c.includeDirs.filter fun s => !startsWith s c!"$(obj)") =
        c.includeDirs.filter fun d => decide (¬ c!"$(obj)" <+: d) := by
      congr 1
      funext d
      unfold startsWith
      by_cases hp : c!"$(obj)" <+: d
      · have := List.isPrefixOf_iff_prefix.mpr hp
        rw [this]
        simp [hp]
      · have : List.isPrefixOf c!"$(obj)" d = false := by
          cases hh : List.isPrefixOf c!"$(obj)" d with
          | false => rfl
          | true => exact absurd (List.isPrefixOf_iff_prefix.mp hh) hp
        rw [this]
        simp [hp]
    simp only [dirs]
    rw [← this]
    generalize (c.includeDirs.filter fun s => !startsWith s c!"$(obj)") = ds
    induction ds with
    | nil => exact .nil
    | cons d ds ih => exact .cons (ccResolve_place h _ _) ih
  · intro hc
    have : endsWith source c!".c" = true := endsWith_suffix.mpr hc
    simp only [CompileWords, words, cc, flags, this, if_true]
    rfl
  · intro hc
    have : endsWith source c!".c" = false := by
      cases he : endsWith source c!".c" with
      | false => rfl
      | true => exact absurd (endsWith_suffix.mp he) (cxx_not_c hc)
    simp only [CompileWords, words, cc, flags, this, Bool.false_eq_true, if_false]
    rfl
  · exact readsAs_words (hread true (Or.inl rfl))
  · intro hw
    exact readsAs_words (hread false (Or.inr hw))

/-! ### All entries -/

theorem aget_addCommands (cwd : List Str) (outputDir : Str) (per : List (Str × List CcEntry))
    (t : CcTarget) (hn : (t.configurations.map (·.1)).Nodup) (name : Str) :
    aget (addCommands cwd outputDir per t) name =
      match t.configurations.find? fun c => c.1 = name with
      | none => aget per name
      | some c => some ((aget per name).getD [] ++
          (t.sources.filter ccSource).map (ccEntry cwd (dirname t.buildFile) outputDir c.2)) := by
  unfold addCommands
  generalize t.configurations = cs at hn
  induction cs generalizing per with
  | nil => rfl
  | cons c cs ih =>
    rw [List.map_cons, List.nodup_cons] at hn
    rw [List.foldl_cons, ih _ hn.2]
    by_cases hc : c.1 = name
    · have hnone : cs.find? (fun c => decide (c.1 = name)) = none := by
        rw [List.find?_eq_none]
        intro x hx
        simp only [decide_eq_true_eq]
        intro he
        exact hn.1 (List.mem_map.mpr ⟨x, hx, by rw [he, hc]⟩)
      rw [hnone, List.find?_cons_of_pos (by simpa using hc)]
      simp only [aget_aset, hc, if_true]
    · rw [List.find?_cons_of_neg (by simpa using hc)]
      have : aget (aset per c.1 ((aget per c.1).getD [] ++ (t.sources.filter ccSource).map
          (ccEntry cwd (dirname t.buildFile) outputDir c.2))) name = aget per name := by
        rw [aget_aset, if_neg (Ne.symm hc)]
      rw [this]

theorem allPairs_append {α β : Type} {R : α → β → Prop} {a a' : List α} {b b' : List β}
    (h : AllPairs R a b) (h' : AllPairs R a' b') : AllPairs R (a ++ a') (b ++ b') := by
  induction h with
  | nil => exact h'
  | cons hr _ ih => exact .cons hr ih

theorem aget_allCommands (cwd : List Str) (hcwd : ∀ c ∈ cwd, validName c) (outputDir name : Str)
    (targets : List CcTarget) (hn : ∀ t ∈ targets, (t.configurations.map (·.1)).Nodup)
    (per : List (Str × List CcEntry)) :
    ∃ es, AllPairs (fun w e => Describes cwd w.1 w.2.1 w.2.2 e ∧ e.directory = outputDir)
        (wantedEntries name targets) es ∧
      aget (targets.foldl (addCommands cwd outputDir) per) name =
        if ∃ t ∈ targets, ∃ c ∈ t.configurations, c.1 = name then
          some ((aget per name).getD [] ++ es)
        else aget per name := by
  induction targets generalizing per with
  | nil => exact ⟨[], .nil, by simp⟩
  | cons t ts ih =>
    obtain ⟨es, h1, h2⟩ := ih (fun t ht => hn t (by simp [ht])) (addCommands cwd outputDir per t)
    rw [List.foldl_cons, h2, aget_addCommands cwd outputDir per t (hn t (by simp)) name]
    cases hf : t.configurations.find? fun c => c.1 = name with
    | none =>
      refine ⟨es, ?_, ?_⟩
      · unfold wantedEntries at h1 ⊢
        rw [List.flatMap_cons, hf]
        exact h1
      · have hno : ¬ ∃ c ∈ t.configurations, c.1 = name := by
          rintro ⟨c, hc, he⟩
          have := List.find?_eq_none.mp hf c hc
          simp [he] at this
        have hiff : (∃ t' ∈ t :: ts, ∃ c ∈ t'.configurations, c.1 = name) ↔
            ∃ t' ∈ ts, ∃ c ∈ t'.configurations, c.1 = name := by
          constructor
          · rintro ⟨t', ht', hc⟩
            rcases List.mem_cons.mp ht' with rfl | ht'
            · exact absurd hc hno
            · exact ⟨t', ht', hc⟩
          · rintro ⟨t', ht', hc⟩
            exact ⟨t', List.mem_cons_of_mem _ ht', hc⟩
        simp only [hiff]
    | some c =>
      have hc := List.mem_of_find?_eq_some hf
      have he : c.1 = name := by simpa using List.find?_some hf
      refine ⟨(t.sources.filter ccSource).map (ccEntry cwd (dirname t.buildFile) outputDir c.2) ++ es,
        ?_, ?_⟩
      · unfold wantedEntries at h1 ⊢
        rw [List.flatMap_cons, hf]
        refine allPairs_append ?_ h1
        have e1 : (t.sources.filter fun s => decide (IsC s ∨ IsCxx s)) = t.sources.filter ccSource := by
          congr 1
          funext s
          have := ccSource_iff s
          cases hs : ccSource s with
          | true => exact decide_eq_true (this.mp hs)
          | false =>
            exact decide_eq_false fun h => by
              rw [this.mpr h] at hs
              cases hs
        simp only [e1]
        generalize t.sources.filter ccSource = ss
        induction ss with
        | nil => exact .nil
        | cons s ss ih => exact .cons ⟨ccEntry_describes hcwd t outputDir c.2 s, rfl⟩ ih
      · have hyes : ∃ t' ∈ t :: ts, ∃ c ∈ t'.configurations, c.1 = name :=
          ⟨t, by simp, c, hc, he⟩
        rw [if_pos hyes]
        split <;> simp [List.append_assoc]
        rename_i hne
        have : wantedEntries name ts = [] := by
          unfold wantedEntries
          rw [List.flatMap_eq_nil_iff]
          intro t' ht'
          cases hf' : t'.configurations.find? fun c => c.1 = name with
          | none => rfl
          | some c' =>
            exact absurd ⟨t', ht', c', List.mem_of_find?_eq_some hf', by simpa using List.find?_some hf'⟩ hne
        rw [this] at h1
        cases h1
        rfl

theorem akeys_addCommands (cwd : List Str) (outputDir : Str) (targets : List CcTarget)
    (per : List (Str × List CcEntry)) (hp : (akeys per).Nodup) :
    (akeys (targets.foldl (addCommands cwd outputDir) per)).Nodup := by
  induction targets generalizing per with
  | nil => exact hp
  | cons t ts ih =>
    rw [List.foldl_cons]
    apply ih
    unfold addCommands
    generalize t.configurations = cs
    induction cs generalizing per with
    | nil => exact hp
    | cons c cs ih => exact ih _ (akeys_aset_nodup hp _ _)

/-- **C90** What is written.  For each configuration that some target has, and for no other, there is
a file `compile_commands.json` in the directory of the configuration.  It has, in order, one entry for
each C and C++ source of each target with this configuration, and nothing else; each entry is as it
should be, and its `directory` is the output directory of the flags. -/
theorem C90_entries (cwd : List Str) (hcwd : ∀ c ∈ cwd, validName c) (flag : Option Str)
    (generatorOutput : Str) (targets : List CcTarget)
    (hn : ∀ t ∈ targets, (t.configurations.map (·.1)).Nodup) :
    ∃ per : List (Str × List CcEntry),
      (per.map (·.1)).Nodup ∧
      (∀ name, name ∈ per.map (·.1) ↔ ∃ t ∈ targets, name ∈ t.configurations.map (·.1)) ∧
      (∀ name entries, (name, entries) ∈ per →
        AllPairs (fun w e => Describes cwd w.1 w.2.1 w.2.2 e ∧ e.directory = flag.getD c!"out")
          (wantedEntries name targets) entries) ∧
      compileCommands cwd flag generatorOutput targets = per.map fun x =>
        (pathJoinAll [if generatorOutput = [] then flag.getD c!"out" else generatorOutput, x.1,
          c!"compile_commands.json"], x.2) := by
  have hnd := akeys_addCommands cwd (flag.getD c!"out") targets [] (by simp [akeys])
  refine ⟨targets.foldl (addCommands cwd (flag.getD c!"out")) [], hnd, ?_, ?_, rfl⟩
  · intro name
    obtain ⟨es, _, h2⟩ := aget_allCommands cwd hcwd (flag.getD c!"out") name targets hn []
    have := aget_isSome (d := targets.foldl (addCommands cwd (flag.getD c!"out")) []) (k := name)
    unfold akeys at this
    rw [← this, h2]
    have hiff : (∃ t ∈ targets, name ∈ t.configurations.map (·.1)) ↔
        ∃ t ∈ targets, ∃ c ∈ t.configurations, c.1 = name := by simp
    rw [hiff]
    split
    · rename_i h; simp only [Option.isSome_some, true_iff]; exact h
    · rename_i h; simpa [aget] using h
  · intro name entries hm
    obtain ⟨es, h1, h2⟩ := aget_allCommands cwd hcwd (flag.getD c!"out") name targets hn []
    rw [aget_of_mem hnd hm] at h2
    split at h2
    · simp [aget] at h2
      rw [h2]; exact h1
    · simp [aget] at h2

/-! ### The graph of dependencies -/

theorem akeys_snoc {α : Type} (d : List (Str × α)) (k : Str) (v : α) :
    akeys (d ++ [(k, v)]) = akeys d ++ [k] := by
  simp [akeys]

/-- What is known while the targets are visited. -/
structure DumpState (targets : List (Str × List Str)) (roots : List Str) (edges : List (Str × List Str))
    (stack : List Str) : Prop where
  apart : (akeys edges).Nodup
  right : ∀ t ds, (t, ds) ∈ edges → aget targets t = some ds ∧ NeededTarget (aget targets) roots t
  waiting : ∀ t ∈ stack, NeededTarget (aget targets) roots t
  start : ∀ t ∈ roots, t ∈ akeys edges ∨ t ∈ stack
  next : ∀ t ds, (t, ds) ∈ edges → ∀ d ∈ ds, d ∈ akeys edges ∨ d ∈ stack

theorem dumpState_skip {targets : List (Str × List Str)} {roots : List Str}
    {edges : List (Str × List Str)} {t : Str} {rest : List Str}
    (h : DumpState targets roots edges (t :: rest)) (ht : t ∈ akeys edges) :
    DumpState targets roots edges rest where
  apart := h.apart
  right := h.right
  waiting := fun u hu => h.waiting u (List.mem_cons_of_mem _ hu)
  start := fun u hu => by
    rcases h.start u hu with h1 | h1
    · exact Or.inl h1
    · rcases List.mem_cons.mp h1 with rfl | h1
      · exact Or.inl ht
      · exact Or.inr h1
  next := fun u ds hu d hd => by
    rcases h.next u ds hu d hd with h1 | h1
    · exact Or.inl h1
    · rcases List.mem_cons.mp h1 with rfl | h1
      · exact Or.inl ht
      · exact Or.inr h1

theorem dumpState_step {targets : List (Str × List Str)} {roots : List Str}
    {edges : List (Str × List Str)} {t : Str} {rest deps : List Str}
    (h : DumpState targets roots edges (t :: rest)) (ht : t ∉ akeys edges)
    (hd : aget targets t = some deps) :
    DumpState targets roots (edges ++ [(t, deps)]) (deps.reverse ++ rest) where
  apart := by
    rw [akeys_snoc]
    exact List.nodup_append.mpr ⟨h.apart, by simp, fun a ha b hb => by
      rw [List.mem_singleton] at hb
      subst hb
      exact fun he => ht (he ▸ ha)⟩
  right := fun u ds hu => by
    rcases List.mem_append.mp hu with hu | hu
    · exact h.right u ds hu
    · rw [List.mem_singleton] at hu
      cases hu
      exact ⟨hd, h.waiting t (by simp)⟩
  waiting := fun u hu => by
    rcases List.mem_append.mp hu with hu | hu
    · exact .dependency t u deps (h.waiting t (by simp)) hd (List.mem_reverse.mp hu)
    · exact h.waiting u (List.mem_cons_of_mem _ hu)
  start := fun u hu => by
    rw [akeys_snoc]
    rcases h.start u hu with h1 | h1
    · exact Or.inl (List.mem_append_left _ h1)
    · rcases List.mem_cons.mp h1 with rfl | h1
      · exact Or.inl (by simp)
      · exact Or.inr (List.mem_append_right _ h1)
  next := fun u ds hu d hd' => by
    rw [akeys_snoc]
    rcases List.mem_append.mp hu with hu | hu
    · rcases h.next u ds hu d hd' with h1 | h1
      · exact Or.inl (List.mem_append_left _ h1)
      · rcases List.mem_cons.mp h1 with rfl | h1
        · exact Or.inl (by simp)
        · exact Or.inr (List.mem_append_right _ h1)
    · rw [List.mem_singleton] at hu
      cases hu
      exact Or.inr (List.mem_append_left _ (List.mem_reverse.mpr hd'))

theorem dumpVisit_state (targets : List (Str × List Str)) (roots : List Str)
    (edges : List (Str × List Str)) (stack : List Str) (h : DumpState targets roots edges stack) :
    match dumpVisit targets edges stack with
    | some out => DumpState targets roots out []
    | none => ∃ t, NeededTarget (aget targets) roots t ∧ aget targets t = none := by
  fun_induction dumpVisit targets edges stack with
  | case1 edges => exact h
  | case2 edges t rest ht ih => exact ih (dumpState_skip h ht)
  | case3 edges t rest ht hd => exact ⟨t, h.waiting t (by simp), hd⟩
  | case4 edges t rest ht deps hd ih => exact ih (dumpState_step h ht hd)

theorem dumpState_start (targets : List (Str × List Str)) (targetList : List Str) :
    DumpState targets targetList [] targetList.reverse where
  apart := by simp [akeys]
  right := fun _ _ h => by cases h
  waiting := fun t ht => .root t (List.mem_reverse.mp ht)
  start := fun t ht => Or.inr (List.mem_reverse.mpr ht)
  next := fun _ _ h => by cases h

/-- **C91** The graph that is dumped has each target that is needed by those of the list, directly
or not, exactly once and no other target; and for each of them its dependencies, all of them and in
their order.  Circles are no obstacle. -/
theorem C91_graph {targets : List (Str × List Str)} {targetList : List Str}
    {graph : List (Str × List Str)} (h : dumpDependencies targets targetList = some graph) :
    (graph.map (·.1)).Nodup ∧
    (∀ t, t ∈ graph.map (·.1) ↔ NeededTarget (aget targets) targetList t) ∧
    ∀ t ds, (t, ds) ∈ graph → aget targets t = some ds := by
  have hs := dumpVisit_state targets targetList [] targetList.reverse (dumpState_start targets targetList)
  unfold dumpDependencies at h
  rw [h] at hs
  simp only at hs
  refine ⟨hs.apart, fun t => ⟨fun ht => ?_, fun ht => ?_⟩, fun t ds hm => (hs.right t ds hm).1⟩
  · rw [List.mem_map] at ht
    obtain ⟨⟨a, b⟩, hm, rfl⟩ := ht
    exact (hs.right a b hm).2
  · induction ht with
    | root t ht =>
      rcases hs.start t ht with h1 | h1
      · exact h1
      · cases h1
    | dependency t d ds _ hd hm ih =>
      rw [List.mem_map] at ih
      obtain ⟨⟨a, b⟩, hab, rfl⟩ := ih
      have := (hs.right a b hab).1
      rw [hd] at this
      cases this
      rcases hs.next a ds hab d hm with h1 | h1
      · exact h1
      · cases h1

/-- **C91** There is a graph exactly when all needed targets are known. -/
theorem C91_made (targets : List (Str × List Str)) (targetList : List Str) :
    (dumpDependencies targets targetList).isSome ↔
      ∀ t, NeededTarget (aget targets) targetList t → t ∈ targets.map (·.1) := by
  constructor
  · intro h t ht
    obtain ⟨graph, hg⟩ := Option.isSome_iff_exists.mp h
    obtain ⟨_, h2, h3⟩ := C91_graph hg
    obtain ⟨⟨a, b⟩, hm, rfl⟩ := List.mem_map.mp ((h2 t).mpr ht)
    exact (aget_isSome targets a).mp (by rw [h3 a b hm]; rfl)
  · intro h
    have hs := dumpVisit_state targets targetList [] targetList.reverse (dumpState_start targets targetList)
    unfold dumpDependencies
    cases hv : dumpVisit targets [] targetList.reverse with
    | some out => rfl
    | none =>
      rw [hv] at hs
      obtain ⟨t, ht, hn⟩ := hs
      have := (aget_isSome targets t).mpr (h t ht)
      rw [hn] at this
      cases this

/-! ### Examples -/

/-- An addon of one C and one C++ source, with a definition that needs quotes. -/
def ccAddon : CcTarget where
  buildFile := c!"../addon/binding.gyp"
  configurations := [(c!"Release", {
    cflags := [c!"-O3"], cflagsC := [c!"-std=c99"], cflagsCc := [c!"-std=c++17"],
    defines := [c!"NAME=\"my addon\""], includeDirs := [c!"$(obj)/gen", c!"/usr/include/node", c!"include"] })]
  sources := [c!"a.c", c!"b.cc", c!"b.h"]

example : compileCommands [c!"home", c!"u"] none [] [ccAddon] =
    [(c!"out/Release/compile_commands.json",
      [{ command := c!"cc \"-DNAME=\\\"my addon\\\"\" -I/usr/include/node -I/home/addon/include -O3 \"-std=c99\" -c /home/addon/a.c"
         directory := c!"out", file := c!"/home/addon/a.c" },
       { command := c!"c++ \"-DNAME=\\\"my addon\\\"\" -I/usr/include/node -I/home/addon/include -O3 \"-std=c++17\" -c /home/addon/b.cc"
         directory := c!"out", file := c!"/home/addon/b.cc" }])] := by decide +kernel

/-- The hypotheses of `C90_entries`. -/
example : (∀ c ∈ [c!"home", c!"u"], validName c) ∧
    (∀ t ∈ [ccAddon], (t.configurations.map (·.1)).Nodup) ∧
    (wantedEntries c!"Release" [ccAddon]).map (·.2.2) = [c!"a.c", c!"b.cc"] := by
  refine ⟨by decide, by decide, by decide +kernel⟩

/-- A circle, and a target that is not needed. -/
example : dumpDependencies [(c!"a", [c!"b", c!"c"]), (c!"b", [c!"a"]), (c!"c", []), (c!"d", [c!"a"])] [c!"a"] =
    some [(c!"a", [c!"b", c!"c"]), (c!"c", []), (c!"b", [c!"a"])] := by
  simp [dumpDependencies, dumpVisit, akeys, aget]

example : dumpDependencies [(c!"a", [c!"b"])] [c!"a"] = none := by
  simp [dumpDependencies, dumpVisit, akeys, aget]

/-! ### What goes wrong -/

/-- The directory that commands are said to be run in is the output directory, as given, which is not
a whole path, and is not where the makefiles run them; words of flags that are relative paths are
therefore taken from somewhere else (compile_commands_json.py:88, 104). -/
theorem C90_directory :
    (compileCommands [c!"home", c!"u"] none c!"/home/u/addon/build" [ccAddon]).flatMap
      (fun f => f.2.map (·.directory)) = [c!"out", c!"out"] := by decide +kernel

/-- Sources in assembly or Objective-C, which are compiled too, have no entry, and neither has a C++
source with a name in capitals (compile_commands_json.py:64-65). -/
theorem C90_not_listed :
    (compileCommands [c!"u"] none [] [{ ccAddon with sources := [c!"a.s", c!"b.m", c!"c.mm", c!"d.C", c!"e.c++"] }]) =
      [(c!"out/Release/compile_commands.json", [])] := by decide +kernel

end Gyp
