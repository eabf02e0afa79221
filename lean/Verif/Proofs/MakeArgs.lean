import Verif.Proofs.MakeFlags
import Verif.Props.MakeCompile
import Verif.Props.MakeOrder
import Verif.Proofs.MakeInstall
/-
Helper lemmas for `Verif/Props/MakeFlags.lean`: the variables for single targets have their values.
-/
namespace Gyp
open Spec

variable {m : MkSelf} {t : MkOutputs} {v0 : MakeVars}

/-! ### Reading commands -/

/-- The words that a part of a command stands for. -/
def Reads (env : Str → Str) (s : Str) (ws : List Str) : Prop :=
  ∃ x, deep env s = some x ∧ shellWords x = some ws

theorem reads_join {env : Str → Str} {l : List Str} {wss : List (List Str)}
    (h : List.Forall₂ (Reads env) l wss) : Reads env (joinWith [' '] l) wss.flatten := by
  induction h with
  | nil => exact ⟨[], rfl, rfl⟩
  | @cons a ws l wss h1 h2 ih =>
    cases h2 with
    | nil => simpa [joinWith] using h1
    | @cons b ws' l' wss' h3 h4 =>
      obtain ⟨x, e1, e2⟩ := h1
      obtain ⟨y, f1, f2⟩ := ih
      refine ⟨x ++ ' ' :: y, ?_, words_append e2 f2⟩
      show deep env (a ++ [' '] ++ joinWith [' '] (b :: l')) = _
      exact deep_append (deep_append e1 (deep_plain env (s := [' ']) (by decide))) f1 |>.trans (by simp)

theorem reads_lit (env : Str → Str) {s : Str} (h : PlainWord s) : Reads env s [s] :=
  ⟨s, deep_plain env fun hd => by have := (h.2 _ hd).1; revert this; decide, words_plain h⟩

theorem reads_nil (env : Str → Str) : Reads env [] [] := ⟨[], rfl, words_nil⟩

theorem reads_ref {env : Str → Str} {n : Str} (hn : NameText n) {ws : List Str}
    (h : shellWords (env n) = some ws) : Reads env (c!"$(" ++ n ++ c!")") ws :=
  ⟨_, deep_ref env hn, h⟩

theorem reads_computed {env : Str → Str} {pre n : Str} (hp : NameText pre) (hn : NameText n) {ws : List Str}
    (h : shellWords (env (pre ++ env n)) = some ws) : Reads env (c!"$(" ++ pre ++ c!"$(" ++ n ++ c!"))") ws :=
  ⟨_, deep_computed env hp hn, h⟩

/-! ### The parts of the section of the sources -/

/-- The statements before the section of the sources. -/
def MkParts.start (p : MkParts m t) : List MkLine := headLines m.spec ++ p.actions ++ p.rules ++ p.copies

theorem seen_before (p : MkParts m t) (v0 : MakeVars) : p.seenBefore v0 = valuesAfter v0 p.start := rfl

theorem target_locals {deps linkDeps extra : List Str} {ls : List MkLine}
    (h : WriteTarget m deps linkDeps extra = some ls) :
    LocalsIn ls [c!"GYP_LDFLAGS", c!"LIBS", c!"LD_INPUTS"] := by
  obtain ⟨q⟩ := target_parts h
  rw [q.split]
  refine ((LocalsIn.append (LocalsIn.append ?_ ?_) ?_).append (alias_locals q.hshort _)).append
    (install_locals q.hinstall _)
  · rcases q.horder with ⟨-, e⟩ | ⟨-, e⟩ <;> rw [e] <;> exact .none (by simp)
  · unfold targetVars
    split
    · exact .none (by simp)
    · intro t n x hx
      simp only [List.mem_append, List.mem_map, reduceCtorEq, and_false, exists_false, false_or,
        List.mem_cons, List.not_mem_nil, or_false, MkLine.setFor.injEq] at hx
      rcases hx with ⟨-, rfl, -⟩ | ⟨-, rfl, -⟩ <;> simp
  · exact (final_locals q.hrule).mono (by simp)

theorem start_locals (p : MkParts m t) : LocalsIn p.start [c!"obj", c!"builddir"] := by
  unfold MkParts.start
  refine (((LocalsIn.none (by simp [headLines])).append ?_).append ?_).append ?_
  · rcases p.hactions with ⟨-, h⟩ | h
    · rw [h]; exact .none (by simp)
    · exact actions_locals h
  · rcases p.hrules with ⟨-, h⟩ | h
    · rw [h]; exact .none (by simp)
    · exact rules_locals h
  · rcases p.hcopies with ⟨-, h⟩ | h
    · rw [h]; exact .none (by simp)
    · exact copies_locals h _

theorem order_none {outs ins : List Str} {comment : Str} {ls : List MkLine}
    (h : orderRule outs ins comment = some ls) (l : List Str) : LocalsIn ls l ∧ ∀ n, ¬ Sets ls n := by
  rcases orderRule_some h with ⟨-, rfl⟩ | rfl
  · exact ⟨.none (by simp), nil_sets⟩
  · exact ⟨.none (by simp), fun _ => sets_rule⟩

theorem orderRule_values {outs ins : List Str} {comment : Str} {ls : List MkLine}
    (h : orderRule outs ins comment = some ls) (v : MakeVars) : valuesAfter v ls = v := by
  rcases orderRule_some h with ⟨-, rfl⟩ | rfl <;> rfl

theorem sources_locals (p : MkParts m t) : LocalsIn p.sources [c!"TOOLSET", c!"GYP_CFLAGS", c!"GYP_CXXFLAGS"] := by
  rcases p.hsources with ⟨-, h⟩ | h
  · rw [h]; exact .none (by simp)
  · obtain ⟨r1, r2, e1, e2, -, hls⟩ := WriteSources_some h
    rw [hls]
    refine (((((LocalsIn.none ?_).append (.none (by simp))).append (order_none e1 _).1).append
      (order_none e2 _).1).append ?_).append (.none (by simp))
    · intro t n x hx
      obtain ⟨c, -, hx⟩ := List.mem_flatMap.mp hx
      simp [configVars] at hx
    · intro t n x hx
      split at hx
      · cases hx
      · simp only [objectVars, List.mem_cons, List.not_mem_nil, or_false, reduceCtorEq, false_or,
          MkLine.setFor.injEq] at hx
        rcases hx with ⟨-, rfl, -⟩ | ⟨-, rfl, -⟩ | ⟨-, rfl, -⟩ <;> simp

/-- The value of `TOOLSET` for every target that has one. -/
theorem toolset_value (p : MkParts m t) (ok : TargetOk m t) {e : Str × Str × Str}
    (he : e ∈ localValues v0 p.lines) (hn : e.2.1 = c!"TOOLSET") : e.2.2 = m.spec.toolset := by
  have hl : p.lines = headLines m.spec ++ (p.actions ++ p.rules ++ p.copies ++ p.sources ++
      targetSuffixRules m (m.spec.sources ++ extraSources m.spec) ++ p.target) := by
    simp [MkParts.lines, headLines]
  rw [hl, localValues_append] at he
  rcases List.mem_append.mp he with he | he
  · cases he
  · rw [seen_head ok.toolset ok.name] at he
    have := localValues_toolset (v := seenVars m v0) ?_ ?_ he hn
    · rw [this]; rfl
    · obtain ⟨h1, h2, h3, h4, h5⟩ := parts_sets p (n := c!"TOOLSET") (by decide)
      intro hs
      rcases Sets.append.mp hs with hs | hs
      · rcases Sets.append.mp hs with hs | hs
        · rcases Sets.append.mp hs with hs | hs
          · rcases Sets.append.mp hs with hs | hs
            · rcases Sets.append.mp hs with hs | hs
              · exact h1 hs
              · exact h2 hs
            · exact h3 hs
          · exact h4 hs
        · exact targetSuffixRules_sets hs
      · exact h5 hs
    · intro t' x hx
      have hstart := start_locals p
      rcases List.mem_append.mp hx with hx | hx
      · rcases List.mem_append.mp hx with hx | hx
        · rcases List.mem_append.mp hx with hx | hx
          · exact absurd (hstart t' _ x (by
              unfold MkParts.start
              simp only [List.mem_append] at hx ⊢
              tauto)) (by decide)
          · rcases p.hsources with ⟨-, h⟩ | h
            · rw [h] at hx; cases hx
            · obtain ⟨r1, r2, e1, e2, -, hls⟩ := WriteSources_some h
              rw [hls] at hx
              simp only [List.mem_append] at hx
              rcases hx with ((((hx | hx) | hx) | hx) | hx) | hx
              · obtain ⟨c, -, hx⟩ := List.mem_flatMap.mp hx
                simp [configVars] at hx
              · simp at hx
              · exact absurd ((order_none e1 []).1 _ _ _ hx) (by simp)
              · exact absurd ((order_none e2 []).1 _ _ _ hx) (by simp)
              · split at hx
                · cases hx
                · simp [objectVars] at hx
                  exact hx.2
              · simp at hx
        · exact absurd (targetSuffix_locals _ [] _ _ _ hx) (by simp)
      · exact absurd (target_locals p.htarget _ _ _ hx) (by decide)

/-! ### The objects -/

theorem word_listItem {s : Str} (h : MkClean s) (hne : s ≠ []) : ListItem s := by
  have hb : ∀ c ∈ s, c ≠ '\\' ∧ isBlank c = false := by
    intro c hc
    have := h c hc
    simp only [specialChars, List.mem_cons, List.not_mem_nil, or_false, not_or] at this
    exact ⟨this.2.2.2.2.1, by simp [isBlank, this]⟩
  refine ⟨fun hc => h _ hc (by decide), fun hc => h _ hc (by decide), ?_, ?_⟩
  · cases s with
    | nil => exact absurd rfl hne
    | cons c s => exact ⟨c, rfl, (hb c (by simp)).2⟩
  · exact ⟨_, List.getLast?_eq_some_getLast hne, hb _ (List.getLast_mem hne)⟩

/-- The value of a list of names. -/
theorem names_value {v : MakeVars} {build : Str} (hv : Seen m v0 v) (hh : HeaderOk v0 build)
    (ok : TargetOk m t) {name : Str} (hn : VarText name) {xs : List Str}
    (hx : ∀ x ∈ xs, RefText localVars x ∧ MkClean x ∧ x ≠ []) :
    textValue v (lineText (.list name xs)) = joinWith [' '] (xs.map (expand (seenVars m v0))) :=
  textValue_list hn (fun s hs => word_listItem (hx s hs).2.1 (hx s hs).2.2) fun s hs =>
    hv.stands (standsFor_ref hh ok.toolset ok.name (hx s hs).1)

theorem names_seen {build : Str} (hh : HeaderOk v0 build) (ok : TargetOk m t) {xs : List Str}
    (hx : ∀ x ∈ xs, RefText localVars x ∧ MkClean x ∧ x ≠ []) :
    Spec.names (joinWith [' '] (xs.map (expand (seenVars m v0)))) = xs.map (expand (seenVars m v0)) := by
  refine names_cleanList fun s hs => ?_
  obtain ⟨x, h, rfl⟩ := List.mem_map.mp hs
  obtain ⟨h1, h2⟩ := expand_seen_clean hh ok.toolset ok.name (hx x h).1 (hx x h).2.1
  exact ⟨h1, h2 (hx x h).2.2⟩

theorem objects_text (ok : TargetOk m t) : ∀ x ∈ objectsOf m (m.spec.sources ++ extraSources m.spec),
    RefText localVars x ∧ MkClean x ∧ x ≠ [] := by
  intro x hx
  obtain ⟨s, hs, rfl⟩ := List.mem_map.mp hx
  exact objectOf_ref ok (source_file ok s (List.mem_filter.mp hs).1)

theorem objects_plain (ok : TargetOk m t) :
    (objectsOf m (m.spec.sources ++ extraSources m.spec)).map QuoteIfNecessary =
      objectsOf m (m.spec.sources ++ extraSources m.spec) := by
  rw [List.map_congr_left (g := id), List.map_id]
  exact fun x hx => noQuote (objects_text ok x hx).2.1

/-- The variables where those for the objects are set. -/
def MkParts.objVars (p : MkParts m t) (v0 : MakeVars) : MakeVars :=
  valuesAfter (p.seenBefore v0) (m.spec.configs.flatMap (configVars m) ++
    [.list c!"OBJS" (objectsOf m (m.spec.sources ++ extraSources m.spec))])

theorem obj_seen (p : MkParts m t) (ok : TargetOk m t) : Seen m v0 (p.objVars v0) := by
  unfold MkParts.objVars
  rw [valuesAfter_append]
  refine (config_seen (cs := m.spec.configs) (parts_seen p ok.toolset ok.name) fun l hl => hl).sets fun n hn => ?_
  rintro ⟨l, hl, he⟩
  simp only [List.mem_singleton] at hl
  subst hl
  simp only [setsVar, Option.some.injEq] at he
  subst he
  revert hn; decide

theorem objs_list {build : Str} (p : MkParts m t) (ok : TargetOk m t) (hh : HeaderOk v0 build) :
    valueOf (p.objVars v0) c!"OBJS" = joinWith [' '] ((objectsOf m (m.spec.sources ++
      extraSources m.spec)).map (expand (seenVars m v0))) := by
  unfold MkParts.objVars
  have := list_value (v := p.seenBefore v0) (pre := m.spec.configs.flatMap (configVars m)) (post := [])
    (n := c!"OBJS") (xs := objectsOf m (m.spec.sources ++ extraSources m.spec)) (nil_sets _)
  rw [this]
  exact names_value (config_seen (cs := m.spec.configs) (parts_seen p ok.toolset ok.name) fun l hl => hl) hh ok
    (by unfold VarText; decide) (objects_text ok)

theorem config_kept (p : MkParts m t) {n : Str} (hn : n ≠ c!"OBJS") :
    valueOf (p.objVars v0) n =
      valueOf (valuesAfter (p.seenBefore v0) (m.spec.configs.flatMap (configVars m))) n := by
  unfold MkParts.objVars valueOf
  rw [valuesAfter_append, aget_valuesAfter]
  rintro ⟨l, hl, he⟩
  simp only [List.mem_singleton] at hl
  subst hl
  simp only [setsVar, Option.some.injEq] at he
  exact hn he.symm

/-- The flags for a compiler. -/
def flagsText (lang : Str) : Str :=
  c!"$(DEFS_$(BUILDTYPE)) $(INCS_$(BUILDTYPE))  $(CFLAGS_$(BUILDTYPE)) $(CFLAGS_" ++ lang ++ c!"$(BUILDTYPE))"

theorem flags_words (p : MkParts m t) (ok : TargetOk m t) {c : MkConfig} (hh : HeaderOk v0 c.name)
    (hc : c ∈ m.spec.configs) (hcs : ConfigsOk m.spec.configs) (co : CompileOk m v0 c)
    {lang : Str} {more : List Str} (hl : (lang, more) ∈ [(c!"C_", c.cflagsC), (c!"CC_", c.cflagsCC)])
    {ws : List (List Str)} (hw : List.Forall₂ (FlagWords (seenVars m v0)) (c.cflags ++ more) ws) :
    shellWords (real (p.objVars v0) (flagsText lang)) = some (commonArgs m v0 c ++ ws.flatten) := by
  obtain ⟨h1, h2, h3⟩ := config_values (parts_seen p ok.toolset ok.name) ok hh hc hcs co
  obtain ⟨w1, w2, rfl, f1, f2⟩ : ∃ w1 w2, ws = w1 ++ w2 ∧
      List.Forall₂ (FlagWords (seenVars m v0)) c.cflags w1 ∧
      List.Forall₂ (FlagWords (seenVars m v0)) more w2 := by
    have e := hw.length_eq
    rw [List.length_append] at e
    refine ⟨ws.take c.cflags.length, ws.drop c.cflags.length, (List.take_append_drop ..).symm, ?_, ?_⟩
    · have := List.forall₂_take c.cflags.length hw
      rwa [List.take_left] at this
    · have := List.forall₂_drop c.cflags.length hw
      rwa [List.drop_left] at this
  have hb : valueOf (p.objVars v0) c!"BUILDTYPE" = c.name := by
    unfold valueOf
    rw [obj_seen p ok _ (by simp)]
    unfold seenVars
    rw [aget_append]
    show (aget v0 c!"BUILDTYPE").getD [] = _
    rw [hh.build]; rfl
  have hB : NameText c!"BUILDTYPE" := by unfold NameText; decide
  have hne : ∀ pre ∈ [c!"DEFS_", c!"INCS_", c!"CFLAGS_", c!"CFLAGS_C_", c!"CFLAGS_CC_"],
      pre ++ c.name ≠ c!"OBJS" ∧ NameText pre := by
    intro pre hp
    simp only [List.mem_cons, List.not_mem_nil, or_false] at hp
    rcases hp with rfl | rfl | rfl | rfl | rfl <;> exact ⟨by simp, by unfold NameText; decide⟩
  have one : ∀ pre ∈ [c!"DEFS_", c!"INCS_", c!"CFLAGS_", c!"CFLAGS_C_", c!"CFLAGS_CC_"], ∀ ws,
      shellWords (valueOf (valuesAfter (p.seenBefore v0) (m.spec.configs.flatMap (configVars m)))
        (pre ++ c.name)) = some ws →
      Reads (valueOf (p.objVars v0)) (c!"$(" ++ pre ++ c!"$(BUILDTYPE))") ws := by
    intro pre hp ws hw
    have := reads_computed (env := valueOf (p.objVars v0)) (hne pre hp).2 hB (ws := ws) (by
      rw [hb, config_kept p (hne pre hp).1]; exact hw)
    simpa using this
  have last : Reads (valueOf (p.objVars v0)) (c!"$(CFLAGS_" ++ lang ++ c!"$(BUILDTYPE))") w2.flatten := by
    simp only [List.mem_cons, Prod.mk.injEq, List.not_mem_nil, or_false] at hl
    rcases hl with ⟨rfl, rfl⟩ | ⟨rfl, rfl⟩
    · exact one c!"CFLAGS_C_" (by simp) _ (h3 (c!"CFLAGS_C_", _) (by simp) _ f2)
    · exact one c!"CFLAGS_CC_" (by simp) _ (h3 (c!"CFLAGS_CC_", _) (by simp) _ f2)
  obtain ⟨x, hx, hx'⟩ := reads_join (.cons (one c!"DEFS_" (by simp) _ h1) (.cons (one c!"INCS_" (by simp) _ h2)
    (.cons (reads_nil _) (.cons (one c!"CFLAGS_" (by simp) _ (h3 (c!"CFLAGS_", _) (by simp) _ f1))
      (.cons last .nil)))))
  have ht : flagsText lang = joinWith [' '] [c!"$(" ++ c!"DEFS_" ++ c!"$(BUILDTYPE))",
      c!"$(" ++ c!"INCS_" ++ c!"$(BUILDTYPE))", [], c!"$(" ++ c!"CFLAGS_" ++ c!"$(BUILDTYPE))",
      c!"$(CFLAGS_" ++ lang ++ c!"$(BUILDTYPE))"] := by
    simp [flagsText, joinWith]
  unfold real
  rw [ht, hx, Option.getD_some, hx']
  simp [commonArgs]

/-- The variables for an object. -/
theorem object_locals (p : MkParts m t) (ok : TargetOk m t) {c : MkConfig} (hh : HeaderOk v0 c.name)
    (hc : c ∈ m.spec.configs) (hcs : ConfigsOk m.spec.configs) (co : CompileOk m v0 c) {s : Str}
    (hs : s ∈ (m.spec.sources ++ extraSources m.spec).filter (Compilable m.flavor)) :
    localValue (localValues v0 p.lines) (expand v0 (objectFile m s)) c!"TOOLSET" = some m.spec.toolset ∧
    ∀ lang more name, (lang, more, name) ∈ [(c!"C_", c.cflagsC, c!"GYP_CFLAGS"), (c!"CC_", c.cflagsCC, c!"GYP_CXXFLAGS")] →
    ∃ x, localValue (localValues v0 p.lines) (expand v0 (objectFile m s)) name = some x ∧
      ∀ ws, List.Forall₂ (FlagWords (seenVars m v0)) (c.cflags ++ more) ws →
        shellWords x = some (commonArgs m v0 c ++ ws.flatten) := by
  have hne : m.spec.sources ++ extraSources m.spec ≠ [] := by
    intro e; rw [e] at hs; cases hs
  rcases p.hsources with ⟨h, -⟩ | h
  · exact absurd h hne
  obtain ⟨r1, r2, e1, e2, -, hls⟩ := WriteSources_some h
  have hobj : objectsOf m (m.spec.sources ++ extraSources m.spec) ≠ [] :=
    List.ne_nil_of_mem (List.mem_map_of_mem hs)
  rw [if_neg hobj, objects_plain ok] at hls
  -- the variables where those for the objects are set
  have hvals : ∀ more : List MkLine, (∀ v, valuesAfter v more = v) →
      valuesAfter v0 (p.start ++ m.spec.configs.flatMap (configVars m) ++
        [.list c!"OBJS" (objectsOf m (m.spec.sources ++ extraSources m.spec)),
         .text c!"# Add to the list of files we specially track dependencies for.",
         .add c!"all_deps" [c!"$(OBJS)"], .text []] ++ r1 ++ r2 ++ more) = p.objVars v0 := by
    intro more hm
    rw [valuesAfter_append, hm, valuesAfter_append, orderRule_values e2, valuesAfter_append,
      orderRule_values e1, List.append_assoc, valuesAfter_append]
    unfold MkParts.objVars
    rw [valuesAfter_append, valuesAfter_append]
    rfl
  have hin : expand v0 (objectFile m s) ∈ Spec.names (real (p.objVars v0) c!"$(OBJS)") := by
    unfold real
    rw [show c!"$(OBJS)" = c!"$(" ++ c!"OBJS" ++ c!")" from rfl, deep_ref _ (by unfold NameText; decide),
      Option.getD_some, objs_list p ok hh, names_seen hh ok (objects_text ok)]
    refine List.mem_map.mpr ⟨objectOf m s, List.mem_map_of_mem hs, ?_⟩
    exact expand_two ok.toolset ok.name (objects_text ok _ (List.mem_map_of_mem hs)).1
  have hlines : ∀ a b : List MkLine, objectVars = a ++ b → p.lines =
      p.start ++ m.spec.configs.flatMap (configVars m) ++
        [.list c!"OBJS" (objectsOf m (m.spec.sources ++ extraSources m.spec)),
         .text c!"# Add to the list of files we specially track dependencies for.",
         .add c!"all_deps" [c!"$(OBJS)"], .text []] ++ r1 ++ r2 ++ a ++
        (b ++ ([.text []] ++ targetSuffixRules m (m.spec.sources ++ extraSources m.spec) ++ p.target)) := by
    intro a b hab
    unfold MkParts.lines MkParts.start headLines
    rw [hls, hab]
    simp only [List.append_assoc]
  have hpost : ∀ n, n ∉ [c!"GYP_LDFLAGS", c!"LIBS", c!"LD_INPUTS"] →
      NoLocal ([.text []] ++ targetSuffixRules m (m.spec.sources ++ extraSources m.spec) ++ p.target) n := by
    intro n hn
    exact ((LocalsIn.none (by simp)).append (targetSuffix_locals _ _)).append
      (target_locals p.htarget) |>.no hn
  constructor
  · refine localValue_all ?_ fun e he hn => toolset_value p ok he hn
    rw [hlines (objectVars.take 1) (objectVars.drop 1) rfl, localValues_append,
      hvals _ fun v => rfl]
    refine List.mem_append_right _ ?_
    show _ ∈ localValues _ (.setFor c!"$(OBJS)" c!"TOOLSET" c!"$(TOOLSET)" :: _)
    rw [localValues]
    refine List.mem_append_left _ (List.mem_map.mpr ⟨_, hin, ?_⟩)
    have : real (p.objVars v0) c!"$(TOOLSET)" = m.spec.toolset := by
      unfold real
      rw [show c!"$(TOOLSET)" = c!"$(" ++ c!"TOOLSET" ++ c!")" from rfl,
        deep_ref _ (by unfold NameText; decide), Option.getD_some]
      unfold valueOf
      rw [obj_seen p ok _ (by decide)]
      rfl
    rw [this]
  · intro lang more name hl
    refine ⟨real (p.objVars v0) (flagsText lang), ?_, fun ws hw => flags_words p ok hh hc hcs co ?_ hw⟩
    · simp only [List.mem_cons, Prod.mk.injEq, List.not_mem_nil, or_false] at hl
      rcases hl with ⟨rfl, rfl, rfl⟩ | ⟨rfl, rfl, rfl⟩
      · rw [hlines (objectVars.take 2) (objectVars.drop 2) rfl]
        have hv := hvals (objectVars.take 2) fun v => rfl
        have := localValue_last (v0 := v0) (t := c!"$(OBJS)") (n := c!"GYP_CFLAGS") (x := flagsText c!"C_")
          (y := expand v0 (objectFile m s)) (by rw [hv]; exact hin)
          (post := objectVars.drop 3 ++ ([.text []] ++ targetSuffixRules m (m.spec.sources ++ extraSources m.spec) ++
            p.target)) (NoLocal.append (by intro t x hx; simp [objectVars] at hx) (hpost _ (by decide)))
          (by decide)
        rw [hv] at this
        exact this
      · rw [hlines (objectVars.take 3) (objectVars.drop 3) rfl]
        have hv := hvals (objectVars.take 3) fun v => rfl
        have := localValue_last (v0 := v0) (t := c!"$(OBJS)") (n := c!"GYP_CXXFLAGS") (x := flagsText c!"CC_")
          (y := expand v0 (objectFile m s)) (by rw [hv]; exact hin)
          (post := ([.text []] ++ targetSuffixRules m (m.spec.sources ++ extraSources m.spec) ++
            p.target)) (hpost _ (by decide)) (by decide)
        rw [hv] at this
        exact this
    · simp only [List.mem_cons, Prod.mk.injEq, List.not_mem_nil, or_false] at hl ⊢
      rcases hl with ⟨rfl, rfl, rfl⟩ | ⟨rfl, rfl, rfl⟩
      · exact Or.inl ⟨rfl, rfl⟩
      · exact Or.inr ⟨rfl, rfl⟩

/-! ### The product -/

/-- The statements before the section of the product. -/
def MkParts.front (p : MkParts m t) : List MkLine :=
  p.start ++ p.sources ++ targetSuffixRules m (m.spec.sources ++ extraSources m.spec)

theorem lines_front (p : MkParts m t) : p.lines = p.front ++ p.target := by
  simp [MkParts.lines, MkParts.front, MkParts.start, headLines]

theorem front_seen (p : MkParts m t) (ok : TargetOk m t) : Seen m v0 (valuesAfter v0 p.front) := by
  unfold MkParts.front
  rw [valuesAfter_append, valuesAfter_append]
  exact ((parts_seen p ok.toolset ok.name).sets fun n hn => (parts_sets p hn).2.2.2.1).sets
    fun n _ => targetSuffixRules_sets

theorem front_part (p : MkParts m t) (ok : TargetOk m t) {a b : List MkLine} (h : p.target = a ++ b) :
    Seen m v0 (valuesAfter v0 (p.front ++ a)) := by
  rw [valuesAfter_append]
  refine (front_seen p ok).sets fun n hn hs => (parts_sets p hn).2.2.2.2 ?_
  rw [h]
  exact Sets.append.mpr (Or.inl hs)

/-- All names of variables for single targets. -/
def localNames : List Str := [c!"obj", c!"builddir", c!"TOOLSET", c!"GYP_CFLAGS", c!"GYP_CXXFLAGS",
  c!"GYP_LDFLAGS", c!"LIBS", c!"LD_INPUTS"]

theorem lines_locals (p : MkParts m t) : LocalsIn p.lines localNames := by
  rw [lines_front]
  unfold MkParts.front
  refine ((LocalsIn.append ?_ ?_).append (targetSuffix_locals _ _)).append ?_
  · exact (start_locals p).mono (by decide)
  · exact (sources_locals p).mono (by decide)
  · exact (target_locals p.htarget).mono (by decide)

theorem global_value (p : MkParts m t) {v1 : MakeVars} {y : Str} {pre : List Str} {n : Str}
    (hn : n ∉ localNames) (h1 : n ∉ [c!"@", c!"@F", c!"<", c!"^"])
    (h2 : functionValue v1 n = none) :
    recipeEnv v1 (localValues v0 p.lines) y pre n = valueOf v1 n := by
  simp only [List.mem_cons, List.not_mem_nil, or_false, not_or] at h1
  unfold recipeEnv
  rw [if_neg h1.1, if_neg h1.2.1, if_neg h1.2.2.1, if_neg h1.2.2.2, h2,
    localValue_none ((lines_locals p).no hn) (fun e => hn (by rw [e]; decide))]
  rfl

theorem local_value {v1 : MakeVars} {ls : List (Str × Str × Str)} {y : Str} {pre : List Str} {n x : Str}
    (hn : n ∈ localNames) (h : localValue ls y n = some x) : recipeEnv v1 ls y pre n = x := by
  have key : ∀ n ∈ localNames, n ≠ c!"@" ∧ n ≠ c!"@F" ∧ n ≠ c!"<" ∧ n ≠ c!"^" ∧
      startsWith n c!"filter-out FORCE_DO_CMD, " = false ∧ startsWith n c!"notdir " = false ∧
      startsWith n c!"suffix " = false ∧ startsWith n c!"abspath " = false := by decide
  obtain ⟨h1, h2, h3, h4, h5, h6, h7, h8⟩ := key n hn
  have h9 : functionValue v1 n = none := by simp [functionValue, h5, h6, h7, h8]
  unfold recipeEnv
  rw [if_neg h1, if_neg h2, if_neg h3, if_neg h4, h9, h]
  rfl

theorem product_name (ok : TargetOk m t) (ho : m.output = ComputeOutput m) {v : MakeVars} {build : Str}
    (hh : HeaderOk v0 build) (hv : Seen m v0 v) :
    Spec.names (real v m.output) = [expand v0 (productFile m)] ∧ MkClean m.output := by
  obtain ⟨h1, h2, h3, h4⟩ := output_ok ok
  have e : real v (ComputeOutput m) = expand (seenVars m v0) (ComputeOutput m) := by
    unfold real
    rw [hv.stands (standsFor_ref hh ok.toolset ok.name h1)]
    rfl
  have hc := expand_seen_clean hh ok.toolset ok.name h1 h2
  rw [ho, e]
  refine ⟨?_, h2⟩
  rw [names_clean hc.1 (hc.2 h3), expand_two ok.toolset ok.name h1, h4]

/-- The variable `TOOLSET` of a rule with a recipe. -/
theorem rule_toolset {a : RuleArgs} (hok : a.Ok) (hord : a.orderOnly = false) {o y line : Str}
    (ho : a.outputs = [o]) (ha : a.actions = some [line]) {v : MakeVars} (hc : ' ' ∉ o)
    (hy : y ∈ Spec.names (real v o)) :
    (y, c!"TOOLSET", valueOf v c!"TOOLSET") ∈ (itemsOf (.rule a)).flatMap (ruleLocals v) := by
  rw [itemsOf_read (C63_one_output a hok o ho hord)]
  refine List.mem_flatMap.mpr ⟨.setVar [o] c!" TOOLSET := $(TOOLSET)", ?_, ?_⟩
  · refine List.mem_append_left _ (List.mem_append_right _ ?_)
    simp [ha, hasActions, ho]
  · rw [ruleLocals, if_pos rfl]
    refine List.mem_map.mpr ⟨y, ?_, rfl⟩
    rw [List.flatMap_cons, List.flatMap_nil, List.append_nil, replaceChar_absent hc]
    exact hy

theorem product_toolset (p : MkParts m t) (ok : TargetOk m t) (ho : m.output = ComputeOutput m) {build : Str}
    (hh : HeaderOk v0 build) (ht : m.spec.type ∈ linkedTypes) :
    localValue (localValues v0 p.lines) (expand v0 (productFile m)) c!"TOOLSET" = some m.spec.toolset := by
  obtain ⟨q⟩ := target_parts p.htarget
  obtain ⟨line, hline, a, ha, a1, a2, a3, a4, a5⟩ := finalRule_at q.hrule ht
  have hok : a.Ok := by
    refine ⟨?_, ?_, by rw [a1]; simp, ?_, by rw [a5]; simp⟩
    · rw [a1]
      intro s hs
      rw [List.mem_singleton] at hs
      subst hs
      rw [ho]
      obtain ⟨-, h2, h3, -⟩ := output_ok ok
      exact h2.ruleName h3
    · rw [a2]; exact linkInputs_name p ok
    · rw [a3]
      intro x hx
      rw [Option.getD_some, List.mem_singleton] at hx
      subst hx
      exact linkedBy_line hline
  have hm : .rule a ∈ p.target := by rw [q.split]; simp [ha]
  obtain ⟨b, c, hbc⟩ := List.append_of_mem hm
  have hs := front_part (v0 := v0) p ok hbc
  refine localValue_all ?_ fun e he hn => toolset_value p ok he hn
  rw [lines_front, hbc, ← List.append_assoc, localValues_append]
  refine List.mem_append_right _ ?_
  rw [localValues]
  refine List.mem_append_left _ ?_
  obtain ⟨n1, n2⟩ := product_name ok ho hh hs
  have := rule_toolset hok a4 a1 a3 (v := valuesAfter v0 (p.front ++ b)) n2.blank
    (y := expand v0 (productFile m)) (by rw [n1]; simp)
  have e : valueOf (valuesAfter v0 (p.front ++ b)) c!"TOOLSET" = m.spec.toolset := by
    unfold valueOf
    rw [hs _ (by decide)]
    rfl
  rw [e] at this
  exact this

/-- The statements up to the variables for the product. -/
def MkParts.flagLines (p : MkParts m t) (order : List MkLine) : List MkLine :=
  (.text c!"### Rules for final target." :: order) ++
    m.spec.configs.map (fun c => .list (c!"LDFLAGS_" ++ c.name) ((ldflagsOf p.deps c).map QuoteIfNecessary)) ++
    [.list c!"LIBS" ((uniquer id m.spec.libraries).map QuoteIfNecessary)]

theorem once_eq (l : List Str) : once l = uniquer id l := by
  rw [uniquer_eq]
  induction l with
  | nil => rfl
  | cons x l ih => rw [once, firsts, ih]; simp

theorem shared_iff (p : MkParts m t) : hasShared p.deps = true ↔ SharedDep t m.spec := by
  unfold hasShared SharedDep
  rw [List.any_eq_true]
  constructor
  · rintro ⟨d, hd, h⟩
    refine ⟨d, (mem_deps p.hdeps).1.mp hd, ?_⟩
    rw [Bool.or_eq_true] at h
    refine h.imp (fun h => List.isSuffixOf_iff_suffix.mp h) fun h => ?_
    obtain ⟨a, b, e⟩ := (hasSub_iff _ _).mp h
    exact ⟨a, b, e.symm⟩
  · rintro ⟨d, hd, h⟩
    refine ⟨d, (mem_deps p.hdeps).1.mpr hd, ?_⟩
    rw [Bool.or_eq_true]
    refine h.imp (fun h => List.isSuffixOf_iff_suffix.mpr h) fun h => ?_
    obtain ⟨a, b, e⟩ := h
    exact (hasSub_iff _ _).mpr ⟨a, b, e.symm⟩

theorem rpath_flags {b : Str} (hb : aget v0 c!"builddir" = some b) (hp : PlainWord b) :
    List.Forall₂ (FlagWords (seenVars m v0)) [c!"-Wl,-rpath=\\$$ORIGIN/", c!"-Wl,-rpath-link=\\$(builddir)/"]
      [[c!"-Wl,-rpath=$ORIGIN/"], [c!"-Wl,-rpath-link=" ++ b ++ c!"/"]] := by
  have hv : valueOf (seenVars m v0) c!"builddir" = b := by
    unfold valueOf seenVars
    rw [aget_append]
    show (aget v0 c!"builddir").getD [] = b
    rw [hb]; rfl
  refine .cons ?_ (.cons ?_ .nil)
  · refine .plain (x := c!"-Wl,-rpath=\\$ORIGIN/") (by decide) ⟨by decide, by decide, ⟨'-', rfl, rfl⟩, '/', rfl, by decide, rfl⟩ ?_
      (by decide)
    intro env _
    rfl
  · refine .plain (x := c!"-Wl,-rpath-link=\\" ++ b ++ c!"/") (by decide)
      ⟨by decide, by decide, ⟨'-', rfl, rfl⟩, '/', rfl, by decide, rfl⟩ ?_ ?_
    · intro env henv
      rw [← hv, ← henv _ (by decide)]
      have := deep_append (env := env) (deep_append (deep_plain env (s := c!"-Wl,-rpath-link=\\") (by decide))
        (deep_ref env (n := c!"builddir") (by unfold NameText; decide))) (deep_plain env (s := c!"/") (by decide))
      exact this
    · obtain ⟨hne, hw⟩ := hp
      cases b with
      | nil => exact absurd rfl hne
      | cons x b =>
        have hx := hw x (by simp)
        refine shellWords_iff.mpr ⟨some (c!"-Wl,-rpath-link=" ++ (x :: b) ++ c!"/"), [], ?_, rfl⟩
        rw [List.append_assoc, lexRun_append]
        have h1 : lexRun false ⟨.plain, none, []⟩ c!"-Wl,-rpath-link=\\" =
            some ⟨.plainEsc, some c!"-Wl,-rpath-link=", []⟩ := by decide
        rw [h1, Option.bind_some]
        have h2 : lexStep false ⟨.plainEsc, some c!"-Wl,-rpath-link=", []⟩ x =
            some ⟨.plain, some (c!"-Wl,-rpath-link=" ++ [x]), []⟩ := by
          have hnl : x ≠ '\n' := by
            rintro rfl
            have := hx.1
            revert this; decide
          simp [lexStep, hnl, Lex.push]
        rw [List.cons_append, lexRun, h2, Option.bind_some, lex_plain_word false (by
          intro c hc
          rcases List.mem_append.mp hc with hc | hc
          · exact hw c (by simp [hc])
          · rw [List.mem_singleton] at hc; subst hc; decide)]
        simp

/-- The flags of the linker and the libraries. -/
theorem product_flags (p : MkParts m t) (ok : TargetOk m t) (ho : m.output = ComputeOutput m) {c : MkConfig}
    (hh : HeaderOk v0 c.name) (hc : c ∈ m.spec.configs) (hcs : ConfigsOk m.spec.configs)
    (ht : m.spec.type ≠ c!"none") :
    (∃ x, localValue (localValues v0 p.lines) (expand v0 (productFile m)) c!"GYP_LDFLAGS" = some x ∧
      ∀ ws, List.Forall₂ (FlagWords (seenVars m v0)) (ldflagsOf p.deps c) ws → shellWords x = some ws.flatten) ∧
    ∃ x, localValue (localValues v0 p.lines) (expand v0 (productFile m)) c!"LIBS" = some x ∧
      ∀ ws, List.Forall₂ (FlagWords (seenVars m v0)) (once m.spec.libraries) ws →
        shellWords x = some ws.flatten := by
  obtain ⟨⟨qo, qr, qs, qi, -, hqr, hqs, hqi, qsplit⟩⟩ := target_parts p.htarget
  obtain ⟨-, -, -, n4⟩ := output_ok ok
  have hclean : MkClean m.output := by rw [ho]; exact (output_ok ok).2.1
  have hsplit : p.target = p.flagLines qo ++ (.setFor m.output c!"GYP_LDFLAGS" c!"$(LDFLAGS_$(BUILDTYPE))" ::
      .setFor m.output c!"LIBS" c!"$(LIBS)" :: (qr ++ qs ++ qi)) := by
    rw [qsplit]
    unfold targetVars MkParts.flagLines
    rw [if_neg ht, show QuoteSpaces m.output = m.output from hclean.quote _]
    simp only [List.append_assoc]
    rfl
  have hseen := front_part (v0 := v0) p ok hsplit
  have hname := (product_name ok ho hh hseen).1
  have hpost : ∀ n, n ∉ [c!"LD_INPUTS"] → NoLocal (qr ++ qs ++ qi) n := fun n hn =>
    (((final_locals hqr).append (alias_locals hqs _)).append (install_locals hqi _)).no hn
  have hb : valueOf (valuesAfter v0 (p.front ++ p.flagLines qo)) c!"BUILDTYPE" = c.name := by
    unfold valueOf
    rw [hseen _ (by simp)]
    unfold seenVars
    rw [aget_append]
    show (aget v0 c!"BUILDTYPE").getD [] = _
    rw [hh.build]; rfl
  constructor
  · refine ⟨real (valuesAfter v0 (p.front ++ p.flagLines qo)) c!"$(LDFLAGS_$(BUILDTYPE))", ?_, ?_⟩
    · rw [lines_front, hsplit, ← List.append_assoc]
      refine localValue_last (by rw [hname]; simp) ?_ (by decide)
      exact NoLocal.append (a := [_]) (by intro t x hx; simp at hx) (hpost _ (by decide))
    · intro ws hw
      obtain ⟨x, h1, h2⟩ := reads_computed (env := valueOf (valuesAfter v0 (p.front ++ p.flagLines qo)))
        (pre := c!"LDFLAGS_") (n := c!"BUILDTYPE") (by unfold NameText; decide) (by unfold NameText; decide)
        (ws := ws.flatten) (by
          rw [hb]
          obtain ⟨A, B, hAB, hn⟩ := config_split hcs hc
          have e : p.front ++ p.flagLines qo = (p.front ++ (.text c!"### Rules for final target." :: qo) ++
              A.map (fun c => .list (c!"LDFLAGS_" ++ c.name) ((ldflagsOf p.deps c).map QuoteIfNecessary))) ++
              .list (c!"LDFLAGS_" ++ c.name) ((ldflagsOf p.deps c).map QuoteIfNecessary) ::
              (B.map (fun c => .list (c!"LDFLAGS_" ++ c.name) ((ldflagsOf p.deps c).map QuoteIfNecessary)) ++
                [.list c!"LIBS" ((uniquer id m.spec.libraries).map QuoteIfNecessary)]) := by
            unfold MkParts.flagLines
            rw [hAB]
            simp
          have hpre : ∃ b, p.target = ((.text c!"### Rules for final target." :: qo) ++
              A.map (fun c => .list (c!"LDFLAGS_" ++ c.name) ((ldflagsOf p.deps c).map QuoteIfNecessary))) ++ b := by
            refine ⟨(c :: B).map (fun c => .list (c!"LDFLAGS_" ++ c.name) ((ldflagsOf p.deps c).map QuoteIfNecessary)) ++
              ([.list c!"LIBS" ((uniquer id m.spec.libraries).map QuoteIfNecessary)] ++
              (.setFor m.output c!"GYP_LDFLAGS" c!"$(LDFLAGS_$(BUILDTYPE))" ::
              .setFor m.output c!"LIBS" c!"$(LIBS)" :: (qr ++ qs ++ qi))), hsplit.trans ?_⟩
            unfold MkParts.flagLines
            rw [hAB, List.map_append]
            simp only [List.append_assoc]
          obtain ⟨b, hpre⟩ := hpre
          have hs := front_part (v0 := v0) p ok hpre
          rw [← List.append_assoc] at hs
          rw [e, list_value]
          · refine flags_value hs ?_ hw
            intro x hx
            have h := config_varText hcs hc (pre := c!"LDFLAGS_") (by decide) x hx
            exact ⟨h.1, h.2.1, h.2.2.1, h.2.2.2.1⟩
          · rintro ⟨l, hl, he⟩
            rcases List.mem_append.mp hl with hl | hl
            · obtain ⟨c', hc', rfl⟩ := List.mem_map.mp hl
              simp only [setsVar, Option.some.injEq] at he
              exact hn (c!"LDFLAGS_" ++ c.name) (by simp [configNames]) ⟨c', hc', by rw [← he]; simp [configNames]⟩
            · rw [List.mem_singleton] at hl
              subst hl
              simp [setsVar] at he)
      unfold real
      rw [show c!"$(LDFLAGS_$(BUILDTYPE))" = c!"$(" ++ c!"LDFLAGS_" ++ c!"$(" ++ c!"BUILDTYPE" ++ c!"))" from rfl,
        h1, Option.getD_some, h2]
  · refine ⟨real (valuesAfter v0 (p.front ++ p.flagLines qo)) c!"$(LIBS)", ?_, ?_⟩
    · have hsplit' : p.front ++ p.target = (p.front ++ p.flagLines qo ++
          [.setFor m.output c!"GYP_LDFLAGS" c!"$(LDFLAGS_$(BUILDTYPE))"]) ++
          (.setFor m.output c!"LIBS" c!"$(LIBS)" :: (qr ++ qs ++ qi)) := by
        rw [hsplit]; simp only [List.append_assoc, List.singleton_append]
      have hv : valuesAfter v0 (p.front ++ p.flagLines qo ++
          [.setFor m.output c!"GYP_LDFLAGS" c!"$(LDFLAGS_$(BUILDTYPE))"]) =
          valuesAfter v0 (p.front ++ p.flagLines qo) := by
        rw [valuesAfter_append]; rfl
      have := localValue_last (v0 := v0) (pre := p.front ++ p.flagLines qo ++
          [.setFor m.output c!"GYP_LDFLAGS" c!"$(LDFLAGS_$(BUILDTYPE))"]) (t := m.output) (n := c!"LIBS") (x := c!"$(LIBS)")
          (y := expand v0 (productFile m)) (by rw [hv, hname]; simp) (hpost _ (by decide)) (by decide)
      rw [hv] at this
      rw [lines_front, hsplit']
      exact this
    · intro ws hw
      unfold real
      rw [show c!"$(LIBS)" = c!"$(" ++ c!"LIBS" ++ c!")" from rfl, deep_ref _ (by unfold NameText; decide),
        Option.getD_some]
      have hpre : ∃ b, p.target = ((.text c!"### Rules for final target." :: qo) ++
          m.spec.configs.map (fun c => .list (c!"LDFLAGS_" ++ c.name) ((ldflagsOf p.deps c).map QuoteIfNecessary))) ++ b := by
        refine ⟨[.list c!"LIBS" ((uniquer id m.spec.libraries).map QuoteIfNecessary)] ++
          (.setFor m.output c!"GYP_LDFLAGS" c!"$(LDFLAGS_$(BUILDTYPE))" ::
          .setFor m.output c!"LIBS" c!"$(LIBS)" :: (qr ++ qs ++ qi)), hsplit.trans ?_⟩
        unfold MkParts.flagLines
        rw [List.append_assoc]
      obtain ⟨b, hpre⟩ := hpre
      have hs := front_part (v0 := v0) p ok hpre
      have e : p.front ++ p.flagLines qo = (p.front ++ ((.text c!"### Rules for final target." :: qo) ++
          m.spec.configs.map (fun c => .list (c!"LDFLAGS_" ++ c.name) ((ldflagsOf p.deps c).map QuoteIfNecessary)))) ++
          .list c!"LIBS" ((uniquer id m.spec.libraries).map QuoteIfNecessary) :: [] := by
        unfold MkParts.flagLines
        simp
      rw [e, list_value (nil_sets _)]
      rw [once_eq] at hw
      exact flags_value hs (by unfold VarText; decide) hw

/-- What is linked. -/
theorem product_inputs (p : MkParts m t) (ok : TargetOk m t) (ho : m.output = ComputeOutput m) {build : Str}
    (hh : HeaderOk v0 build) (ht : m.spec.type = c!"executable" ∨ m.spec.type = c!"shared_library")
    (hplain : ∀ f ∈ ((m.spec.sources ++ extraSources m.spec).filter (Compilable m.flavor)).map
        (fun s => expand v0 (objectFile m s)) ++
      (objectSources m.spec).map (expand (seenVars m v0)) ++ (linkedLibs t m.spec).map (expand v0), PlainWord f) :
    ∃ x, localValue (localValues v0 p.lines) (expand v0 (productFile m)) c!"LD_INPUTS" = some x ∧
      shellWords x = some (((m.spec.sources ++ extraSources m.spec).filter (Compilable m.flavor)).map
        (fun s => expand v0 (objectFile m s)) ++
      (objectSources m.spec).map (expand (seenVars m v0)) ++ (linkedLibs t m.spec).map (expand v0)) := by
  obtain ⟨⟨qo, qr, qs, qi, -, hqr, hqs, hqi, qsplit⟩⟩ := target_parts p.htarget
  have hclean : MkClean m.output := by rw [ho]; exact (output_ok ok).2.1
  generalize hins : extraLinkDeps m (m.spec.sources ++ extraSources m.spec) ++ p.linkDeps = ins at hqr
  have hld : ldInputs m ins = .setFor m.output c!"LD_INPUTS" (joinWith [' '] ins) := by
    unfold ldInputs
    rw [show QuoteSpaces m.output = m.output from hclean.quote _, List.map_congr_left (g := id), List.map_id]
    intro d hd
    rw [← hins] at hd
    rcases List.mem_append.mp hd with hd | hd
    · rcases List.mem_append.mp hd with hd | hd
      · split at hd
        · cases hd
        · rw [List.mem_singleton] at hd
          subst hd; rfl
      · exact (source_file ok d (List.mem_filter.mp hd).1).2.1.quote _
    · exact (linkDep_text ok p.hdeps d hd).2.1.quote _
  obtain ⟨rest, hrule, hrest⟩ : ∃ rest, qr = ldInputs m ins :: rest ∧ NoLocal rest c!"LD_INPUTS" := by
    have h := hqr
    unfold finalRule at h
    dsimp only at h
    rcases ht with ht | ht
    · rw [if_pos ht] at h
      split at h
      · cases h
      · rename_i l e
        injection h with h
        exact ⟨l, h.symm, (doCmd_locals e []).no (by simp)⟩
    · rw [if_neg (by rw [ht]; decide), if_neg (by rw [ht]; decide), if_pos ht] at h
      split at h
      · cases h
      · rename_i l e
        injection h with h
        refine ⟨_, h.symm, NoLocal.append ((doCmd_locals e []).no (by simp)) ?_⟩
        split
        · exact (rule_locals _ []).no (by simp)
        · intro t x hx; cases hx
  have hsplit : p.target = ((.text c!"### Rules for final target." :: qo) ++ targetVars m p.deps) ++
      (.setFor m.output c!"LD_INPUTS" (joinWith [' '] ins) :: (rest ++ qs ++ qi)) := by
    rw [qsplit, hrule, hld]
    simp only [List.append_assoc, List.cons_append]
  have hseen := front_part (v0 := v0) p ok hsplit
  have hname := (product_name ok ho hh hseen).1
  refine ⟨real (valuesAfter v0 (p.front ++ ((.text c!"### Rules for final target." :: qo) ++
    targetVars m p.deps))) (joinWith [' '] ins), ?_, ?_⟩
  · rw [lines_front, hsplit, ← List.append_assoc]
    refine localValue_last (by rw [hname]; simp) ?_ (by decide)
    exact (hrest.append ((alias_locals hqs []).no (by simp))).append ((install_locals hqi []).no (by simp))
  · generalize hvT : valuesAfter v0 (p.front ++ ((.text c!"### Rules for final target." :: qo) ++
      targetVars m p.deps)) = vT at hseen hname
    -- what each part stands for
    have hone : ∀ f, RefText localVars f → PlainWord (expand (seenVars m v0) f) →
        Reads (valueOf vT) f [expand (seenVars m v0) f] := fun f hf hp =>
      ⟨_, hseen.stands (standsFor_ref hh ok.toolset ok.name hf), words_plain hp⟩
    have hlist : ∀ (l : List Str), (∀ f ∈ l, RefText localVars f ∧ PlainWord (expand (seenVars m v0) f)) →
        List.Forall₂ (Reads (valueOf vT)) l (l.map fun f => [expand (seenVars m v0) f]) := by
      intro l hl
      induction l with
      | nil => exact .nil
      | cons f l ih =>
        exact .cons (hone f (hl f (by simp)).1 (hl f (by simp)).2) (ih fun g hg => hl g (by simp [hg]))
    have hflat : ∀ l : List Str, (l.map fun f => [expand (seenVars m v0) f]).flatten = l.map (expand (seenVars m v0)) := by
      intro l
      induction l with
      | nil => rfl
      | cons f l ih => simp only [List.map_cons, List.flatten_cons, ih]; rfl
    have hlibs : linkedLibs t m.spec = p.linkDeps := by
      have := p.hdeps
      unfold ComputeDeps at this
      split at this
      · cases this
      · injection this with this
        injection this with _ this
        rw [← this, linkedLibs, once_eq]
    have hdep : ∀ d ∈ p.linkDeps, expand (seenVars m v0) d = expand v0 d := by
      intro d hd
      have h := linkDep_text ok p.hdeps d hd
      rw [expand_two ok.toolset ok.name (h.2.2.mono fun n hn => by simp [localVars, hn]),
        expand_stable _ (own_header m.spec) h.2.2]
    have hsrc : objectSources m.spec = (m.spec.sources ++ extraSources m.spec).filter Linkable := by
      unfold objectSources
      rw [allSources_eq]
      rfl
    rw [hlibs] at hplain ⊢
    rw [hsrc] at hplain ⊢
    have hA := hlist ((m.spec.sources ++ extraSources m.spec).filter Linkable) fun f hf =>
      ⟨(source_file ok f (List.mem_filter.mp hf).1).2.2, hplain _ (by
        simp only [List.mem_append]; exact Or.inl (Or.inr (List.mem_map_of_mem hf)))⟩
    have hB := hlist p.linkDeps fun f hf => ⟨(linkDep_text ok p.hdeps f hf).2.2.mono fun n hn => by simp [localVars, hn],
      by rw [hdep f hf]; exact hplain _ (by simp only [List.mem_append]; exact Or.inr (List.mem_map_of_mem hf))⟩
    have hC : p.linkDeps.map (expand (seenVars m v0)) = p.linkDeps.map (expand v0) :=
      List.map_congr_left hdep
    have hobjs : List.Forall₂ (Reads (valueOf vT))
        (if objectsOf m (m.spec.sources ++ extraSources m.spec) = [] then [] else [c!"$(OBJS)"])
        (if objectsOf m (m.spec.sources ++ extraSources m.spec) = [] then [] else
          [((m.spec.sources ++ extraSources m.spec).filter (Compilable m.flavor)).map
            fun s => expand v0 (objectFile m s)]) := by
      split
      · exact .nil
      · rename_i hne
        refine .cons ?_ .nil
        rw [show c!"$(OBJS)" = c!"$(" ++ c!"OBJS" ++ c!")" from rfl]
        refine reads_ref (by unfold NameText; decide) ?_
        have hval : valueOf vT c!"OBJS" = joinWith [' '] ((objectsOf m (m.spec.sources ++
            extraSources m.spec)).map (expand (seenVars m v0))) := by
          rw [← objs_list p ok hh, ← hvT]
          unfold valueOf
          congr 1
          rw [valuesAfter_append, aget_valuesAfter]
          · unfold MkParts.front
            rw [valuesAfter_append, valuesAfter_append, aget_valuesAfter targetSuffixRules_sets]
            rcases p.hsources with ⟨h, -⟩ | h
            · rw [h] at hne; exact absurd rfl hne
            obtain ⟨r1, r2, e1, e2, -, hls⟩ := WriteSources_some h
            rw [hls, if_neg hne, objects_plain ok, valuesAfter_append, valuesAfter_append, valuesAfter_append,
              orderRule_values e2, valuesAfter_append, orderRule_values e1]
            unfold MkParts.objVars
            rw [valuesAfter_append, valuesAfter_append]
            rfl
          · intro hs
            have : Sets p.target c!"OBJS" := by rw [hsplit]; exact Sets.append.mpr (Or.inl hs)
            obtain ⟨x, hx, he⟩ := WriteTarget_head p.htarget this
            simp only [List.mem_singleton] at hx
            subst hx
            simp at he
        rw [hval, words_join (g := fun x => [expand (seenVars m v0) x])]
        · unfold objectsOf
          rw [List.flatMap_def, hflat, List.map_map]
          congr 1
          refine List.map_congr_left fun s hs => ?_
          exact expand_two ok.toolset ok.name (objects_text ok _ (List.mem_map_of_mem hs)).1
        · intro x hx
          obtain ⟨s, hs, rfl⟩ := List.mem_map.mp hx
          refine words_plain ?_
          rw [expand_two ok.toolset ok.name (objects_text ok _ hx).1]
          exact hplain _ (by
            simp only [List.mem_append]
            exact Or.inl (Or.inl (List.mem_map.mpr ⟨s, hs, rfl⟩)))
    have hall := List.rel_append (List.rel_append hobjs hA) hB
    obtain ⟨x, h1, h2⟩ := reads_join hall
    have e : (if objectsOf m (m.spec.sources ++ extraSources m.spec) = [] then [] else [c!"$(OBJS)"]) ++
        (m.spec.sources ++ extraSources m.spec).filter Linkable ++ p.linkDeps = ins := by
      rw [← hins]; rfl
    dsimp only at h1 h2
    rw [e] at h1
    unfold real
    rw [h1, Option.getD_some, h2]
    simp only [List.flatten_append, hflat, hC]
    congr 3
    split
    · rename_i h
      unfold objectsOf at h
      rw [List.map_eq_nil_iff] at h
      rw [h]; rfl
    · simp

end Gyp
