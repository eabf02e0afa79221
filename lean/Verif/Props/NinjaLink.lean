import Verif.Props.NinjaGraph
/-
C101: what ninja compiles and links.
-/
namespace Gyp
open Spec

variable {ctx : Str → NinjaCtx} {ts : List (Str × NSpec)} {ws : List (Str × NWritten)} {outs : List (Str × NTarget)}
  {q : Str} {s : NSpec} {w : NWritten}

theorem ninjaCommand_iff (p c : Str) : ninjaCommand p = some c ↔ NinjaCompiledBy p c := by
  have hdot : (splitext p).2 = [] ∨ ∃ e, (splitext p).2 = '.' :: e := by
    unfold splitext
    split
    · exact Or.inl rfl
    · split
      · exact Or.inl rfl
      · split
        · exact Or.inr ⟨_, rfl⟩
        · exact Or.inl rfl
  unfold ninjaCommand
  simp only
  constructor
  · intro h
    rcases hdot with hd | ⟨e, hd⟩
    · rw [hd] at h; simp at h
    · rw [hd] at h
      simp only [List.drop_succ_cons, List.drop_zero] at h
      split at h
      · rename_i h1; cases h; exact .cxx e hd h1
      · split at h
        · rename_i h1; cases h; exact .cc e hd (by simpa using h1)
        · split at h
          · rename_i h1; cases h; exact .asm (by rw [hd, h1])
          · exact nomatch h
  · intro h
    cases h with
    | cxx e h1 h2 => rw [h1]; simp only [List.drop_succ_cons, List.drop_zero]; rw [if_pos h2]
    | cc e h1 h2 =>
      rw [h1]; simp only [List.drop_succ_cons, List.drop_zero]
      simp only [List.mem_cons, List.not_mem_nil, or_false] at h2
      rcases h2 with rfl | rfl <;> decide
    | asm h1 => rw [h1]; decide

/-- C101: each source with an end that says it is C, C++ or assembler is compiled, with the command for this end, and
nothing else is. -/
theorem C101_compiles (ctx : Str → NinjaCtx) (ts : List (Str × NSpec)) (ws : List (Str × NWritten))
    (outs : List (Str × NTarget)) (ho : InOrder ts) (h : ninjaTargets ctx ts [] = some (ws, outs))
    (q : Str) (s : NSpec) (w : NWritten) (hq : (q, s) ∈ ts) (hw : (q, w) ∈ ws) :
    (∀ p c, SourceOf s p → NinjaCompiledBy p c → ∃ e ∈ w.compiles, e.command = c ∧ ∃ i o, gypPathToNinja (ctx q) p = some i ∧
      gypPathToUniqueOutput (ctx q) ((splitext p).1 ++ c!".o") true = some o ∧ e.inputs = [i] ∧ e.outputs = [o]) ∧
    (∀ e ∈ w.compiles, ∃ p i o, SourceOf s p ∧ NinjaCompiledBy p e.command ∧ gypPathToNinja (ctx q) p = some i ∧
      gypPathToUniqueOutput (ctx q) ((splitext p).1 ++ c!".o") true = some o ∧ e.inputs = [i] ∧ e.outputs = [o]) := by
  obtain ⟨sq, ⟨B⟩⟩ := (allBuilt ho h).from_ q w hw
  have := inOrder_unique ho hq B.spec
  subst this
  have hsrc := (ninjaSteps_some B.parts.hsteps).2.1
  obtain ⟨h1, h2⟩ := ninjaCompiles_some B.parts.hcompiles
  refine ⟨?_, ?_⟩
  · intro p c hp hc
    exact h2 p ((hsrc p).mpr hp) c ((ninjaCommand_iff p c).mpr hc)
  · intro e he
    obtain ⟨p, hp, i, o, hc, hi, ho, heq⟩ := h1 e he
    exact ⟨p, i, o, (hsrc p).mp hp, (ninjaCommand_iff p _).mp hc, hi, ho, by rw [heq], by rw [heq]⟩

/-- A recorded target has a final output that is its binary. -/
theorem Built.final (B : Built ctx ts ws outs q s w) {t : NTarget} (h : aget outs q = some t) :
    t.finalOutput = t.binary ∧ t.binary ≠ none := by
  obtain ⟨out, h1, h2, -⟩ := B.recorded h
  rw [h1, h2]; simp

theorem any_linkable (A : AllBuilt ctx ts ws outs) (B : Built ctx ts ws outs q s w)
    (h : (s.dependencies.filterMap (aget outs)).any NTarget.linkable = true) : B.parts.actionsDepends ≠ none := by
  rw [List.any_eq_true] at h
  obtain ⟨t, ht, -⟩ := h
  obtain ⟨d, hd, hdt⟩ := List.mem_filterMap.mp ht
  obtain ⟨sd, hsd⟩ := A.known d t hdt
  obtain ⟨wd, ⟨Bd⟩⟩ := A.each d sd hsd
  obtain ⟨out, -, -, -, -, ⟨p, hp, -⟩, -⟩ := Bd.recorded hdt
  obtain ⟨a, ha, -⟩ := B.actionsDepends_waits hd hdt hp
  rw [ha]; simp

/-- Whether a target can be put into others. -/
theorem linkable_iff (t : NTarget) : t.linkable = true ↔ t.type = c!"static_library" ∨ t.type = c!"shared_library" := by
  unfold NTarget.linkable
  simp

/-- C101: a target is linked unless it is of type `none`, or has no objects and no library among what it depends on;
there is one statement for it, and what is recorded for other targets is its type and what it makes. -/
theorem C101_linked (ctx : Str → NinjaCtx) (ts : List (Str × NSpec)) (ws : List (Str × NWritten))
    (outs : List (Str × NTarget)) (ho : InOrder ts) (h : ninjaTargets ctx ts [] = some (ws, outs))
    (q : Str) (s : NSpec) (w : NWritten) (hq : (q, s) ∈ ts) (hw : (q, w) ∈ ws) :
    (w.link = [] ↔ s.product.type = c!"none" ∨
      ((∀ p, SourceOf s p → endsWith p c!".o" = false ∧ ∀ c, ¬ NinjaCompiledBy p c) ∧
        ∀ d ∈ s.dependencies, ∀ t, aget outs d = some t → t.type ≠ c!"static_library" ∧ t.type ≠ c!"shared_library")) ∧
    (∀ e ∈ w.link, w.link = [e] ∧ ∃ t out, aget outs q = some t ∧ t.type = s.product.type ∧ t.binary = some out ∧
      ninjaComputeOutput (ctx q) s.product = some out ∧
      e.outputs = if s.product.type = c!"shared_library" ∨ s.product.type = c!"loadable_module" then [out, out ++ c!".TOC"] else [out]) ∧
    (w.link = [] → ∀ t, aget outs q = some t → t.type = c!"none") := by
  have A := allBuilt ho h
  obtain ⟨sq, ⟨B⟩⟩ := A.from_ q w hw
  have := inOrder_unique ho hq B.spec
  subst this
  have hsrc := (ninjaSteps_some B.parts.hsteps).2.1
  obtain ⟨hc1, hc2⟩ := ninjaCompiles_some B.parts.hcompiles
  have hempty : w.compiles.flatMap NEdge.outputs ++ B.parts.objects = [] ↔
      ∀ p, SourceOf s p → endsWith p c!".o" = false ∧ ∀ c, ¬ NinjaCompiledBy p c := by
    have hobj := mapM_eq_some B.parts.hobjects
    rw [List.append_eq_nil_iff]
    constructor
    · rintro ⟨h1, h2⟩ p hp
      refine ⟨?_, ?_⟩
      · rw [h2] at hobj
        have := List.forall₂_nil_right_iff.mp hobj
        rw [List.filter_eq_nil_iff] at this
        exact Bool.not_eq_true _ ▸ this p ((hsrc p).mpr hp)
      · intro c hc
        obtain ⟨e, he, -, i, o, -, -, -, ho⟩ := hc2 p ((hsrc p).mpr hp) c ((ninjaCommand_iff p c).mpr hc)
        have : o ∈ w.compiles.flatMap NEdge.outputs := List.mem_flatMap.mpr ⟨e, he, by rw [ho]; simp⟩
        rw [h1] at this; simp at this
    · intro hn
      refine ⟨?_, ?_⟩
      · rw [List.flatMap_eq_nil_iff]
        intro e he
        obtain ⟨p, hp, i, o, hc, -⟩ := hc1 e he
        exact absurd ((ninjaCommand_iff p _).mp hc) ((hn p ((hsrc p).mp hp)).2 _)
      · have : (w.steps.sources ++ s.sources).filter (endsWith · c!".o") = [] := by
          rw [List.filter_eq_nil_iff]
          intro p hp
          rw [(hn p ((hsrc p).mp hp)).1]
          simp
        rw [this] at hobj
        exact List.forall₂_nil_left_iff.mp hobj
  have hext : (s.dependencies.filterMap (aget outs)).any NTarget.linkable = false ↔
      ∀ d ∈ s.dependencies, ∀ t, aget outs d = some t → t.type ≠ c!"static_library" ∧ t.type ≠ c!"shared_library" := by
    rw [List.any_eq_false]
    constructor
    · intro h d hd t ht
      have := h t (List.mem_filterMap.mpr ⟨d, hd, ht⟩)
      rw [linkable_iff] at this
      exact not_or.mp this
    · intro h t ht
      obtain ⟨d, hd, hdt⟩ := List.mem_filterMap.mp ht
      rw [linkable_iff]
      exact not_or.mpr (h d hd t hdt)
  rw [← hempty, ← hext]
  rcases B.parts.hend with ⟨h1, h2, h3, h4, h5⟩ | ⟨hwt, ht⟩
  · refine ⟨⟨fun _ => Or.inr ⟨h1, ?_⟩, fun _ => h4⟩, ?_, ?_⟩
    · cases hx : (s.dependencies.filterMap (aget outs)).any NTarget.linkable with
      | false => rfl
      | true => exact absurd h3 (any_linkable A B hx)
    · intro e he; rw [h4] at he; simp at he
    · intro _ t ht; rw [B.target, h5] at ht; exact nomatch ht
  · unfold ninjaWriteTarget at hwt
    simp only at hwt
    split at hwt
    · rename_i hcond
      simp only [Option.some.injEq, Prod.mk.injEq] at hwt
      obtain ⟨htype, hbin, hl⟩ := hwt
      refine ⟨⟨fun _ => hcond, fun _ => hl.symm⟩, ?_, ?_⟩
      · intro e he; rw [← hl] at he; simp at he
      · intro _ t htt
        rw [B.target, ht] at htt
        split at htt
        · exact nomatch htt
        · cases htt; exact htype.symm
    · rename_i hcond
      have hsome : ∀ e out, B.parts.binary = some out → B.parts.type = s.product.type → w.link = [e] →
          ninjaComputeOutput (ctx q) s.product = some out →
          e.outputs = (if s.product.type = c!"shared_library" ∨ s.product.type = c!"loadable_module" then [out, out ++ c!".TOC"] else [out]) →
          (w.link = [] ↔ s.product.type = c!"none" ∨ w.compiles.flatMap NEdge.outputs ++ B.parts.objects = [] ∧
            (s.dependencies.filterMap (aget outs)).any NTarget.linkable = false) ∧
          (∀ e ∈ w.link, w.link = [e] ∧ ∃ t out, aget outs q = some t ∧ t.type = s.product.type ∧ t.binary = some out ∧
            ninjaComputeOutput (ctx q) s.product = some out ∧
            e.outputs = if s.product.type = c!"shared_library" ∨ s.product.type = c!"loadable_module" then [out, out ++ c!".TOC"] else [out]) ∧
          (w.link = [] → ∀ t, aget outs q = some t → t.type = c!"none") := by
        intro e out hb hty hl hco heo
        refine ⟨⟨fun h => absurd h (by rw [hl]; simp), fun h => absurd h hcond⟩, ?_, fun h => absurd h (by rw [hl]; simp)⟩
        intro e' he'
        rw [hl, List.mem_singleton] at he'
        subst he'
        rw [hb, if_neg (by simp)] at ht
        exact ⟨hl, _, out, by rw [B.target, ht], hty, rfl, hco, heo⟩
      split at hwt
      · rename_i hst
        split at hwt
        · exact nomatch hwt
        · rename_i out hco
          simp only [Option.some.injEq, Prod.mk.injEq] at hwt
          refine hsome _ out hwt.2.1.symm hwt.1.symm hwt.2.2.symm hco ?_
          refine (if_neg ?_).symm
          rintro (h | h) <;> rw [hst] at h <;> exact absurd h (by decide)
      · split at hwt
        · exact nomatch hwt
        · rename_i out e hlink
          simp only [Option.some.injEq, Prod.mk.injEq] at hwt
          unfold ninjaLink at hlink
          split at hlink
          · rename_i command output hcmd hco
            simp only [Option.some.injEq, Prod.mk.injEq] at hlink
            obtain ⟨ho, he⟩ := hlink
            subst ho
            refine hsome _ output hwt.2.1.symm hwt.1.symm hwt.2.2.symm hco ?_
            rw [← he]
            simp only
            unfold ninjaLinkCommand at hcmd
            split at hcmd
            · rename_i hex; cases hcmd; rw [hex, if_neg (by simp), if_neg (by decide)]
            · split at hcmd
              · rename_i hex; cases hcmd; rw [hex, if_pos (by decide), if_pos (by decide)]
              · split at hcmd
                · rename_i hex; cases hcmd; rw [hex, if_pos (by decide), if_pos (by decide)]
                · exact nomatch hcmd
          · exact nomatch hlink

/-- What the dependencies add, each once. -/
structure LinkAdds (l : List NTarget) (a d : NLinkDeps) : Prop where
  lib : ∀ f, f ∈ d.libraries ↔ f ∈ a.libraries ∨ ∃ t ∈ l, t.type = c!"static_library" ∧ t.binary = some f
  so : ∀ f, f ∈ d.solibs ↔ f ∈ a.solibs ∨ ∃ t ∈ l, t.type = c!"shared_library" ∧ t.binary = some f
  imp : ∀ f, f ∈ d.implicit ↔ f ∈ a.implicit ∨ (∃ t ∈ l, t.type = c!"shared_library" ∧ ∃ b, t.binary = some b ∧ f = b ++ c!".TOC") ∨
    ∃ t ∈ l, t.type ≠ c!"static_library" ∧ t.type ≠ c!"shared_library" ∧ t.binary = some f
  libNodup : a.libraries.Nodup → d.libraries.Nodup
  soNodup : a.solibs.Nodup → d.solibs.Nodup
  impNodup : a.implicit.Nodup → d.implicit.Nodup
  order : ∃ m, d.libraries = a.libraries ++ m ∧ m.Sublist ((l.filter (·.type = c!"static_library")).filterMap NTarget.binary)

theorem ninjaLinkDep_adds {t : NTarget} (hf : t.finalOutput = t.binary ∧ t.binary ≠ none) (a : NLinkDeps) :
    LinkAdds [t] a (ninjaLinkDep a t) := by
  obtain ⟨hf, hb⟩ := hf
  obtain ⟨b, hb⟩ := Option.ne_none_iff_exists'.mp hb
  by_cases h1 : t.type = c!"static_library"
  · have e : ninjaLinkDep a t = { a with libraries := listAdd a.libraries b } := by
      have hl : t.linkable = true := by unfold NTarget.linkable; rw [h1]; decide
      have hu : t.usesToc = false := by unfold NTarget.usesToc; rw [h1]; decide
      unfold ninjaLinkDep
      simp only [hl, hu, hf, hb]
      simp
    rw [e]
    refine ⟨?_, ?_, ?_, fun h => nodup_listAdd_str h, fun h => h, fun h => h, ?_⟩
    · intro f
      rw [mem_listAdd_str]
      simp only [List.mem_singleton, exists_eq_left, h1, hb, Option.some.injEq, true_and]
      constructor
      · rintro (h | h)
        · exact Or.inl h
        · exact Or.inr h.symm
      · rintro (h | h)
        · exact Or.inl h
        · exact Or.inr h.symm
    · intro f; simp [h1]
    · intro f; simp [h1]
    · simp only
      unfold listAdd
      split
      · exact ⟨[], by simp, List.nil_sublist _⟩
      · exact ⟨[b], rfl, by simp [h1, hb]⟩
  · by_cases h2 : t.type = c!"shared_library"
    · have e : ninjaLinkDep a t = { a with solibs := listAdd a.solibs b, implicit := listAdd a.implicit (b ++ c!".TOC") } := by
        have hl : t.linkable = true := by unfold NTarget.linkable; rw [h2]; decide
        have hu : t.usesToc = true := by unfold NTarget.usesToc; rw [h2]; decide
        unfold ninjaLinkDep
        simp only [hl, hu, hf, hb]
        simp
      rw [e]
      refine ⟨?_, ?_, ?_, fun h => h, fun h => nodup_listAdd_str h, fun h => nodup_listAdd_str h, ?_⟩
      · intro f; simp [h2]
      · intro f
        rw [mem_listAdd_str]
        simp only [List.mem_singleton, exists_eq_left, h2, hb, Option.some.injEq, true_and]
        exact or_congr Iff.rfl eq_comm
      · intro f
        rw [mem_listAdd_str]
        simp [h2, hb]
      · exact ⟨[], by simp, List.nil_sublist _⟩
    · have e : ninjaLinkDep a t = { a with implicit := listAdd a.implicit b } := by
        have hl : t.linkable = false := by
          rw [Bool.eq_false_iff, ne_eq, linkable_iff]
          exact not_or.mpr ⟨h1, h2⟩
        unfold ninjaLinkDep
        simp only [hl, hf, hb]
        simp
      rw [e]
      refine ⟨?_, ?_, ?_, fun h => h, fun h => h, fun h => nodup_listAdd_str h, ?_⟩
      · intro f; simp [h1]
      · intro f; simp [h2]
      · intro f
        rw [mem_listAdd_str]
        simp only [List.mem_singleton, exists_eq_left, h2, h1, hb, Option.some.injEq, true_and, false_and, false_or, ne_eq,
          not_false_eq_true]
        exact or_congr Iff.rfl eq_comm
      · exact ⟨[], by simp, List.nil_sublist _⟩

theorem linkDeps_adds {l : List NTarget} (hf : ∀ t ∈ l, t.finalOutput = t.binary ∧ t.binary ≠ none) (a : NLinkDeps) :
    LinkAdds l a (l.foldl ninjaLinkDep a) := by
  induction l generalizing a with
  | nil => exact ⟨by simp, by simp, by simp, fun h => h, fun h => h, fun h => h, [], by simp, List.nil_sublist _⟩
  | cons t l ih =>
    have h1 := ninjaLinkDep_adds (hf t List.mem_cons_self) a
    have h2 := ih (fun t h => hf t (List.mem_cons_of_mem _ h)) (ninjaLinkDep a t)
    rw [List.foldl_cons]
    refine ⟨?_, ?_, ?_, fun h => h2.libNodup (h1.libNodup h), fun h => h2.soNodup (h1.soNodup h),
      fun h => h2.impNodup (h1.impNodup h), ?_⟩
    · intro f
      rw [h2.lib, h1.lib]
      simp only [List.mem_cons, exists_eq_or_imp, or_assoc, List.not_mem_nil, or_false, exists_eq_left]
    · intro f
      rw [h2.so, h1.so]
      simp only [List.mem_cons, exists_eq_or_imp, or_assoc, List.not_mem_nil, or_false, exists_eq_left]
    · intro f
      rw [h2.imp, h1.imp]
      simp only [List.mem_cons, exists_eq_or_imp, List.not_mem_nil, or_false, exists_eq_left]
      constructor
      · rintro ((h | h | h) | h | h)
        · exact Or.inl h
        · exact Or.inr (Or.inl (Or.inl h))
        · exact Or.inr (Or.inr (Or.inl h))
        · exact Or.inr (Or.inl (Or.inr h))
        · exact Or.inr (Or.inr (Or.inr h))
      · rintro (h | (h | h) | h | h)
        · exact Or.inl (Or.inl h)
        · exact Or.inl (Or.inr (Or.inl h))
        · exact Or.inr (Or.inl h)
        · exact Or.inl (Or.inr (Or.inr h))
        · exact Or.inr (Or.inr h)
    · obtain ⟨m1, e1, s1⟩ := h1.order
      obtain ⟨m2, e2, s2⟩ := h2.order
      refine ⟨m1 ++ m2, by rw [e2, e1, List.append_assoc], ?_⟩
      have : (t :: l).filter (·.type = c!"static_library") = [t].filter (·.type = c!"static_library") ++ l.filter (·.type = c!"static_library") := by
        rw [← List.filter_append]; rfl
      rw [this, List.filterMap_append]
      exact s1.append s2

/-- The parts of a link. -/
theorem Built.link (A : AllBuilt ctx ts ws outs) (B : Built ctx ts ws outs q s w) {e : NEdge} (he : e ∈ w.link) :
    (s.product.type = c!"static_library" ∧ ∃ out, e =
      { outputs := [out], command := if s.product.standalone then c!"alink" else c!"alink_thin"
        inputs := w.compiles.flatMap NEdge.outputs ++ B.parts.objects
        orderOnly := (B.parts.actionsStamp.or B.parts.actionsDepends).toList }) ∨
    (s.product.type ≠ c!"static_library" ∧ ∃ out, ninjaLink (ctx q) s outs
      ((s.dependencies.filterMap (aget outs)).any NTarget.usesCpp || w.compiles.any (·.command = c!"cxx"))
      (w.compiles.flatMap NEdge.outputs ++ B.parts.objects) (B.parts.actionsStamp.or B.parts.actionsDepends) = some (out, e)) := by
  rcases B.parts.hend with ⟨-, -, -, hl, -⟩ | ⟨hwt, ht⟩
  · rw [hl] at he; simp at he
  · unfold ninjaWriteTarget at hwt
    simp only at hwt
    split at hwt
    · simp only [Option.some.injEq, Prod.mk.injEq] at hwt
      rw [← hwt.2.2] at he; simp at he
    · split at hwt
      · rename_i hst
        split at hwt
        · exact nomatch hwt
        · rename_i out hco
          simp only [Option.some.injEq, Prod.mk.injEq] at hwt
          rw [← hwt.2.2, List.mem_singleton] at he
          exact Or.inl ⟨hst, out, he⟩
      · rename_i hst
        split at hwt
        · exact nomatch hwt
        · rename_i out e' hlink
          simp only [Option.some.injEq, Prod.mk.injEq] at hwt
          rw [← hwt.2.2, List.mem_singleton] at he
          subst he
          exact Or.inr ⟨hst, out, hlink⟩

theorem Built.objects_iff (B : Built ctx ts ws outs q s w) (f : Str) :
    f ∈ B.parts.objects ↔ ∃ p, SourceOf s p ∧ endsWith p c!".o" = true ∧ gypPathToNinja (ctx q) p = some f := by
  have hsrc := (ninjaSteps_some B.parts.hsteps).2.1
  rw [mapM_mem B.parts.hobjects]
  constructor
  · rintro ⟨p, hp, hf⟩
    rw [List.mem_filter] at hp
    exact ⟨p, (hsrc p).mp hp.1, hp.2, hf⟩
  · rintro ⟨p, hp, he, hf⟩
    exact ⟨p, List.mem_filter.mpr ⟨(hsrc p).mpr hp, he⟩, hf⟩

/-- C101: a static library is made from its objects and nothing else; it is a thin archive unless it has to stand
alone. -/
theorem C101_archive (ctx : Str → NinjaCtx) (ts : List (Str × NSpec)) (ws : List (Str × NWritten))
    (outs : List (Str × NTarget)) (ho : InOrder ts) (h : ninjaTargets ctx ts [] = some (ws, outs))
    (q : Str) (s : NSpec) (w : NWritten) (e : NEdge) (hq : (q, s) ∈ ts) (hw : (q, w) ∈ ws) (he : e ∈ w.link)
    (hs : s.product.type = c!"static_library") :
    (e.command = if s.product.standalone then c!"alink" else c!"alink_thin") ∧ e.implicit = [] ∧
    ∃ objects, e.inputs = w.compiles.flatMap NEdge.outputs ++ objects ∧
      ∀ f, f ∈ objects ↔ ∃ p, SourceOf s p ∧ endsWith p c!".o" = true ∧ gypPathToNinja (ctx q) p = some f := by
  have A := allBuilt ho h
  obtain ⟨sq, ⟨B⟩⟩ := A.from_ q w hw
  have := inOrder_unique ho hq B.spec
  subst this
  rcases B.link A he with ⟨-, out, rfl⟩ | ⟨hn, -⟩
  · exact ⟨rfl, rfl, B.parts.objects, rfl, B.objects_iff⟩
  · exact absurd hs hn

/-- C101: a program or a shared library is linked, with the command for its type, from its objects and the static
libraries among what it depends on, each once and in order; it is linked again when the interface of a shared library
or anything else it depends on changes; shared libraries are named to the linker, sorted. -/
theorem C101_link (ctx : Str → NinjaCtx) (ts : List (Str × NSpec)) (ws : List (Str × NWritten))
    (outs : List (Str × NTarget)) (ho : InOrder ts) (h : ninjaTargets ctx ts [] = some (ws, outs))
    (q : Str) (s : NSpec) (w : NWritten) (e : NEdge) (hq : (q, s) ∈ ts) (hw : (q, w) ∈ ws) (he : e ∈ w.link)
    (hs : s.product.type ≠ c!"static_library") :
    (s.product.type, e.command) ∈ [(c!"executable", c!"link"), (c!"loadable_module", c!"solink_module"), (c!"shared_library", c!"solink")] ∧
    (∃ objects libs, e.inputs = w.compiles.flatMap NEdge.outputs ++ objects ++ libs ∧
      (∀ f, f ∈ objects ↔ ∃ p, SourceOf s p ∧ endsWith p c!".o" = true ∧ gypPathToNinja (ctx q) p = some f) ∧
      libs.Nodup ∧
      (∀ f, f ∈ libs ↔ ∃ d ∈ s.dependencies, ∃ t, aget outs d = some t ∧ t.type = c!"static_library" ∧ t.binary = some f) ∧
      libs.Sublist (((s.dependencies.filterMap (aget outs)).filter (·.type = c!"static_library")).filterMap NTarget.binary)) ∧
    e.implicit.Nodup ∧
    (∀ f, f ∈ e.implicit ↔ ∃ d ∈ s.dependencies, ∃ t b, aget outs d = some t ∧ t.binary = some b ∧
      ((t.type = c!"shared_library" ∧ f = b ++ c!".TOC") ∨
        (t.type ≠ c!"static_library" ∧ t.type ≠ c!"shared_library" ∧ f = b))) ∧
    (∃ sos, sos.Nodup ∧ sos.Pairwise (fun a b => strLe a b = true) ∧
      (∀ f, f ∈ sos ↔ ∃ d ∈ s.dependencies, ∃ t, aget outs d = some t ∧ t.type = c!"shared_library" ∧ t.binary = some f) ∧
      ∀ v, (c!"solibs", v) ∈ e.bindings ↔ sos ≠ [] ∧ v = EncodePOSIXShellList sos) := by
  have A := allBuilt ho h
  obtain ⟨sq, ⟨B⟩⟩ := A.from_ q w hw
  have := inOrder_unique ho hq B.spec
  subst this
  rcases B.link A he with ⟨hn, -⟩ | ⟨-, out, hl⟩
  · exact absurd hn hs
  · unfold ninjaLink at hl
    split at hl
    · rename_i command output hcmd hco
      simp only [Option.some.injEq, Prod.mk.injEq] at hl
      obtain ⟨-, rfl⟩ := hl
      have D : LinkAdds (s.dependencies.filterMap (aget outs)) ⟨[], [], []⟩ (linkDepsOf outs s.dependencies) := by
        apply linkDeps_adds
        intro t ht
        obtain ⟨d, hd, hdt⟩ := List.mem_filterMap.mp ht
        obtain ⟨sd, hsd⟩ := A.known d t hdt
        obtain ⟨wd, ⟨Bd⟩⟩ := A.each d sd hsd
        exact Bd.final hdt
      have hdep : ∀ P : NTarget → Prop, (∃ t ∈ s.dependencies.filterMap (aget outs), P t) ↔
          ∃ d ∈ s.dependencies, ∃ t, aget outs d = some t ∧ P t := by
        intro P
        constructor
        · rintro ⟨t, ht, hp⟩
          obtain ⟨d, hd, hdt⟩ := List.mem_filterMap.mp ht
          exact ⟨d, hd, t, hdt, hp⟩
        · rintro ⟨d, hd, t, hdt, hp⟩
          exact ⟨t, List.mem_filterMap.mpr ⟨d, hd, hdt⟩, hp⟩
      refine ⟨?_, ?_, ?_, ?_, ?_⟩
      · unfold ninjaLinkCommand at hcmd
        split at hcmd
        · rename_i hex; cases hcmd; rw [hex]; simp
        · split at hcmd
          · rename_i hex; cases hcmd; rw [hex]; simp
          · split at hcmd
            · rename_i hex; cases hcmd; rw [hex]; simp
            · exact nomatch hcmd
      · refine ⟨B.parts.objects, (linkDepsOf outs s.dependencies).libraries, rfl, B.objects_iff, D.libNodup List.nodup_nil, ?_, ?_⟩
        · intro f
          rw [D.lib, ← hdep]
          simp
        · obtain ⟨m, hm, hsub⟩ := D.order
          rw [hm]
          exact hsub
      · exact ((pySorted_perm strLe _).nodup_iff).mpr (D.impNodup List.nodup_nil)
      · intro f
        simp only
        rw [(pySorted_perm strLe _).mem_iff, D.imp]
        constructor
        · rintro (h | ⟨t, ht, h1, b, hb, hf⟩ | ⟨t, ht, h1, h2, hb⟩)
          · simp at h
          · obtain ⟨d, hd, hdt⟩ := List.mem_filterMap.mp ht
            exact ⟨d, hd, t, b, hdt, hb, Or.inl ⟨h1, hf⟩⟩
          · obtain ⟨d, hd, hdt⟩ := List.mem_filterMap.mp ht
            exact ⟨d, hd, t, f, hdt, hb, Or.inr ⟨h1, h2, rfl⟩⟩
        · rintro ⟨d, hd, t, b, hdt, hb, ⟨h1, hf⟩ | ⟨h1, h2, hf⟩⟩
          · exact Or.inr (Or.inl ⟨t, List.mem_filterMap.mpr ⟨d, hd, hdt⟩, h1, b, hb, hf⟩)
          · subst hf
            exact Or.inr (Or.inr ⟨t, List.mem_filterMap.mpr ⟨d, hd, hdt⟩, h1, h2, hb⟩)
      · refine ⟨pySorted strLe (linkDepsOf outs s.dependencies).solibs, ((pySorted_perm strLe _).nodup_iff).mpr (D.soNodup List.nodup_nil),
          pySorted_pairwise strLe strLe_total strLe_trans _, ?_, ?_⟩
        · intro f
          rw [(pySorted_perm strLe _).mem_iff, D.so, ← hdep]
          simp
        · intro v
          have hnil : pySorted strLe (linkDepsOf outs s.dependencies).solibs ≠ [] ↔ (linkDepsOf outs s.dependencies).solibs ≠ [] := by
            rw [ne_eq, ne_eq, ← List.length_eq_zero_iff, ← List.length_eq_zero_iff, (pySorted_perm strLe _).length_eq]
          rw [hnil]
          simp only [List.mem_append]
          constructor
          · rintro ((h | h) | h)
            · split at h <;> simp at h
            · split at h <;> simp at h
            · split at h
              · simp at h
              · rename_i hne
                simp only [List.mem_singleton, Prod.mk.injEq, true_and] at h
                exact ⟨hne, h⟩
          · rintro ⟨hne, rfl⟩
            right
            rw [if_neg hne]
            simp
    · exact nomatch hl

/-- What holds of a target when it holds of the targets it depends on holds of all. -/
theorem inOrder_induction {ts : List (Str × NSpec)} (ho : InOrder ts) {P : Str → Prop}
    (step : ∀ q s, (q, s) ∈ ts → (∀ d ∈ s.dependencies, d ∈ ts.map Prod.fst → P d) → P q) :
    ∀ q ∈ ts.map Prod.fst, P q := by
  have key : ∀ (b a : List (Str × NSpec)), ts = a ++ b → (∀ q ∈ a.map Prod.fst, P q) → ∀ q ∈ ts.map Prod.fst, P q := by
    intro b
    induction b with
    | nil => intro a h ha q hq; rw [h] at hq; exact ha q (by simpa using hq)
    | cons t b ih =>
      obtain ⟨q0, s0⟩ := t
      intro a h ha
      refine ih (a ++ [(q0, s0)]) (by rw [h]; simp) ?_
      intro q hq
      rw [List.map_append, List.mem_append] at hq
      rcases hq with hq | hq
      · exact ha q hq
      · simp only [List.map_cons, List.map_nil, List.mem_singleton] at hq
        subst hq
        exact step q s0 (by rw [h]; simp) (fun d hd hdt => ha d ((ho a q s0 b h).2 d hd hdt))
  exact key ts [] rfl (by simp)

theorem Built.usesCpp (B : Built ctx ts ws outs q s w) {t : NTarget} (h : aget outs q = some t) :
    t.usesCpp = ((s.dependencies.filterMap (aget outs)).any NTarget.usesCpp || w.compiles.any (·.command = c!"cxx")) := by
  rw [B.target] at h
  rcases B.parts.hend with ⟨-, -, -, -, hl⟩ | ⟨-, ht⟩
  · rw [hl] at h; exact nomatch h
  · rw [ht] at h
    split at h
    · exact nomatch h
    · cases h; rfl

theorem usesCpp_iff (A : AllBuilt ctx ts ws outs) : ∀ q s w, Built ctx ts ws outs q s w →
    (((s.dependencies.filterMap (aget outs)).any NTarget.usesCpp || w.compiles.any (·.command = c!"cxx")) = true ↔
      HasCpp ts outs q) := by
  intro q s w B
  constructor
  · have := inOrder_induction A.order (P := fun q => ∀ s w, Built ctx ts ws outs q s w →
      ((s.dependencies.filterMap (aget outs)).any NTarget.usesCpp || w.compiles.any (·.command = c!"cxx")) = true →
      HasCpp ts outs q) ?_ q (List.mem_map.mpr ⟨_, B.spec, rfl⟩)
    · exact this s w B
    · intro q s0 hq ih s w B h
      rw [Bool.or_eq_true, List.any_eq_true, List.any_eq_true] at h
      have := inOrder_unique A.order hq B.spec
      subst this
      rcases h with ⟨t, ht, hu⟩ | ⟨e, he, hc⟩
      · obtain ⟨d, hd, hdt⟩ := List.mem_filterMap.mp ht
        obtain ⟨sd, hsd⟩ := A.known d t hdt
        obtain ⟨wd, ⟨Bd⟩⟩ := A.each d sd hsd
        refine .dep hq hd hdt (ih d hd (List.mem_map.mpr ⟨_, hsd, rfl⟩) sd wd Bd ?_)
        rw [← Bd.usesCpp hdt]; exact hu
      · obtain ⟨p, hp, i, o, hcm, -⟩ := (ninjaCompiles_some B.parts.hcompiles).1 e he
        rw [of_decide_eq_true hc] at hcm
        exact .own hq (((ninjaSteps_some B.parts.hsteps).2.1 p).mp hp) ((ninjaCommand_iff p _).mp hcm)
  · intro hc
    have : ∀ q, HasCpp ts outs q → ∀ s w, Built ctx ts ws outs q s w →
      ((s.dependencies.filterMap (aget outs)).any NTarget.usesCpp || w.compiles.any (·.command = c!"cxx")) = true := by
      intro q hc
      induction hc with
      | own hq hp hc =>
        intro s w B
        have := inOrder_unique A.order hq B.spec
        subst this
        obtain ⟨e, he, hec, -⟩ := (ninjaCompiles_some B.parts.hcompiles).2 _ (((ninjaSteps_some B.parts.hsteps).2.1 _).mpr hp) _
          ((ninjaCommand_iff _ _).mpr hc)
        rw [Bool.or_eq_true]
        exact Or.inr (List.any_eq_true.mpr ⟨e, he, decide_eq_true hec⟩)
      | dep hq hd hdt _ ih =>
        rename_i q0 d s0 t _
        intro s w B
        have := inOrder_unique A.order hq B.spec
        subst this
        obtain ⟨sd, hsd⟩ := A.known d t hdt
        obtain ⟨wd, ⟨Bd⟩⟩ := A.each d sd hsd
        rw [Bool.or_eq_true]
        refine Or.inl (List.any_eq_true.mpr ⟨t, List.mem_filterMap.mpr ⟨d, hd, hdt⟩, ?_⟩)
        rw [Bd.usesCpp hdt]
        exact ih sd wd Bd
    exact this q hc s w B

/-- C101: the linker for C++ is used exactly when there is C++ in the target or in what it is built from. -/
theorem C101_cpp (ctx : Str → NinjaCtx) (ts : List (Str × NSpec)) (ws : List (Str × NWritten))
    (outs : List (Str × NTarget)) (ho : InOrder ts) (h : ninjaTargets ctx ts [] = some (ws, outs))
    (q : Str) (s : NSpec) (w : NWritten) (e : NEdge) (hq : (q, s) ∈ ts) (hw : (q, w) ∈ ws) (he : e ∈ w.link)
    (hs : s.product.type ≠ c!"static_library") :
    (c!"ld", c!"$ldxx") ∈ e.bindings ↔ HasCpp ts outs q := by
  have A := allBuilt ho h
  obtain ⟨sq, ⟨B⟩⟩ := A.from_ q w hw
  have := inOrder_unique ho hq B.spec
  subst this
  rw [← usesCpp_iff A q s w B]
  rcases B.link A he with ⟨hn, -⟩ | ⟨-, out, hl⟩
  · exact absurd hn hs
  · unfold ninjaLink at hl
    split at hl
    · rename_i command output hcmd hco
      simp only [Option.some.injEq, Prod.mk.injEq] at hl
      obtain ⟨-, rfl⟩ := hl
      simp only [List.mem_append]
      constructor
      · rintro ((h | h) | h)
        · split at h
          · rename_i hc; exact hc
          · simp at h
        · split at h <;> simp at h
        · split at h <;> simp at h
      · intro h
        rw [if_pos h]
        simp
    · exact nomatch hl

namespace NinjaExample

/-- A program with a static library in C++, a shared library and an action. -/
def linked : List (Str × NSpec) :=
  [(c!"gen", { product := { type := c!"none", targetName := c!"gen" }
               actions := [{ name := c!"make", action := [c!"make.py"], inputs := [c!"in.txt"], outputs := [c!"$!PRODUCT_DIR/gen.h"] }] }),
   (c!"lib", { product := { type := c!"static_library", targetName := c!"lib" }, sources := [c!"lib.cc"] }),
   (c!"so", { product := { type := c!"shared_library", targetName := c!"so" }, sources := [c!"so.c"] }),
   (c!"app", { product := { type := c!"executable", targetName := c!"app" }
               dependencies := [c!"so", c!"lib", c!"gen", c!"lib"], sources := [c!"app.c", c!"old.o", c!"app.h"] })]

end NinjaExample

open NinjaExample in
set_option synthInstance.maxSize 1024 in
example : InOrder linked ∧ ((ninjaTargets NinjaExample.ctx linked []).map fun r => r.1.flatMap fun w => w.2.link.map fun e =>
      (e.command, e.inputs, e.implicit, e.bindings)) =
    some [(c!"alink_thin", [c!"obj/src/lib.lib.o"], [], []),
      (c!"solink", [c!"obj/src/so.so.o"], [],
        [(c!"soname", c!"libso.so"), (c!"lib", c!"lib/libso.so"), (c!"link_file_list", c!"lib/libso.so.rsp")]),
      (c!"link", [c!"obj/src/app.app.o", c!"../src/old.o", c!"obj/src/lib.a"], [c!"gen.h", c!"lib/libso.so.TOC"],
        [(c!"ld", c!"$ldxx"), (c!"solibs", c!"lib/libso.so")])] := by
  refine ⟨inOrder_of_check (by decide), by decide +kernel⟩

end Gyp
