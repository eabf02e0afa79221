import Verif.Proofs.NinjaGraph
import Verif.Props.OrderedSet
import Verif.Proofs.Analyzer
import Verif.Props.MsvsRules
/-
C100: the order of a build with ninja.  C102: the order of actions, rules and copies.
-/
namespace Gyp
open Spec

theorem edge_mem {ws : List (Str × NWritten)} {q : Str} {w : NWritten} (h : (q, w) ∈ ws) {e : NEdge} (he : e ∈ w.edges) :
    e ∈ ninjaEdges ws := List.mem_flatMap.mpr ⟨(q, w), h, he⟩

theorem inOrder_unique {ts : List (Str × NSpec)} (ho : InOrder ts) {q : Str} {s s' : NSpec} (h : (q, s) ∈ ts)
    (h' : (q, s') ∈ ts) : s = s' := by
  obtain ⟨a, b, hab⟩ := List.append_of_mem h
  obtain ⟨a', b', hab'⟩ := List.append_of_mem h'
  have n1 := (ho a q s b hab).1
  have n2 := (ho a' q s' b' hab').1
  rw [hab] at hab'
  rcases List.append_eq_append_iff.mp hab' with ⟨c, h1, h2⟩ | ⟨c, h1, h2⟩
  · cases c with
    | nil => simp at h2; exact h2.1
    | cons x c =>
      simp only [List.cons_append, List.cons.injEq] at h2
      exact absurd (by rw [h1, ← h2.1]; simp) n2
  · cases c with
    | nil => simp at h2; exact h2.1.symm
    | cons x c =>
      simp only [List.cons_append, List.cons.injEq] at h2
      exact absurd (by rw [h1, ← h2.1]; simp) n1

/-- What is written, for one target of the list. -/
structure Built (ctx : Str → NinjaCtx) (ts : List (Str × NSpec)) (ws : List (Str × NWritten)) (outs : List (Str × NTarget))
    (q : Str) (s : NSpec) (w : NWritten) where
  spec : (q, s) ∈ ts
  written : (q, w) ∈ ws
  parts : SpecOf (ctx q) outs s w
  target : aget outs q = w.target

/-- The build of all targets. -/
structure AllBuilt (ctx : Str → NinjaCtx) (ts : List (Str × NSpec)) (ws : List (Str × NWritten))
    (outs : List (Str × NTarget)) : Prop where
  order : InOrder ts
  each : ∀ q s, (q, s) ∈ ts → ∃ w, Nonempty (Built ctx ts ws outs q s w)
  from_ : ∀ q w, (q, w) ∈ ws → ∃ s, Nonempty (Built ctx ts ws outs q s w)
  known : ∀ q t, aget outs q = some t → ∃ s, (q, s) ∈ ts

theorem allBuilt {ctx : Str → NinjaCtx} {ts : List (Str × NSpec)} {ws : List (Str × NWritten)}
    {outs : List (Str × NTarget)} (ho : InOrder ts) (h : ninjaTargets ctx ts [] = some (ws, outs)) :
    AllBuilt ctx ts ws outs := by
  obtain ⟨h1, h2, h3⟩ := ninjaTargets_some ho h
  refine ⟨ho, ?_, ?_, ?_⟩
  · intro q s hq
    obtain ⟨w, hw, hs, ht⟩ := h1 q s hq
    obtain ⟨p⟩ := ninjaSpec_some hs
    exact ⟨w, ⟨⟨hq, hw, p, ht⟩⟩⟩
  · intro q w hw
    obtain ⟨s, hs, hsp⟩ := h2 q w hw
    obtain ⟨w', hw', hs', ht'⟩ := h1 q s hs
    rw [hsp] at hs'
    cases hs'
    obtain ⟨p⟩ := ninjaSpec_some hsp
    exact ⟨s, ⟨⟨hs, hw, p, ht'⟩⟩⟩
  · intro q t hq
    obtain ⟨⟨q', s⟩, hm, rfl⟩ := List.mem_map.mp (h3 q t hq)
    exact ⟨s, hm⟩

section
variable {ctx : Str → NinjaCtx} {ts : List (Str × NSpec)} {ws : List (Str × NWritten)} {outs : List (Str × NTarget)}
variable {q : Str} {s : NSpec} {w : NWritten}

theorem Built.before_mem (B : Built ctx ts ws outs q s w) {e : NEdge} (h : e ∈ w.before) : e ∈ ninjaEdges ws :=
  edge_mem B.written (by simp [NWritten.edges, h])
theorem Built.steps_mem (B : Built ctx ts ws outs q s w) {e : NEdge} (h : e ∈ w.steps.edges) : e ∈ ninjaEdges ws :=
  edge_mem B.written (by simp [NWritten.edges, h])
theorem Built.stamp_mem (B : Built ctx ts ws outs q s w) {e : NEdge} (h : e ∈ w.stamp) : e ∈ ninjaEdges ws :=
  edge_mem B.written (by simp [NWritten.edges, h])
theorem Built.link_mem (B : Built ctx ts ws outs q s w) {e : NEdge} (h : e ∈ w.link) : e ∈ ninjaEdges ws :=
  edge_mem B.written (by simp [NWritten.edges, h])

/-- What a link makes: the binary, with its table of contents for a shared library. -/
theorem writeTarget_some {x : NinjaCtx} {usesCpp : Bool} {linkDeps : List Str} {compileDeps : Option Str} {type : Str}
    {binary : Option Str} {link : List NEdge}
    (h : ninjaWriteTarget x s outs usesCpp linkDeps compileDeps = some (type, binary, link)) :
    (type = c!"none" ∧ binary = compileDeps ∧ link = []) ∨
    ∃ e out, link = [e] ∧ binary = some out ∧ out ∈ e.outputs ∧ e.orderOnly = compileDeps.toList ∧
      (∀ o ∈ linkDeps, o ∈ e.inputs) ∧
      (type ∈ [c!"shared_library", c!"loadable_module"] → out ++ c!".TOC" ∈ e.outputs) := by
  unfold ninjaWriteTarget at h
  simp only at h
  split at h
  · cases h; exact Or.inl ⟨rfl, rfl, rfl⟩
  · split at h
    · rename_i hst
      split at h
      · exact nomatch h
      · rename_i out hout
        cases h
        refine Or.inr ⟨_, out, rfl, rfl, List.mem_singleton.mpr rfl, rfl, fun o h => h, ?_⟩
        intro ht
        rw [hst] at ht
        simp at ht
    · split at h
      · exact nomatch h
      · rename_i out e he
        cases h
        unfold ninjaLink at he
        split at he
        · rename_i command out' hc ho
          cases he
          refine Or.inr ⟨_, out, rfl, rfl, ?_, rfl, fun o h => List.mem_append_left _ h, ?_⟩
          · simp only; split <;> simp
          · intro ht
            simp only [List.mem_cons, List.not_mem_nil, or_false] at ht
            have hsh : command ≠ c!"link" := by
              unfold ninjaLinkCommand at hc
              rcases ht with ht | ht <;> rw [ht] at hc <;> simp at hc <;> rw [← hc] <;> simp
            simp only
            rw [if_pos (by simpa using hsh)]
            simp
        · exact nomatch he

/-- The target that is recorded. -/
theorem Built.recorded (B : Built ctx ts ws outs q s w) {t : NTarget} (h : aget outs q = some t) :
    ∃ out, t.binary = some out ∧ t.finalOutput = some out ∧ t.precompileStamp = B.parts.compileDepends ∧
      t.actionsStamp = B.parts.actionsStamp ∧
      (∃ p, t.preActionInput = some p ∧ Waits (ninjaEdges ws) p out) ∧
      (∀ p, B.parts.actionsStamp.or B.parts.actionsDepends = some p →
        Waits (ninjaEdges ws) out p ∧ ∀ i, t.preActionInput = some i → Waits (ninjaEdges ws) i p) ∧
      (∀ e ∈ w.link, ∀ o ∈ e.outputs, Waits (ninjaEdges ws) out o) := by
  rw [B.target] at h
  rcases B.parts.hend with ⟨-, -, -, -, hn⟩ | ⟨hw, ht⟩
  · rw [hn] at h; exact nomatch h
  · rw [ht] at h
    split at h
    · exact nomatch h
    · rename_i hb
      injection h with h
      obtain ⟨out, hout⟩ := Option.ne_none_iff_exists'.mp hb
      have hfin : t.finalOutput = some out := by rw [← h]; simp [NTarget.finalOutput, hout]
      refine ⟨out, by rw [← h]; exact hout, hfin, by rw [← h], by rw [← h], ?_⟩
      have htype : t.type = B.parts.type := by rw [← h]
      rcases writeTarget_some hw with ⟨h1, h2, h3⟩ | ⟨e, out', h1, h2, h3, h4, -, h5⟩
      · have hpre : t.preActionInput = some out := by
          unfold NTarget.preActionInput NTarget.usesToc
          rw [htype, h1, if_neg (by simp), hfin]
          rfl
        refine ⟨⟨out, hpre, .refl _⟩, ?_, ?_⟩
        · intro p hp
          rw [h2, hp] at hout
          cases hout
          exact ⟨.refl _, fun i hi => by rw [hpre] at hi; cases hi; exact .refl _⟩
        · rw [h3]; simp
      · rw [h2] at hout
        cases hout
        have he : e ∈ ninjaEdges ws := B.link_mem (by rw [h1]; simp)
        have hpre : ∃ p, t.preActionInput = some p ∧ p ∈ e.outputs := by
          unfold NTarget.preActionInput
          by_cases hu : t.usesToc = true
          · rw [if_pos hu, hfin]
            exact ⟨_, rfl, h5 (by unfold NTarget.usesToc at hu; rw [htype] at hu; exact of_decide_eq_true hu)⟩
          · rw [if_neg hu, hfin]
            exact ⟨_, rfl, h3⟩
        obtain ⟨p0, hp0, hp1⟩ := hpre
        refine ⟨⟨p0, hp0, .same he hp1 h3⟩, ?_, ?_⟩
        · intro p hp
          have hm : p ∈ e.inputs ++ e.implicit ++ e.orderOnly := by
            rw [h4, hp]; simp
          refine ⟨.make he h3 hm, ?_⟩
          intro i hi
          rw [hp0] at hi
          cases hi
          exact .make he hp1 hm
        · rw [h1]
          intro e' he' o ho
          rw [List.mem_singleton] at he'
          subst he'
          exact .same he h3 ho

/-- What the target waits for before its steps. -/
theorem Built.actionsDepends_waits (B : Built ctx ts ws outs q s w) {d : Str} {t : NTarget} (hd : d ∈ s.dependencies)
    (ht : aget outs d = some t) {p : Str} (hp : t.preActionInput = some p) :
    ∃ a, B.parts.actionsDepends = some a ∧ Waits (ninjaEdges ws) a p :=
  (collapsed_some B.parts.hactions).2 (ninjaEdges ws)
    (fun e he => B.before_mem (by rw [B.parts.hbefore]; simp [he])) p (by
      simp only [Option.toList_none, List.append_nil]
      exact List.mem_filterMap.mpr ⟨t, List.mem_filterMap.mpr ⟨d, hd, ht⟩, hp⟩)

theorem Built.compileDepends_waits (B : Built ctx ts ws outs q s w) {d : Str} {t : NTarget} (hd : d ∈ s.dependencies)
    (ht : aget outs d = some t) {p : Str} (hp : t.preCompileInput = some p) :
    ∃ a, B.parts.compileDepends = some a ∧ Waits (ninjaEdges ws) a p :=
  (collapsed_some B.parts.hcompile).2 (ninjaEdges ws)
    (fun e he => B.before_mem (by rw [B.parts.hbefore]; simp [he])) p (by
      simp only [Option.toList_none, List.append_nil]
      exact List.mem_filterMap.mpr ⟨t, List.mem_filterMap.mpr ⟨d, hd, ht⟩, hp⟩)

theorem Built.stamp_waits (B : Built ctx ts ws outs q s w) {o : Str} (ho : StepOutput (ctx q) s o) :
    ∃ a, B.parts.actionsStamp = some a ∧ Waits (ninjaEdges ws) a o :=
  (collapsed_some B.parts.hstamp).2 (ninjaEdges ws) (fun e he => B.stamp_mem he) o (by
    simp only [Option.toList_none, List.append_nil]
    exact ((ninjaSteps_some B.parts.hsteps).1 o).mpr ho)

/-- When a target has steps, they wait for what comes before them. -/
theorem Built.stamp_depends (B : Built ctx ts ws outs q s w) (hm : RulesMake s) {a d : Str}
    (ha : B.parts.actionsStamp = some a) (hd : B.parts.actionsDepends = some d) : Waits (ninjaEdges ws) a d := by
  have hne : w.steps.outputs ≠ [] := by
    intro h
    have := (collapsed_some B.parts.hstamp).1.mpr h
    rw [ha] at this
    exact nomatch this
  obtain ⟨o, ho, hw⟩ := ((ninjaSteps_some B.parts.hsteps).2.2 (ninjaEdges ws) (fun e he => B.steps_mem he) d hd).2 hm hne
  obtain ⟨a', ha', hw'⟩ := B.stamp_waits (((ninjaSteps_some B.parts.hsteps).1 o).mp ho)
  rw [ha] at ha'
  cases ha'
  exact hw'.trans hw

theorem Built.ready (B : Built ctx ts ws outs q s w) (hm : RulesMake s) {d : Str}
    (hd : B.parts.actionsDepends = some d) :
    ∃ p, B.parts.actionsStamp.or B.parts.actionsDepends = some p ∧ Waits (ninjaEdges ws) p d := by
  cases ha : B.parts.actionsStamp with
  | none => exact ⟨d, by simp [hd], .refl _⟩
  | some a => exact ⟨a, by simp, B.stamp_depends hm ha hd⟩

/-- A target that is not recorded needs no target that is. -/
theorem Built.unrecorded (A : AllBuilt ctx ts ws outs) (B : Built ctx ts ws outs q s w) (h : aget outs q = none) :
    B.parts.actionsStamp = none ∧ B.parts.actionsDepends = none ∧ ∀ d ∈ s.dependencies, aget outs d = none := by
  have h12 : B.parts.actionsStamp = none ∧ B.parts.actionsDepends = none := by
    rcases B.parts.hend with ⟨-, h1, h2, -, -⟩ | ⟨hw, ht⟩
    · exact ⟨h1, h2⟩
    · rw [B.target, ht] at h
      split at h
      · rename_i hb
        rcases writeTarget_some hw with ⟨-, h2, -⟩ | ⟨e, out, -, h2, -⟩
        · rw [h2] at hb
          cases ha : B.parts.actionsStamp with
          | none => rw [ha] at hb; simp at hb; exact ⟨rfl, hb⟩
          | some a => rw [ha] at hb; simp at hb
        · rw [h2] at hb; exact nomatch hb
      · exact nomatch h
  refine ⟨h12.1, h12.2, ?_⟩
  intro d hd
  cases hdt : aget outs d with
  | none => rfl
  | some t =>
    obtain ⟨s', hs'⟩ := A.known d t hdt
    obtain ⟨w', ⟨B'⟩⟩ := A.each d s' hs'
    obtain ⟨out, -, -, -, -, ⟨p, hp, -⟩, -⟩ := B'.recorded hdt
    obtain ⟨a, ha, -⟩ := B.actionsDepends_waits hd hdt hp
    rw [h12.2] at ha
    exact nomatch ha

/-- Something a needed target makes. -/
def NeededFile (ctx : Str → NinjaCtx) (ts : List (Str × NSpec)) (outs : List (Str × NTarget)) (d o : Str) : Prop :=
  (∃ s, (d, s) ∈ ts ∧ StepOutput (ctx d) s o) ∨ (∃ t, aget outs d = some t ∧ t.finalOutput = some o)

theorem unrecorded_needs (A : AllBuilt ctx ts ws outs) {q d : Str} (h : aget outs q = none) (hn : NeedsTarget ts q d) :
    ∀ o, ¬ NeededFile ctx ts outs d o := by
  have step : ∀ {d}, aget outs d = none → ∀ o, ¬ NeededFile ctx ts outs d o := by
    intro d hd o ho
    rcases ho with ⟨s', hs', ho⟩ | ⟨t, ht, -⟩
    · obtain ⟨w', ⟨B'⟩⟩ := A.each d s' hs'
      obtain ⟨a, ha, -⟩ := B'.stamp_waits ho
      rw [(B'.unrecorded A hd).1] at ha
      exact nomatch ha
    · rw [hd] at ht; exact nomatch ht
  induction hn with
  | @one q d s hq hd =>
    obtain ⟨w, ⟨B⟩⟩ := A.each q s hq
    exact step ((B.unrecorded A h).2.2 d hd)
  | @more q d e s hq hd _ ih =>
    obtain ⟨w, ⟨B⟩⟩ := A.each q s hq
    exact ih ((B.unrecorded A h).2.2 d hd)

/-- What a recorded target waits for: its own steps and all that the targets it needs make. -/
theorem Built.own (B : Built ctx ts ws outs q s w) {t : NTarget} (h : aget outs q = some t) {o : Str}
    (ho : StepOutput (ctx q) s o ∨ t.finalOutput = some o) :
    ∀ i, t.preActionInput = some i → Waits (ninjaEdges ws) i o := by
  obtain ⟨out, h1, h2, -, -, ⟨p, hp, hpw⟩, h6, -⟩ := B.recorded h
  intro i hi
  rcases ho with ho | ho
  · obtain ⟨a, ha, hw⟩ := B.stamp_waits ho
    exact ((h6 a (by simp [ha])).2 i hi).trans hw
  · rw [h2] at ho; cases ho
    rw [hp] at hi; cases hi
    exact hpw

theorem needs_final (A : AllBuilt ctx ts ws outs) (hm : ∀ q s, (q, s) ∈ ts → RulesMake s) {q d : Str}
    (hn : NeedsTarget ts q d) {t : NTarget} (h : aget outs q = some t) {o : Str} (ho : NeededFile ctx ts outs d o) :
    (∀ f, t.finalOutput = some f → Waits (ninjaEdges ws) f o) ∧
      ∀ i, t.preActionInput = some i → Waits (ninjaEdges ws) i o := by
  have lift : ∀ {q d s t td i}, (q, s) ∈ ts → d ∈ s.dependencies → aget outs q = some t → aget outs d = some td →
      td.preActionInput = some i → Waits (ninjaEdges ws) i o →
      (∀ f, t.finalOutput = some f → Waits (ninjaEdges ws) f o) ∧
        ∀ j, t.preActionInput = some j → Waits (ninjaEdges ws) j o := by
    intro q d s t td i hq hd ht htd hi hw
    obtain ⟨w, ⟨B⟩⟩ := A.each q s hq
    obtain ⟨a, ha, haw⟩ := B.actionsDepends_waits hd htd hi
    obtain ⟨p, hp, hpw⟩ := B.ready (hm q s hq) ha
    obtain ⟨out, h1, h2, -, -, -, h6, -⟩ := B.recorded ht
    refine ⟨?_, ?_⟩
    · intro f hf
      rw [h2] at hf; cases hf
      exact (h6 p hp).1.trans (hpw.trans (haw.trans hw))
    · intro j hj
      exact ((h6 p hp).2 j hj).trans (hpw.trans (haw.trans hw))
  induction hn generalizing t with
  | @one q d s hq hd =>
    have hdo : ∃ td, aget outs d = some td := by
      cases hdt : aget outs d with
      | some td => exact ⟨td, rfl⟩
      | none =>
        exfalso
        rcases ho with ⟨s', hs', ho⟩ | ⟨t', ht', -⟩
        · obtain ⟨w', ⟨B'⟩⟩ := A.each d s' hs'
          obtain ⟨a, ha, -⟩ := B'.stamp_waits ho
          rw [(B'.unrecorded A hdt).1] at ha
          exact nomatch ha
        · rw [hdt] at ht'; exact nomatch ht'
    obtain ⟨td, htd⟩ := hdo
    obtain ⟨s', hs'⟩ := A.known d td htd
    obtain ⟨w', ⟨B'⟩⟩ := A.each d s' hs'
    obtain ⟨out, -, -, -, -, ⟨i, hi, -⟩, -⟩ := B'.recorded htd
    refine lift hq hd h htd hi (B'.own htd ?_ i hi)
    rcases ho with ⟨s'', hs'', ho⟩ | ⟨t', ht', ho⟩
    · rw [inOrder_unique A.order hs'' hs'] at ho
      exact Or.inl ho
    · rw [htd] at ht'; cases ht'
      exact Or.inr ho
  | @more q d e s hq hd hne ih =>
    cases htd : aget outs d with
    | none => exact absurd ho (unrecorded_needs A htd hne o)
    | some td =>
      obtain ⟨s', hs'⟩ := A.known d td htd
      obtain ⟨w', ⟨B'⟩⟩ := A.each d s' hs'
      obtain ⟨out, -, -, -, -, ⟨i, hi, -⟩, -⟩ := B'.recorded htd
      exact lift hq hd h htd hi ((ih htd ho).2 i hi)

/-- What sources wait for. -/
theorem needs_compile (A : AllBuilt ctx ts ws outs) (hm : ∀ q s, (q, s) ∈ ts → RulesMake s) {q d : Str}
    (hn : NeedsTarget ts q d) {o : Str} (ho : ∃ s, (d, s) ∈ ts ∧ StepOutput (ctx d) s o)
    (B : Built ctx ts ws outs q s w) :
    ∃ p, B.parts.actionsStamp.or B.parts.compileDepends = some p ∧ Waits (ninjaEdges ws) p o := by
  have hno : NeededFile ctx ts outs d o := Or.inl ho
  -- when the target has steps, they wait for everything
  have steps : ∀ {q s w} (B : Built ctx ts ws outs q s w) {d1 td i}, d1 ∈ s.dependencies → aget outs d1 = some td →
      td.preActionInput = some i → Waits (ninjaEdges ws) i o → ∀ a, B.parts.actionsStamp = some a →
      Waits (ninjaEdges ws) a o := by
    intro q s w B d1 td i hd htd hi hw a ha
    obtain ⟨b, hb, hbw⟩ := B.actionsDepends_waits hd htd hi
    exact (B.stamp_depends (hm q s B.spec) ha hb).trans (hbw.trans hw)
  induction hn generalizing s w with
  | @one q d s0 hq hd =>
    have hs := inOrder_unique A.order hq B.spec
    subst hs
    obtain ⟨s', hs', ho'⟩ := ho
    obtain ⟨w', ⟨B'⟩⟩ := A.each d s' hs'
    obtain ⟨a', ha', hw'⟩ := B'.stamp_waits ho'
    cases htd : aget outs d with
    | none => rw [(B'.unrecorded A htd).1] at ha'; exact nomatch ha'
    | some td =>
      obtain ⟨out, -, -, -, h4, ⟨i, hi, -⟩, h6, -⟩ := B'.recorded htd
      cases ha : B.parts.actionsStamp with
      | some a => exact ⟨a, by simp, steps B hd htd hi (B'.own htd (Or.inl ho') i hi) a ha⟩
      | none =>
        obtain ⟨c, hc, hcw⟩ := B.compileDepends_waits hd htd (p := a') (by
          unfold NTarget.preCompileInput; rw [h4, ha']; rfl)
        exact ⟨c, by simp [hc], hcw.trans hw'⟩
  | @more q d e s0 hq hd hne ih =>
    have hs := inOrder_unique A.order hq B.spec
    subst hs
    cases htd : aget outs d with
    | none => exact absurd hno (unrecorded_needs A htd hne o)
    | some td =>
      obtain ⟨s', hs'⟩ := A.known d td htd
      obtain ⟨w', ⟨B'⟩⟩ := A.each d s' hs'
      obtain ⟨out, -, -, h3, h4, ⟨i, hi, -⟩, h6, -⟩ := B'.recorded htd
      cases ha : B.parts.actionsStamp with
      | some a => exact ⟨a, by simp, steps B hd htd hi ((needs_final A hm hne htd hno).2 i hi) a ha⟩
      | none =>
        obtain ⟨p, hp, hpw⟩ := ih ho B' hno
        obtain ⟨c, hc, hcw⟩ := B.compileDepends_waits hd htd (p := p) (by
          unfold NTarget.preCompileInput; rw [h3, h4]; exact hp)
        exact ⟨c, by simp [hc], hcw.trans hpw⟩

/-- What steps of a target wait for, when it needs targets with something to build. -/
theorem Built.needs_input (A : AllBuilt ctx ts ws outs) (hm : ∀ q s, (q, s) ∈ ts → RulesMake s)
    (B : Built ctx ts ws outs q s w) {d o : Str} (hn : NeedsTarget ts q d) (hno : NeededFile ctx ts outs d o) :
    ∃ a, B.parts.actionsDepends = some a ∧ Waits (ninjaEdges ws) a o := by
  have ho := A.order
  have hrec : ∃ d1 td i, d1 ∈ s.dependencies ∧ aget outs d1 = some td ∧ td.preActionInput = some i ∧
      Waits (ninjaEdges ws) i o := by
    cases hn with
    | @one _ _ s0 hq hd =>
      have hs0 := inOrder_unique ho hq B.spec
      subst hs0
      cases htd : aget outs d with
      | none =>
        exfalso
        rcases hno with ⟨s', hs', hso⟩ | ⟨t', ht', -⟩
        · obtain ⟨w', ⟨B'⟩⟩ := A.each d s' hs'
          obtain ⟨a, ha, -⟩ := B'.stamp_waits hso
          rw [(B'.unrecorded A htd).1] at ha
          exact nomatch ha
        · rw [htd] at ht'; exact nomatch ht'
      | some td =>
        obtain ⟨s', hs'⟩ := A.known d td htd
        obtain ⟨w', ⟨B'⟩⟩ := A.each d s' hs'
        obtain ⟨out, -, -, -, -, ⟨i, hi, -⟩, -⟩ := B'.recorded htd
        refine ⟨d, td, i, hd, htd, hi, B'.own htd ?_ i hi⟩
        rcases hno with ⟨s'', hs'', hso⟩ | ⟨t', ht', hf⟩
        · rw [inOrder_unique ho hs'' hs'] at hso
          exact Or.inl hso
        · rw [htd] at ht'; cases ht'
          exact Or.inr hf
    | @more _ d1 _ s0 hq hd hne =>
      have hs0 := inOrder_unique ho hq B.spec
      subst hs0
      cases htd : aget outs d1 with
      | none => exact absurd hno (unrecorded_needs A htd hne o)
      | some td =>
        obtain ⟨s', hs'⟩ := A.known d1 td htd
        obtain ⟨w', ⟨B'⟩⟩ := A.each d1 s' hs'
        obtain ⟨out, -, -, -, -, ⟨i, hi, -⟩, -⟩ := B'.recorded htd
        exact ⟨d1, td, i, hd, htd, hi, (needs_final A hm hne htd hno).2 i hi⟩
  obtain ⟨d1, td, i, hd, htd, hi, hiw⟩ := hrec
  obtain ⟨a, ha, haw⟩ := B.actionsDepends_waits hd htd hi
  exact ⟨a, ha, haw.trans hiw⟩

end

/-! ### The claims -/

/-- C100: a source of a target is compiled only when everything that actions, rules and copies of the target, and of
all targets it needs, directly or through others, make has been made. -/
theorem C100_compile (ctx : Str → NinjaCtx) (ts : List (Str × NSpec)) (ws : List (Str × NWritten))
    (outs : List (Str × NTarget)) (ho : InOrder ts) (hm : ∀ q s, (q, s) ∈ ts → RulesMake s)
    (h : ninjaTargets ctx ts [] = some (ws, outs))
    (q d o : Str) (w : NWritten) (s : NSpec) (e : NEdge) (hw : (q, w) ∈ ws) (he : e ∈ w.compiles)
    (hd : d = q ∨ NeedsTarget ts q d) (hs : (d, s) ∈ ts) (hso : StepOutput (ctx d) s o) :
    RunsAfter (ninjaEdges ws) e o := by
  have A := allBuilt ho h
  obtain ⟨sq, ⟨B⟩⟩ := A.from_ q w hw
  have hw : ∃ p, B.parts.actionsStamp.or B.parts.compileDepends = some p ∧ Waits (ninjaEdges ws) p o := by
    rcases hd with rfl | hd
    · have := inOrder_unique ho hs B.spec
      subst this
      obtain ⟨a, ha, hw⟩ := B.stamp_waits hso
      exact ⟨a, by simp [ha], hw⟩
    · exact needs_compile A hm hd ⟨s, hs, hso⟩ B
  obtain ⟨p, hp, hpw⟩ := hw
  refine ⟨p, ?_, hpw⟩
  obtain ⟨src, -, i, out, -, -, -, hee⟩ := (ninjaCompiles_some B.parts.hcompiles).1 e he
  rw [hee, hp]
  simp

/-- C100: a product of a target is made only when its sources are compiled, its actions, rules and copies have run,
and the targets that it needs are built, directly or through others. -/
theorem C100_link (ctx : Str → NinjaCtx) (ts : List (Str × NSpec)) (ws : List (Str × NWritten))
    (outs : List (Str × NTarget)) (ho : InOrder ts) (hm : ∀ q s, (q, s) ∈ ts → RulesMake s)
    (h : ninjaTargets ctx ts [] = some (ws, outs))
    (q d o : Str) (w : NWritten) (s : NSpec) (e : NEdge) (hw : (q, w) ∈ ws) (he : e ∈ w.link)
    (ho' : (∃ c ∈ w.compiles, o ∈ c.outputs) ∨
      ((d = q ∨ NeedsTarget ts q d) ∧ (d, s) ∈ ts ∧ StepOutput (ctx d) s o) ∨
      (NeedsTarget ts q d ∧ ∃ t, aget outs d = some t ∧ t.finalOutput = some o)) :
    RunsAfter (ninjaEdges ws) e o := by
  have A := allBuilt ho h
  obtain ⟨sq, ⟨B⟩⟩ := A.from_ q w hw
  rcases B.parts.hend with ⟨-, -, -, hl, -⟩ | ⟨hwt, ht⟩
  · rw [hl] at he; simp at he
  · rcases writeTarget_some hwt with ⟨-, -, hl⟩ | ⟨e', out, hl, hb, hout, hord, hin, -⟩
    · rw [hl] at he; simp at he
    · rw [hl, List.mem_singleton] at he
      subst he
      have viaReady : ∀ p, B.parts.actionsStamp.or B.parts.actionsDepends = some p → Waits (ninjaEdges ws) p o →
          RunsAfter (ninjaEdges ws) e o := by
        intro p hp hpw
        exact ⟨p, by rw [hord, hp]; simp, hpw⟩
      have viaDep : ∀ {d}, NeedsTarget ts q d → NeededFile ctx ts outs d o → RunsAfter (ninjaEdges ws) e o := by
        intro d hn hno
        obtain ⟨a, ha, haw⟩ := B.needs_input A hm hn hno
        obtain ⟨p, hp, hpw⟩ := B.ready (hm q sq B.spec) ha
        exact viaReady p hp (hpw.trans haw)
      rcases ho' with ⟨c, hc, hco⟩ | ⟨hd, hs, hso⟩ | ⟨hn, hf⟩
      · refine ⟨o, ?_, .refl _⟩
        have := hin o (List.mem_append_left _ (List.mem_flatMap.mpr ⟨c, hc, hco⟩))
        simp [this]
      · rcases hd with rfl | hn
        · have := inOrder_unique ho hs B.spec
          subst this
          obtain ⟨a, ha, haw⟩ := B.stamp_waits hso
          exact viaReady a (by simp [ha]) haw
        · exact viaDep hn (Or.inl ⟨s, hs, hso⟩)
      · exact viaDep hn (Or.inr hf)

/-- C100: the file that stands for a target waits for all that its actions, rules and copies and those of targets it
needs make, for the files that stand for these targets, and for its own product. -/
theorem C100_final (ctx : Str → NinjaCtx) (ts : List (Str × NSpec)) (ws : List (Str × NWritten))
    (outs : List (Str × NTarget)) (ho : InOrder ts) (hm : ∀ q s, (q, s) ∈ ts → RulesMake s)
    (h : ninjaTargets ctx ts [] = some (ws, outs))
    (q d o f : Str) (w : NWritten) (s : NSpec) (t : NTarget) (hw : (q, w) ∈ ws) (ht : aget outs q = some t)
    (hf : t.finalOutput = some f)
    (ho' : (∃ l ∈ w.link, o ∈ l.outputs) ∨ ((d = q ∨ NeedsTarget ts q d) ∧ (d, s) ∈ ts ∧ StepOutput (ctx d) s o) ∨
      (NeedsTarget ts q d ∧ ∃ t, aget outs d = some t ∧ t.finalOutput = some o)) :
    Waits (ninjaEdges ws) f o := by
  have A := allBuilt ho h
  obtain ⟨sq, ⟨B⟩⟩ := A.from_ q w hw
  obtain ⟨out, h1, h2, -, -, -, h6, h7⟩ := B.recorded ht
  rw [h2] at hf; cases hf
  rcases ho' with ⟨l, hl, hlo⟩ | ⟨hd, hs, hso⟩ | ⟨hn, hfo⟩
  · exact h7 l hl o hlo
  · rcases hd with rfl | hn
    · have := inOrder_unique ho hs B.spec
      subst this
      obtain ⟨a, ha, haw⟩ := B.stamp_waits hso
      exact (h6 a (by simp [ha])).1.trans haw
    · exact (needs_final A hm hn ht (Or.inl ⟨s, hs, hso⟩)).1 f h2
  · exact (needs_final A hm hn ht (Or.inr hfo)).1 f h2

/-- C100: a target that no file stands for has no actions, rules or copies that make something, has no product, and
neither have the targets it needs. -/
theorem C100_nothing (ctx : Str → NinjaCtx) (ts : List (Str × NSpec)) (ws : List (Str × NWritten))
    (outs : List (Str × NTarget)) (ho : InOrder ts) (h : ninjaTargets ctx ts [] = some (ws, outs))
    (q : Str) (w : NWritten) (hw : (q, w) ∈ ws) (hq : aget outs q = none) :
    w.link = [] ∧ ∀ d s, d = q ∨ NeedsTarget ts q d → (d, s) ∈ ts → ∀ o, ¬ StepOutput (ctx d) s o := by
  have A := allBuilt ho h
  obtain ⟨sq, ⟨B⟩⟩ := A.from_ q w hw
  refine ⟨?_, ?_⟩
  · rcases B.parts.hend with ⟨-, -, -, hl, -⟩ | ⟨hwt, ht⟩
    · exact hl
    · rcases writeTarget_some hwt with ⟨-, -, hl⟩ | ⟨e', out, hl, hb, -⟩
      · exact hl
      · rw [B.target, ht, hb] at hq
        simp at hq
  · intro d s hd hs o hso
    rcases hd with rfl | hn
    · have := inOrder_unique ho hs B.spec
      subst this
      obtain ⟨a, ha, -⟩ := B.stamp_waits hso
      rw [(B.unrecorded A hq).1] at ha
      exact nomatch ha
    · exact unrecorded_needs A hq hn o (Or.inl ⟨s, hs, hso⟩)

/-- An order can be checked. -/
def inOrderFrom (all : List Str) : List Str → List (Str × NSpec) → Bool
  | _, [] => true
  | seen, (q, s) :: rest =>
    q ∉ seen && s.dependencies.all (fun d => d ∉ all || d ∈ seen) && inOrderFrom all (seen ++ [q]) rest

theorem inOrder_of_check {ts : List (Str × NSpec)} (h : inOrderFrom (ts.map Prod.fst) [] ts = true) : InOrder ts := by
  have key : ∀ (all : List Str) (rest : List (Str × NSpec)) (seen : List Str), inOrderFrom all seen rest = true →
      ∀ a q s b, rest = a ++ (q, s) :: b →
        q ∉ seen ++ a.map Prod.fst ∧ ∀ d ∈ s.dependencies, d ∈ all → d ∈ seen ++ a.map Prod.fst := by
    intro all rest
    induction rest with
    | nil => intro seen _ a q s b h; simp at h
    | cons r rest ih =>
      obtain ⟨q0, s0⟩ := r
      intro seen h a q s b hab
      unfold inOrderFrom at h
      simp only [Bool.and_eq_true, decide_eq_true_eq, List.all_eq_true, Bool.or_eq_true] at h
      cases a with
      | nil =>
        simp only [List.nil_append, List.cons.injEq, Prod.mk.injEq] at hab
        obtain ⟨⟨rfl, rfl⟩, -⟩ := hab
        refine ⟨by simpa using h.1.1, ?_⟩
        intro d hd hda
        rcases h.1.2 d hd with h' | h'
        · exact absurd hda h'
        · simpa using h'
      | cons a0 a =>
        simp only [List.cons_append, List.cons.injEq] at hab
        obtain ⟨rfl, hab⟩ := hab
        have := ih (seen ++ [q0]) h.2 a q s b hab
        simpa using this
  intro a q s b hab
  have := key _ ts [] h a q s b hab
  simpa using this

namespace NinjaExample

def ctx (q : Str) : NinjaCtx := ninjaCtx [c!"r"] c!"." c!"src" c!"out" q c!"target" c!"Debug" q

/-- A header that an action makes, a static library that needs it, and a program that needs the library. -/
def targets : List (Str × NSpec) :=
  [(c!"gen", { product := { type := c!"none", targetName := c!"gen" }
               actions := [{ name := c!"make", action := [c!"make.py"], inputs := [c!"in.txt"],
                             outputs := [c!"$!PRODUCT_DIR/gen.h", c!"$!PRODUCT_DIR/more.h"] }] }),
   (c!"lib", { product := { type := c!"static_library", targetName := c!"lib" }
               dependencies := [c!"gen"], sources := [c!"lib.cc"] }),
   (c!"app", { product := { type := c!"executable", targetName := c!"app" }
               dependencies := [c!"lib"], sources := [c!"app.c"] })]

def stamp : Str := c!"obj/src/gen.actions" ++ c!"_rules_copies.stamp"

end NinjaExample

set_option synthInstance.maxSize 1024 in
open NinjaExample in
example : InOrder targets ∧ (∀ q s, (q, s) ∈ targets → RulesMake s) ∧
    ((ninjaTargets ctx targets []).map fun r => (ninjaEdges r.1).map fun e => (e.outputs, e.command, e.inputs ++ e.implicit, e.orderOnly)) =
      some [([c!"gen.h", c!"more.h"], c!"gen_target_make_gen", [c!"../src/in.txt"], []),
        ([stamp], c!"stamp", [c!"gen.h", c!"more.h"], []),
        ([c!"obj/src/lib.lib.o"], c!"cxx", [c!"../src/lib.cc"], [stamp]),
        ([c!"obj/src/lib.a"], c!"alink_thin", [c!"obj/src/lib.lib.o"], [stamp]),
        ([c!"obj/src/app.app.o"], c!"cc", [c!"../src/app.c"], [stamp]),
        ([c!"app"], c!"link", [c!"obj/src/app.app.o", c!"obj/src/lib.a"], [c!"obj/src/lib.a"])] := by
  refine ⟨inOrder_of_check (by decide), ?_, by decide +kernel⟩
  intro q s h
  simp only [targets, List.mem_cons, List.not_mem_nil, or_false, Prod.mk.injEq] at h
  rcases h with ⟨-, rfl⟩ | ⟨-, rfl⟩ | ⟨-, rfl⟩ <;> intro r hr <;> simp at hr

open NinjaExample in
example : NeedsTarget targets c!"app" c!"gen" ∧ ∃ s, (c!"gen", s) ∈ targets ∧ StepOutput (ctx c!"gen") s c!"gen.h" := by
  refine ⟨.more (List.mem_cons_of_mem _ (List.mem_cons_of_mem _ (List.mem_cons_self))) (List.mem_singleton.mpr rfl)
    (.one (List.mem_cons_of_mem _ (List.mem_cons_self)) (List.mem_singleton.mpr rfl)), _, List.mem_cons_self, ?_⟩
  exact .action _ c!"$!PRODUCT_DIR/gen.h" (List.mem_singleton.mpr rfl) (by decide) (by decide +kernel)

/-- C100: a target of type `none` with sources: the sources have statements, but the target is not built by them. -/
theorem C100_none_witness :
    (ninjaTargets NinjaExample.ctx [(c!"n", { product := { type := c!"none", targetName := c!"n" }, sources := [c!"a.c"] })] []).map
      (fun r => ((ninjaEdges r.1).map (·.outputs), r.2)) = some ([[c!"obj/src/n.a.o"]], []) := by decide +kernel

theorem ninjaTargets_keys {ctx : Str → NinjaCtx} {ts : List (Str × NSpec)} {o outs : List (Str × NTarget)}
    {ws : List (Str × NWritten)} (hn : (akeys o).Nodup) (h : ninjaTargets ctx ts o = some (ws, outs)) :
    (akeys outs).Nodup := by
  induction ts generalizing o ws with
  | nil => unfold ninjaTargets at h; cases h; exact hn
  | cons t ts ih =>
    obtain ⟨q, s⟩ := t
    unfold ninjaTargets at h
    split at h
    · exact nomatch h
    · rename_i w hw
      simp only at h
      split at h
      · exact nomatch h
      · rename_i ws' outs' hr
        cases h
        refine ih ?_ hr
        split
        · exact akeys_aset_nodup hn _ _
        · exact hn

/-- C100: `all` is made from exactly the files that stand for the targets that are asked for. -/
theorem C100_all (ctx : Str → NinjaCtx) (ts : List (Str × NSpec)) (ws : List (Str × NWritten))
    (outs : List (Str × NTarget)) (h : ninjaTargets ctx ts [] = some (ws, outs)) (wanted : List Str) :
    (∀ e ∈ ninjaAll outs wanted, e.outputs = [c!"all"] ∧ e.command = c!"phony" ∧ e.inputs.Nodup ∧
      ∀ f, f ∈ e.inputs ++ e.implicit ++ e.orderOnly ↔
        ∃ q ∈ wanted, ∃ t, aget outs q = some t ∧ t.finalOutput = some f) ∧
    ((∃ q ∈ wanted, ∃ t f, aget outs q = some t ∧ t.finalOutput = some f) → (ninjaAll outs wanted).length = 1) := by
  have hk := ninjaTargets_keys (by simp [akeys]) h
  have hm : ∀ f, f ∈ (outs.filter (·.1 ∈ wanted)).filterMap (fun o => o.2.finalOutput) ↔
      ∃ q ∈ wanted, ∃ t, aget outs q = some t ∧ t.finalOutput = some f := by
    intro f
    rw [List.mem_filterMap]
    constructor
    · rintro ⟨⟨q, t⟩, hq, hf⟩
      rw [List.mem_filter] at hq
      exact ⟨q, of_decide_eq_true hq.2, t, aget_of_mem hk hq.1, hf⟩
    · rintro ⟨q, hq, t, ht, hf⟩
      exact ⟨(q, t), List.mem_filter.mpr ⟨aget_some_mem ht, decide_eq_true hq⟩, hf⟩
  unfold ninjaAll
  simp only
  refine ⟨?_, ?_⟩
  · intro e he
    split at he
    · simp at he
    · rw [List.mem_singleton] at he
      subst he
      refine ⟨rfl, rfl, ?_, ?_⟩
      · exact ((pySorted_perm strLe _).nodup_iff).mpr (nodup_foldl_listAdd _ _ List.nodup_nil)
      · intro f
        simp only [List.append_nil]
        rw [(pySorted_perm strLe _).mem_iff, mem_foldl_listAdd, ← hm f]
        simp
  · rintro ⟨q, hq, t, f, ht, hf⟩
    have := (hm f).mpr ⟨q, hq, t, ht, hf⟩
    rw [if_neg (List.ne_nil_of_mem this)]
    rfl

example : ((ninjaTargets NinjaExample.ctx NinjaExample.targets []).map fun r => ninjaAll r.2 [c!"app", c!"gen"]) =
    some [{ outputs := [c!"all"], command := c!"phony", inputs := [c!"app", NinjaExample.stamp] }] := by
  decide +kernel

/-! ### Names of targets -/

theorem ninjaShort_mem {ctx : Str → NinjaCtx} {ws : List (Str × NWritten)} {acc : List (Str × List Str)} (n f : Str) :
    f ∈ (aget (ninjaShort ctx ws acc) n).getD [] ↔ f ∈ (aget acc n).getD [] ∨
      ∃ q w, (q, w) ∈ ws ∧ w.target.bind NTarget.finalOutput = some f ∧ (ctx q).name = n ∧ n ≠ f ∧
        (ctx q).toolset = c!"target" := by
  induction ws generalizing acc with
  | nil => unfold ninjaShort; simp
  | cons a ws ih =>
    obtain ⟨q, w⟩ := a
    unfold ninjaShort
    split
    · rename_i hn
      rw [ih]
      apply or_congr Iff.rfl
      constructor
      · rintro ⟨q', w', hm, h⟩; exact ⟨q', w', by simp [hm], h⟩
      · rintro ⟨q', w', hm, h⟩
        rcases List.mem_cons.mp hm with hm | hm
        · cases hm; rw [hn] at h; exact nomatch h.1
        · exact ⟨q', w', hm, h⟩
    · rename_i g hg
      split
      · rename_i hc
        rw [ih, aget_aset]
        constructor
        · rintro (h | ⟨q', w', hm, h⟩)
          · split at h
            · rename_i hnn
              subst hnn
              simp only [Option.getD_some, List.mem_append, List.mem_singleton] at h
              rcases h with h | rfl
              · exact Or.inl h
              · exact Or.inr ⟨q, w, by simp, hg, rfl, hc.1, hc.2⟩
            · exact Or.inl h
          · exact Or.inr ⟨q', w', by simp [hm], h⟩
        · rintro (h | ⟨q', w', hm, h⟩)
          · left
            split
            · rename_i hnn
              subst hnn
              simp [h]
            · exact h
          · rcases List.mem_cons.mp hm with hm | hm
            · cases hm
              rw [hg] at h
              left
              rw [if_pos h.2.1.symm]
              simp [Option.some.inj h.1]
            · exact Or.inr ⟨q', w', hm, h⟩
      · rename_i hc
        rw [ih]
        apply or_congr Iff.rfl
        constructor
        · rintro ⟨q', w', hm, h⟩; exact ⟨q', w', by simp [hm], h⟩
        · rintro ⟨q', w', hm, h⟩
          rcases List.mem_cons.mp hm with hm | hm
          · cases hm
            rw [hg] at h
            obtain ⟨h1, h2, h3, h4⟩ := h
            cases h1
            subst h2
            exact absurd ⟨h3, h4⟩ hc
          · exact ⟨q', w', hm, h⟩

theorem ninjaShort_keys {ctx : Str → NinjaCtx} {ws : List (Str × NWritten)} {acc : List (Str × List Str)}
    (hn : (akeys acc).Nodup) : (akeys (ninjaShort ctx ws acc)).Nodup := by
  induction ws generalizing acc with
  | nil => exact hn
  | cons a ws ih =>
    obtain ⟨q, w⟩ := a
    unfold ninjaShort
    split
    · exact ih hn
    · split
      · exact ih (akeys_aset_nodup hn _ _)
      · exact ih hn

theorem ninjaShort_full {ctx : Str → NinjaCtx} {ws : List (Str × NWritten)} {acc : List (Str × List Str)} :
    ∀ n ∈ akeys (ninjaShort ctx ws acc), n ∈ akeys acc ∨ ∃ q w, (q, w) ∈ ws ∧ w.target.isSome ∧ (ctx q).name = n := by
  induction ws generalizing acc with
  | nil => intro n h; exact Or.inl h
  | cons a ws ih =>
    obtain ⟨q, w⟩ := a
    unfold ninjaShort
    intro n h
    have lift : ∀ {P : Prop}, (P ∨ ∃ q w, (q, w) ∈ ws ∧ w.target.isSome ∧ (ctx q).name = n) →
        P ∨ ∃ q' w', (q', w') ∈ (q, w) :: ws ∧ w'.target.isSome ∧ (ctx q').name = n := by
      rintro P (h | ⟨q', w', h1, h2⟩)
      · exact Or.inl h
      · exact Or.inr ⟨q', w', by simp [h1], h2⟩
    split at h
    · exact lift (ih n h)
    · rename_i g hg
      split at h
      · rcases ih n h with h | h
        · rw [mem_akeys_aset] at h
          rcases h with h | h
          · refine Or.inr ⟨q, w, by simp, ?_, h.symm⟩
            cases ht : w.target with
            | none => rw [ht] at hg; exact nomatch hg
            | some t => rfl
          · exact Or.inl h
        · exact lift (Or.inr h)
      · exact lift (ih n h)

/-- C100: the name of a target of the toolset `target` can be asked for: it is the file that stands for the target, or
a statement makes it from exactly the files that stand for the targets of this name; and the name of a target with
nothing to build can be asked for too.  No name has two of these statements. -/
theorem C100_names (ctx : Str → NinjaCtx) (ts : List (Str × NSpec)) (ws : List (Str × NWritten))
    (outs : List (Str × NTarget)) (ho : InOrder ts) (h : ninjaTargets ctx ts [] = some (ws, outs)) :
    (∀ q s, (q, s) ∈ ts → ∀ t f, aget outs q = some t → t.finalOutput = some f → (ctx q).toolset = c!"target" →
      (ctx q).name = f ∨ ∃ e ∈ ninjaShortEdges ctx ws, e.outputs = [(ctx q).name] ∧ f ∈ e.inputs) ∧
    (∀ e ∈ ninjaShortEdges ctx ws, ∃ n, e.outputs = [n] ∧ ∀ f ∈ e.inputs, ∃ q s t, (q, s) ∈ ts ∧ aget outs q = some t ∧
      t.finalOutput = some f ∧ (ctx q).name = n ∧ (ctx q).toolset = c!"target") ∧
    (∀ q s, (q, s) ∈ ts → aget outs q = none →
      (∃ e ∈ ninjaEmptyEdges ctx ws, e.outputs = [(ctx q).name] ∧ e.inputs = []) ∨
      ∃ q' t, aget outs q' = some t ∧ (ctx q').name = (ctx q).name) ∧
    ((ninjaShortEdges ctx ws ++ ninjaEmptyEdges ctx ws).flatMap NEdge.outputs).Nodup := by
  have A := allBuilt ho h
  have hkeys : (akeys (ninjaShort ctx ws [])).Nodup := ninjaShort_keys (by simp [akeys])
  have hperm := pySorted_perm (fun a b : Str × List Str => strLe a.1 b.1) (ninjaShort ctx ws [])
  refine ⟨?_, ?_, ?_, ?_⟩
  · intro q s hq t f ht hf htool
    by_cases hnf : (ctx q).name = f
    · exact Or.inl hnf
    · right
      obtain ⟨w, ⟨B⟩⟩ := A.each q s hq
      have hm := (ninjaShort_mem (ctx := ctx) (ws := ws) (acc := []) (ctx q).name f).mpr
        (Or.inr ⟨q, w, B.written, by rw [← B.target, ht]; exact hf, rfl, hnf, htool⟩)
      cases hg : aget (ninjaShort ctx ws []) (ctx q).name with
      | none => rw [hg] at hm; simp at hm
      | some fs =>
        rw [hg] at hm
        exact ⟨_, List.mem_map.mpr ⟨_, hperm.mem_iff.mpr (aget_some_mem hg), rfl⟩, rfl, hm⟩
  · intro e he
    obtain ⟨⟨n, fs⟩, hx, rfl⟩ := List.mem_map.mp he
    refine ⟨n, rfl, ?_⟩
    intro f hf
    have hx := aget_of_mem hkeys (hperm.mem_iff.mp hx)
    rcases (ninjaShort_mem (ctx := ctx) (ws := ws) (acc := []) n f).mp (by rw [hx]; exact hf) with h | ⟨q, w, hw, h1, h2, -, h4⟩
    · simp [aget] at h
    · obtain ⟨s, ⟨B⟩⟩ := A.from_ q w hw
      cases ht : w.target with
      | none => rw [ht] at h1; exact nomatch h1
      | some t =>
        rw [ht] at h1
        exact ⟨q, s, t, B.spec, by rw [B.target, ht], h1, h2, h4⟩
  · intro q s hq hnone
    obtain ⟨w, ⟨B⟩⟩ := A.each q s hq
    by_cases hfull : ∃ q' w', (q', w') ∈ ws ∧ w'.target.isSome = true ∧ (ctx q').name = (ctx q).name
    · obtain ⟨q', w', hw', h1, h2⟩ := hfull
      obtain ⟨s', ⟨B'⟩⟩ := A.from_ q' w' hw'
      obtain ⟨t, ht⟩ := Option.isSome_iff_exists.mp h1
      exact Or.inr ⟨q', t, by rw [B'.target, ht], h2⟩
    · left
      refine ⟨_, List.mem_map.mpr ⟨(ctx q).name, ?_, rfl⟩, rfl, rfl⟩
      rw [(pySorted_perm strLe _).mem_iff, mem_foldl_listAdd]
      refine Or.inl ?_
      rw [List.mem_filter]
      refine ⟨List.mem_map.mpr ⟨(q, w), List.mem_filter.mpr ⟨B.written, ?_⟩, rfl⟩, ?_⟩
      · rw [← B.target, hnone]; rfl
      · apply decide_eq_true
        intro hm
        obtain ⟨⟨q', w'⟩, h1, h2⟩ := List.mem_map.mp hm
        rw [List.mem_filter] at h1
        exact hfull ⟨q', w', h1.1, h1.2, h2⟩
  · rw [List.flatMap_append, List.nodup_append]
    have e1 : (ninjaShortEdges ctx ws).flatMap NEdge.outputs =
        akeys (pySorted (fun a b : Str × List Str => strLe a.1 b.1) (ninjaShort ctx ws [])) := by
      unfold ninjaShortEdges akeys
      generalize pySorted (fun a b : Str × List Str => strLe a.1 b.1) (ninjaShort ctx ws []) = l
      induction l with
      | nil => rfl
      | cons a l ih => simp only [List.map_cons, List.flatMap_cons, ih, List.singleton_append]
    have e2 : ∀ l : List Str, (l.map fun n => ({ outputs := [n], command := c!"phony", inputs := [] } : NEdge)).flatMap
        NEdge.outputs = l := by
      intro l
      induction l with
      | nil => rfl
      | cons a l ih => simp only [List.map_cons, List.flatMap_cons, ih, List.singleton_append]
    have hk : ∀ n, n ∈ akeys (pySorted (fun a b : Str × List Str => strLe a.1 b.1) (ninjaShort ctx ws [])) ↔
        n ∈ akeys (ninjaShort ctx ws []) := fun n => (hperm.map Prod.fst).mem_iff
    refine ⟨?_, ?_, ?_⟩
    · rw [e1]
      exact ((hperm.map Prod.fst).nodup_iff).mpr hkeys
    · unfold ninjaEmptyEdges
      simp only
      rw [e2]
      exact ((pySorted_perm strLe _).nodup_iff).mpr (nodup_foldl_listAdd _ _ List.nodup_nil)
    · rw [e1]
      unfold ninjaEmptyEdges
      simp only
      rw [e2]
      intro a ha b hb hab
      subst hab
      rw [hk] at ha
      rw [(pySorted_perm strLe _).mem_iff, mem_foldl_listAdd] at hb
      simp only [List.not_mem_nil, or_false, List.mem_filter] at hb
      have hb := of_decide_eq_true hb.2
      rcases ninjaShort_full a ha with h | ⟨q, w, h1, h2, h3⟩
      · simp [akeys] at h
      · exact hb (List.mem_map.mpr ⟨(q, w), List.mem_filter.mpr ⟨h1, h2⟩, h3⟩)

example : ((ninjaTargets NinjaExample.ctx NinjaExample.targets []).map fun r =>
      (ninjaShortEdges NinjaExample.ctx r.1).map fun e => (e.outputs, e.inputs)) =
    some [([c!"gen"], [NinjaExample.stamp]), ([c!"lib"], [c!"obj/src/lib.a"])] := by
  decide +kernel

/-- C100: a target named `all` gets a statement of that name beside the one for all targets. -/
theorem C100_all_witness :
    (ninjaTargets NinjaExample.ctx [(c!"all", { product := { type := c!"static_library", targetName := c!"all" }, sources := [c!"a.c"] })] []).map
      (fun r => (ninjaShortEdges NinjaExample.ctx r.1 ++ ninjaAll r.2 [c!"all"]).map (·.outputs)) =
    some [[c!"all"], [c!"all"]] := by decide +kernel

/-! ### Actions, rules and copies -/

/-- C102: an action, a rule or a copy of a target runs only when the targets it needs, directly or through others,
are built and their actions, rules and copies have run; for targets where no rule but the last has two inputs and
three sources.  Missing: the rules after one with two inputs and three sources (`C102_witness`). -/
theorem C102_steps_partial (ctx : Str → NinjaCtx) (ts : List (Str × NSpec)) (ws : List (Str × NWritten))
    (outs : List (Str × NTarget)) (ho : InOrder ts) (hm : ∀ q s, (q, s) ∈ ts → RulesMake s)
    (h : ninjaTargets ctx ts [] = some (ws, outs))
    (q d o : Str) (w : NWritten) (s sd : NSpec) (e : NEdge) (hq : (q, s) ∈ ts) (hw : (q, w) ∈ ws) (he : e ∈ w.steps.edges)
    (hfew : FewInputs s) (hn : NeedsTarget ts q d) (hd : (d, sd) ∈ ts)
    (ho' : StepOutput (ctx d) sd o ∨ ∃ t, aget outs d = some t ∧ t.finalOutput = some o) :
    RunsAfter (ninjaEdges ws) e o := by
  have A := allBuilt ho h
  obtain ⟨sq, ⟨B⟩⟩ := A.from_ q w hw
  have := inOrder_unique ho hq B.spec
  subst this
  obtain ⟨a, ha, haw⟩ := B.needs_input A hm hn (show NeededFile ctx ts outs d o by
    rcases ho' with h | h
    · exact Or.inl ⟨sd, hd, h⟩
    · exact Or.inr h)
  obtain ⟨m, hmm, hmw⟩ :=
    ((ninjaSteps_some B.parts.hsteps).2.2 (ninjaEdges ws) (fun e he => B.steps_mem he) a ha).1 hfew e he
  exact ⟨m, hmm, hmw.trans haw⟩

theorem ninjaActions_edge {x : NinjaCtx} {pre : Option Str} {as : List NAction} {t : NSteps}
    (h : ninjaActions x pre as = some t) : ∀ a ∈ as, ∃ e ∈ t.edges, e.command = ninjaRuleName x a.name ∧
      List.Forall₂ (fun p f => gypPathToNinja x p = some f) a.inputs e.inputs ∧
      List.Forall₂ (fun p f => gypPathToNinja x p = some f) a.outputs e.outputs := by
  induction as generalizing t with
  | nil => simp
  | cons b as ih =>
    unfold ninjaActions at h
    split at h
    · rename_i s u hs hu
      cases h
      intro a ha
      rcases List.mem_cons.mp ha with rfl | ha
      · unfold ninjaAction at hs
        split at hs
        · rename_i i o hi ho
          cases hs
          exact ⟨_, List.mem_append_left _ (List.mem_singleton.mpr rfl), rfl, mapM_eq_some hi, mapM_eq_some ho⟩
        · exact nomatch hs
      · obtain ⟨e, he, h⟩ := ih hu a ha
        exact ⟨e, List.mem_append_right _ he, h⟩
    · exact nomatch h

theorem ninjaRuleSources_edge {x : NinjaCtx} {r : NRule} {args implicit : List Str} {pre : Option Str} {ss : List Str}
    {t : NSteps} (h : ninjaRuleSources x r args implicit pre ss = some t) :
    ∀ src ∈ ss, ∃ e ∈ t.edges, e.command = ninjaRuleName x r.name ∧
      List.Forall₂ (fun p f => gypPathToNinja x p = some f) (ruleOutputsFor r src) e.outputs ∧
      (∃ f, gypPathToNinja x (normpath src) = some f ∧ e.inputs = [f]) ∧ e.implicit = implicit ∧
      e.bindings = ruleBindings x args src := by
  induction ss generalizing t with
  | nil => simp
  | cons b as ih =>
    unfold ninjaRuleSources at h
    split at h
    · rename_i s u hs hu
      cases h
      intro a ha
      rcases List.mem_cons.mp ha with rfl | ha
      · unfold ninjaRuleSource at hs
        split at hs
        · rename_i o i ho hi
          cases hs
          exact ⟨_, List.mem_append_left _ (List.mem_singleton.mpr rfl), rfl, mapM_eq_some ho, ⟨i, hi, rfl⟩, rfl, rfl⟩
        · exact nomatch hs
      · obtain ⟨e, he, h⟩ := ih hu a ha
        exact ⟨e, List.mem_append_right _ he, h⟩
    · exact nomatch h

theorem forall₂_mem {α β : Type} {R : α → β → Prop} {l : List α} {m : List β} (h : List.Forall₂ R l m) {a : α}
    (ha : a ∈ l) : ∃ b ∈ m, R a b := by
  induction h with
  | nil => simp at ha
  | cons h _ ih =>
    rcases List.mem_cons.mp ha with rfl | ha
    · exact ⟨_, by simp, h⟩
    · obtain ⟨b, hb, h⟩ := ih ha
      exact ⟨b, by simp [hb], h⟩

theorem ninjaRule_edge {x : NinjaCtx} {pre pre' : Option Str} {r : NRule} {t : NSteps}
    (h : ninjaRule x pre r = some (t, pre')) (E : List NEdge) (hE : ∀ e ∈ t.edges, e ∈ E) : ∀ src ∈ r.sources,
      ∃ action, r.action = some action ∧ ∃ e ∈ t.edges, e.command = ninjaRuleName x r.name ∧
      List.Forall₂ (fun p f => gypPathToNinja x p = some f) (ruleOutputsFor r src) e.outputs ∧
      (∃ f, gypPathToNinja x (normpath src) = some f ∧ e.inputs = [f]) ∧
      (∀ i ∈ r.inputs, ∃ f, gypPathToNinja x i = some f ∧ RunsAgain E e f) ∧
      e.bindings = ruleBindings x (action.map (expandSpecial x x.baseToBuild)) src := by
  intro src hsrc
  unfold ninjaRule at h
  split at h
  · rename_i h0
    rw [h0.2] at hsrc; simp at hsrc
  · split at h
    · rename_i action inputs ha hi
      simp only at h
      refine ⟨action, ha, ?_⟩
      split at h
      · split at h
        · exact nomatch h
        · rename_i stamp edges hc
          split at h
          · exact nomatch h
          · rename_i s hs
            cases h
            obtain ⟨e, he, h1, h2, h3, h4, h5⟩ := ninjaRuleSources_edge hs src hsrc
            refine ⟨e, List.mem_append_right _ he, h1, h2, h3, ?_, h5⟩
            intro i hri
            obtain ⟨f, hf, hfi⟩ := forall₂_mem (mapM_eq_some hi) hri
            refine ⟨f, hfi, ?_⟩
            unfold collapsed at hc
            split at hc
            · exact nomatch hc
            · split at hc
              · rename_i hn; subst hn; simp at hf
              · split at hc
                · split at hc
                  · exact nomatch hc
                  · rename_i st hst
                    cases hc
                    refine Or.inr ⟨st, by rw [h4]; simp, .make (hE _ (List.mem_append_left _ (List.mem_singleton.mpr rfl)))
                      (List.mem_singleton.mpr rfl) ?_⟩
                    simpa using hf
                · rename_i hlen
                  cases hc
                  left
                  have hl : inputs.length ≤ 1 := by
                    by_contra hcon
                    exact hlen (Or.inl (by omega))
                  rw [h4]
                  match inputs, hl, hf with
                  | [g], _, hf => simp only [List.mem_singleton] at hf; subst hf; simp
                  | [], _, hf => simp at hf
      · split at h
        · exact nomatch h
        · rename_i s hs
          cases h
          obtain ⟨e, he, h1, h2, h3, h4, h5⟩ := ninjaRuleSources_edge hs src hsrc
          refine ⟨e, he, h1, h2, h3, ?_, h5⟩
          intro i hri
          obtain ⟨f, hf, hfi⟩ := forall₂_mem (mapM_eq_some hi) hri
          exact ⟨f, hfi, Or.inl (by rw [h4]; simp [hf])⟩
    · exact nomatch h

theorem ninjaRules_edge {x : NinjaCtx} {pre : Option Str} {rs : List NRule} {t : NSteps}
    (h : ninjaRules x pre rs = some t) (E : List NEdge) (hE : ∀ e ∈ t.edges, e ∈ E) : ∀ r ∈ rs, ∀ src ∈ r.sources,
      ∃ action, r.action = some action ∧ ∃ e ∈ t.edges, e.command = ninjaRuleName x r.name ∧
      List.Forall₂ (fun p f => gypPathToNinja x p = some f) (ruleOutputsFor r src) e.outputs ∧
      (∃ f, gypPathToNinja x (normpath src) = some f ∧ e.inputs = [f]) ∧
      (∀ i ∈ r.inputs, ∃ f, gypPathToNinja x i = some f ∧ RunsAgain E e f) ∧
      e.bindings = ruleBindings x (action.map (expandSpecial x x.baseToBuild)) src := by
  induction rs generalizing pre t with
  | nil => simp
  | cons r0 rs ih =>
    unfold ninjaRules at h
    split at h
    · exact nomatch h
    · rename_i s pre' hs
      split at h
      · exact nomatch h
      · rename_i u hu
        cases h
        intro r hr src hsrc
        rcases List.mem_cons.mp hr with rfl | hr
        · obtain ⟨a, ha, e, he, h⟩ := ninjaRule_edge hs E (fun e he => hE e (List.mem_append_left _ he)) src hsrc
          exact ⟨a, ha, e, List.mem_append_left _ he, h⟩
        · obtain ⟨a, ha, e, he, h⟩ := ih hu (fun e he => hE e (List.mem_append_right _ he)) r hr src hsrc
          exact ⟨a, ha, e, List.mem_append_right _ he, h⟩

theorem ninjaCopies_edge {x : NinjaCtx} {pre : Option Str} {cs : List (Str × Str)} {t : NSteps}
    (h : ninjaCopies x pre cs = some t) : ∀ c ∈ cs, ∃ e ∈ t.edges, e.command = c!"copy" ∧
      ∃ a b, gypPathToNinja x (normpath c.2) = some a ∧ gypPathToNinja x (pathJoin c.1 (basename (normpath c.2))) = some b ∧
        e.inputs = [a] ∧ e.outputs = [b] := by
  induction cs generalizing t with
  | nil => simp
  | cons c cs ih =>
    obtain ⟨d, f⟩ := c
    unfold ninjaCopies at h
    split at h
    · rename_i s u hs hu
      cases h
      intro a ha
      rcases List.mem_cons.mp ha with rfl | ha
      · unfold ninjaCopy at hs
        simp only at hs
        split at hs
        · rename_i i o hi ho
          cases hs
          exact ⟨_, List.mem_append_left _ (List.mem_singleton.mpr rfl), rfl, i, o, hi, ho, rfl, rfl⟩
        · exact nomatch hs
      · obtain ⟨e, he, h⟩ := ih hu a ha
        exact ⟨e, List.mem_append_right _ he, h⟩
    · exact nomatch h

/-- C102: an action has a statement with its own command, that makes its outputs and runs again when one of its
inputs changes. -/
theorem C102_actions (ctx : Str → NinjaCtx) (ts : List (Str × NSpec)) (ws : List (Str × NWritten))
    (outs : List (Str × NTarget)) (ho : InOrder ts) (h : ninjaTargets ctx ts [] = some (ws, outs))
    (q : Str) (s : NSpec) (a : NAction) (hq : (q, s) ∈ ts) (ha : a ∈ s.actions) :
    ∃ e ∈ ninjaEdges ws, e.command = ninjaRuleName (ctx q) a.name ∧
      List.Forall₂ (fun p f => gypPathToNinja (ctx q) p = some f) a.outputs e.outputs ∧
      List.Forall₂ (fun p f => gypPathToNinja (ctx q) p = some f) a.inputs e.inputs := by
  obtain ⟨w, ⟨B⟩⟩ := (allBuilt ho h).each q s hq
  have hs := B.parts.hsteps
  have hE : ∀ e ∈ w.steps.edges, e ∈ ninjaEdges ws := fun e he => B.steps_mem he
  unfold ninjaSteps at hs
  split at hs
  · rename_i t r c ht hr hc
    obtain ⟨e, he, h1, h2, h3⟩ := ninjaActions_edge ht a ha
    refine ⟨e, hE e ?_, h1, h3, h2⟩
    rw [← Option.some.inj hs]
    exact List.mem_append_left _ (List.mem_append_left _ he)
  · exact nomatch hs

/-- C102: each source of a rule has a statement with the command of the rule, that makes the outputs for this source
from it, and runs again when one of the inputs of the rule changes; and what the command says about its source is
bound for this source. -/
theorem C102_rules (ctx : Str → NinjaCtx) (ts : List (Str × NSpec)) (ws : List (Str × NWritten))
    (outs : List (Str × NTarget)) (ho : InOrder ts) (h : ninjaTargets ctx ts [] = some (ws, outs))
    (q src : Str) (s : NSpec) (r : NRule) (hq : (q, s) ∈ ts) (hr : r ∈ s.rules) (hsrc : src ∈ r.sources) :
    ∃ action e, r.action = some action ∧ e ∈ ninjaEdges ws ∧ e.command = ninjaRuleName (ctx q) r.name ∧
      List.Forall₂ (fun p f => gypPathToNinja (ctx q) p = some f) (ruleOutputsFor r src) e.outputs ∧
      (∃ f, gypPathToNinja (ctx q) (normpath src) = some f ∧ e.inputs = [f]) ∧
      (∀ i ∈ r.inputs, ∃ f, gypPathToNinja (ctx q) i = some f ∧ RunsAgain (ninjaEdges ws) e f) ∧
      ∀ v value, (v, value) ∈ e.bindings ↔
        (v = c!"source" ∨ ∃ a ∈ action, hasSub (c!"${" ++ v ++ c!"}") (expandSpecial (ctx q) (ctx q).baseToBuild a) = true) ∧
        ((v = c!"source" ∧ value = expandSpecial (ctx q) (ctx q).baseToBuild (normpath src)) ∨
         (v = c!"dirname" ∧ value = expandSpecial (ctx q) (ctx q).baseToBuild (dirname (normpath src))) ∨
         (v = c!"name" ∧ value = basename (normpath src)) ∨
         (v = c!"root" ∧ value = (splitext (basename (normpath src))).1) ∨
         (v = c!"ext" ∧ value = (splitext (basename (normpath src))).2)) := by
  obtain ⟨w, ⟨B⟩⟩ := (allBuilt ho h).each q s hq
  have hs := B.parts.hsteps
  have hE : ∀ e ∈ w.steps.edges, e ∈ ninjaEdges ws := fun e he => B.steps_mem he
  unfold ninjaSteps at hs
  split at hs
  · rename_i t r' c ht hr' hc
    have hsub : ∀ e ∈ r'.edges, e ∈ ninjaEdges ws := by
      intro e he
      apply hE
      rw [← Option.some.inj hs]
      exact List.mem_append_left _ (List.mem_append_right _ he)
    obtain ⟨action, ha, e, he, h1, h2, h3, h4, h5⟩ := ninjaRules_edge hr' (ninjaEdges ws) hsub r hr src hsrc
    refine ⟨action, e, ha, hsub e he, h1, h2, h3, h4, ?_⟩
    intro v value
    rw [h5]
    unfold ruleBindings neededVariables
    simp only [List.mem_map, List.mem_filter, Prod.mk.injEq, Bool.or_eq_true, decide_eq_true_eq, List.any_eq_true]
    have hany : (∃ y, (∃ a ∈ action, expandSpecial (ctx q) (ctx q).baseToBuild a = y) ∧ hasSub (c!"${" ++ v ++ c!"}") y = true) ↔
        ∃ a ∈ action, hasSub (c!"${" ++ v ++ c!"}") (expandSpecial (ctx q) (ctx q).baseToBuild a) = true := by
      constructor
      · rintro ⟨y, ⟨a, ha, rfl⟩, h⟩; exact ⟨a, ha, h⟩
      · rintro ⟨a, ha, h⟩; exact ⟨_, ⟨a, ha, rfl⟩, h⟩
    constructor
    · rintro ⟨v', ⟨hv, hn⟩, rfl, rfl⟩
      refine ⟨hn.imp_right hany.mp, ?_⟩
      simp only [List.mem_cons, List.not_mem_nil, or_false] at hv
      rcases hv with rfl | rfl | rfl | rfl | rfl <;> simp
    · rintro ⟨hn, hv⟩
      refine ⟨v, ⟨?_, hn.imp_right hany.mpr⟩, rfl, ?_⟩
      · rcases hv with ⟨rfl, -⟩ | ⟨rfl, -⟩ | ⟨rfl, -⟩ | ⟨rfl, -⟩ | ⟨rfl, -⟩ <;> simp
      · rcases hv with ⟨rfl, rfl⟩ | ⟨rfl, rfl⟩ | ⟨rfl, rfl⟩ | ⟨rfl, rfl⟩ | ⟨rfl, rfl⟩ <;> simp
  · exact nomatch hs

/-- C102: a copied file has a statement that copies it, under its own name, to the destination. -/
theorem C102_copies (ctx : Str → NinjaCtx) (ts : List (Str × NSpec)) (ws : List (Str × NWritten))
    (outs : List (Str × NTarget)) (ho : InOrder ts) (h : ninjaTargets ctx ts [] = some (ws, outs))
    (q f : Str) (s : NSpec) (c : NCopy) (hq : (q, s) ∈ ts) (hc : c ∈ s.copies) (hf : f ∈ c.files) :
    ∃ e ∈ ninjaEdges ws, e.command = c!"copy" ∧ ∃ a b, gypPathToNinja (ctx q) (normpath f) = some a ∧
      gypPathToNinja (ctx q) (pathJoin c.destination (basename (normpath f))) = some b ∧ e.inputs = [a] ∧ e.outputs = [b] := by
  obtain ⟨w, ⟨B⟩⟩ := (allBuilt ho h).each q s hq
  have hs := B.parts.hsteps
  have hE : ∀ e ∈ w.steps.edges, e ∈ ninjaEdges ws := fun e he => B.steps_mem he
  unfold ninjaSteps at hs
  split at hs
  · rename_i t r c' ht hr hc'
    obtain ⟨e, he, h1⟩ := ninjaCopies_edge hc' (c.destination, f)
      (List.mem_flatMap.mpr ⟨c, hc, List.mem_map.mpr ⟨f, hf, rfl⟩⟩)
    refine ⟨e, hE e ?_, h1⟩
    rw [← Option.some.inj hs]
    exact List.mem_append_right _ he
  · exact nomatch hs

/-- What no statement makes waits for nothing. -/
theorem waits_source {E : List NEdge} {m x : Str} (h : Waits E m x) : (∀ e ∈ E, m ∉ e.outputs) → x = m := by
  induction h with
  | refl => intro _; rfl
  | make he ho _ => intro h; exact absurd ho (h _ he)
  | same he ho _ => intro h; exact absurd ho (h _ he)
  | trans _ _ h1 h2 =>
    intro h
    have := h1 h
    subst this
    exact h2 h

namespace NinjaExample

/-- Two rules, after a target with an action. -/
def ruled : List (Str × NSpec) :=
  [(c!"gen", { product := { type := c!"none", targetName := c!"gen" }
               actions := [{ name := c!"make", action := [c!"make.py"], inputs := [c!"in.txt"], outputs := [c!"$!PRODUCT_DIR/gen.h"] }] }),
   (c!"use", { product := { type := c!"none", targetName := c!"use" }
               dependencies := [c!"gen"]
               rules := [{ name := c!"one", action := some [c!"one.py"], inputs := [c!"p.py", c!"q.py"],
                           outputs := [c!"$!PRODUCT_DIR/${root}.1"], sources := [c!"a.x", c!"b.x", c!"c.x"] },
                         { name := c!"two", action := some [c!"two.py"],
                           outputs := [c!"$!PRODUCT_DIR/${root}.2"], sources := [c!"d.y"] }] })]

end NinjaExample

open NinjaExample in
/-- C102: with two inputs and three sources in a rule, the rules after it do not wait for the targets they need. -/
theorem C102_witness : ∃ ws outs w e, InOrder ruled ∧ (∀ q s, (q, s) ∈ ruled → RulesMake s) ∧
    ninjaTargets ctx ruled [] = some (ws, outs) ∧ (c!"use", w) ∈ ws ∧ e ∈ w.steps.edges ∧
    NeedsTarget ruled c!"use" c!"gen" ∧ (∃ s, (c!"gen", s) ∈ ruled ∧ StepOutput (ctx c!"gen") s c!"gen.h") ∧
    e.outputs = [c!"d.2"] ∧ ¬ RunsAfter (ninjaEdges ws) e c!"gen.h" := by
  have hdec : ∃ r, ninjaTargets ctx ruled [] = some r ∧
      (∃ w ∈ r.1, w.1 = c!"use" ∧ ∃ e ∈ w.2.steps.edges, e.outputs = [c!"d.2"] ∧
        e.inputs ++ e.implicit ++ e.orderOnly = [c!"../src/d.y"]) ∧
      ∀ e ∈ ninjaEdges r.1, c!"../src/d.y" ∉ e.outputs := by
    have : ((ninjaTargets ctx ruled []).any fun r =>
        decide ((∃ w ∈ r.1, w.1 = c!"use" ∧ ∃ e ∈ w.2.steps.edges, e.outputs = [c!"d.2"] ∧
          e.inputs ++ e.implicit ++ e.orderOnly = [c!"../src/d.y"]) ∧
        ∀ e ∈ ninjaEdges r.1, c!"../src/d.y" ∉ e.outputs)) = true := by decide +kernel
    cases h : ninjaTargets ctx ruled [] with
    | none => rw [h] at this; exact nomatch this
    | some r => rw [h] at this; exact ⟨r, rfl, of_decide_eq_true this⟩
  obtain ⟨⟨ws, outs⟩, h, ⟨⟨q, w⟩, hw, hq, e, he, ho, hi⟩, hsrc⟩ := hdec
  cases hq
  refine ⟨ws, outs, w, e, inOrder_of_check (by decide), ?_, h, hw, he, ?_, ?_, ho, ?_⟩
  · intro q s h
    simp only [ruled, List.mem_cons, List.not_mem_nil, or_false, Prod.mk.injEq] at h
    rcases h with ⟨-, rfl⟩ | ⟨-, rfl⟩
    · intro r hr; simp at hr
    · intro r hr
      simp only [List.mem_cons, List.not_mem_nil, or_false] at hr
      rcases hr with rfl | rfl <;> simp
  · exact .one (List.mem_cons_of_mem _ List.mem_cons_self) (List.mem_singleton.mpr rfl)
  · exact ⟨_, List.mem_cons_self, .action _ c!"$!PRODUCT_DIR/gen.h" (List.mem_singleton.mpr rfl)
      (List.mem_singleton.mpr rfl) (by decide +kernel)⟩
  · rintro ⟨m, hm, hmw⟩
    rw [hi, List.mem_singleton] at hm
    subst hm
    exact absurd (waits_source hmw hsrc) (by decide)


set_option synthInstance.maxSize 1024 in
example : ((ninjaTargets NinjaExample.ctx NinjaExample.ruled []).map fun r => (ninjaEdges r.1).map fun e =>
      (e.outputs, e.inputs, e.implicit, e.orderOnly)) =
    some [([c!"gen.h"], [c!"../src/in.txt"], [], []),
      ([c!"obj/src/use.one.stamp"], [c!"../src/p.py", c!"../src/q.py"], [], [c!"gen.h"]),
      ([c!"a.1"], [c!"../src/a.x"], [c!"obj/src/use.one.stamp"], []),
      ([c!"b.1"], [c!"../src/b.x"], [c!"obj/src/use.one.stamp"], []),
      ([c!"c.1"], [c!"../src/c.x"], [c!"obj/src/use.one.stamp"], []),
      ([c!"d.2"], [c!"../src/d.y"], [], []),
      ([c!"obj/src/use.actions" ++ c!"_rules_copies.stamp"], [c!"a.1", c!"b.1", c!"c.1", c!"d.2"], [], [])] := by
  decide +kernel

namespace NinjaExample

/-- An action, a rule and a copy, after a target with an action. -/
def stepped : List (Str × NSpec) :=
  [(c!"gen", { product := { type := c!"none", targetName := c!"gen" }
               actions := [{ name := c!"make", action := [c!"make.py"], inputs := [c!"in.txt"], outputs := [c!"$!PRODUCT_DIR/gen.h"] }] }),
   (c!"use", { product := { type := c!"none", targetName := c!"use" }
               dependencies := [c!"gen"]
               actions := [{ name := c!"more", action := [c!"more.py"], inputs := [], outputs := [c!"more.txt"] }]
               rules := [{ name := c!"two", action := some [c!"two.py", c!"${root}"], inputs := [c!"two.py"],
                           outputs := [c!"$!PRODUCT_DIR/${root}.2"], sources := [c!"sub/d.y"] }]
               copies := [{ destination := c!"$!PRODUCT_DIR/doc", files := [c!"sub/note.txt"] }] })]

end NinjaExample

open NinjaExample in
example : InOrder stepped ∧ (∀ q s, (q, s) ∈ stepped → RulesMake s ∧ FewInputs s) := by
  refine ⟨inOrder_of_check (by decide), ?_⟩
  intro q s h
  simp only [stepped, List.mem_cons, List.not_mem_nil, or_false, Prod.mk.injEq] at h
  rcases h with ⟨-, rfl⟩ | ⟨-, rfl⟩
  · refine ⟨fun r hr => by simp at hr, fun a r b h _ => by simp at h⟩
  · refine ⟨fun r hr => by simp only [List.mem_cons, List.not_mem_nil, or_false] at hr; subst hr; simp, ?_⟩
    intro a r b h hb
    cases a with
    | nil =>
      simp only [List.nil_append, List.cons.injEq] at h
      exact absurd h.2.symm hb
    | cons a0 a => simp at h

open NinjaExample in
set_option synthInstance.maxSize 1024 in
example : ((ninjaTargets ctx stepped []).map fun r => (ninjaEdges r.1).map fun e =>
      (e.outputs, e.inputs ++ e.implicit, e.orderOnly, e.bindings)) =
    some [([c!"gen.h"], [c!"../src/in.txt"], [], []),
      ([c!"../src/more.txt"], [], [c!"gen.h"], []),
      ([c!"d.2"], [c!"../src/sub/d.y", c!"../src/two.py"], [c!"gen.h"], [(c!"root", c!"d"), (c!"source", c!"sub/d.y")]),
      ([c!"doc/note.txt"], [c!"../src/sub/note.txt"], [c!"gen.h"], []),
      ([c!"obj/src/use.actions" ++ c!"_rules_copies.stamp"], [c!"../src/more.txt", c!"d.2", c!"doc/note.txt"], [], [])] := by
  decide +kernel

end Gyp
