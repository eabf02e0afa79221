import Verif.Spec.FindPython
import Verif.Props.Shasums
import Mathlib.Data.List.Forall2
/-
C55: the search for Python.
-/
namespace Gyp
open Spec

theorem stripped_iff (s t : Str) : Stripped s t ↔ t = jsTrim s := by
  constructor
  · rintro ⟨a, b, rfl, ha, hb, h1, h2⟩
    exact (jsTrim_pad ha hb ⟨h1, fun c hc => h2 c (by rwa [List.head?_reverse] at hc)⟩).symm
  · rintro rfl
    obtain ⟨a, b, h, ha, hb, h1, h2⟩ := jsTrim_spec s
    exact ⟨a, b, h, ha, hb, h1, fun c hc => h2 c (by rwa [List.head?_reverse])⟩

theorem pyInRange_iff (E : PyEnv) (t : Str) : pyInRange E t = true ↔
    ∃ v, E.parse t = some v ∧ v.pre = [] ∧ (3 < v.major ∨ (v.major = 3 ∧ 6 ≤ v.minor)) := by
  unfold pyInRange
  cases h : E.parse t with
  | none => simp
  | some v =>
    simp only [Semver.geMain, Bool.and_eq_true, decide_eq_true_eq, Bool.or_eq_true,
      Option.some.injEq, exists_eq_left']
    constructor
    · rintro ⟨h1, h2⟩; exact ⟨h1, by omega⟩
    · rintro ⟨h1, h2⟩; exact ⟨h1, by omega⟩

/-- The check of a candidate. -/
def checkOf (E : PyEnv) : Candidate → Option Str × List PyCall
  | .command c => checkCommand E c
  | .launcher => checkPyLauncher E
  | .path p => checkExecPath E p

theorem toCheck_order (E : PyEnv) :
    runChecks (toCheck E) = runChecks ((order E).map fun c => ⟨false, checkOf E c⟩) := by
  unfold toCheck order
  by_cases hf : E.force ≠ []
  · rw [if_pos hf, if_pos hf]; rfl
  · rw [if_neg hf, if_neg hf]
    have tail : (if E.win then [(⟨false, checkPyLauncher E⟩ : PyCheck)] else []) ++
        [⟨false, checkCommand E c!"python3"⟩, ⟨false, checkCommand E c!"python"⟩] ++
        (if E.win then E.winDefaultLocations.map fun l => (⟨false, checkExecPath E l⟩ : PyCheck) else []) =
        ((if E.win then [Candidate.launcher] else []) ++
          [Candidate.command c!"python3", Candidate.command c!"python"] ++
          (if E.win then E.winDefaultLocations.map Candidate.path else [])).map fun c => ⟨false, checkOf E c⟩ := by
      cases E.win
      · rfl
      · simp [checkOf]
    simp only [List.append_assoc] at tail ⊢
    rw [tail]
    generalize ((if E.win then [Candidate.launcher] else []) ++
          ([Candidate.command c!"python3", Candidate.command c!"python"] ++
          (if E.win then E.winDefaultLocations.map Candidate.path else []))) = rest
    by_cases h1 : E.config = [] <;> by_cases h2 : E.python = [] <;>
      simp [h1, h2, runChecks, checkOf]

theorem checkExecPath_some (E : PyEnv) (p q : Str) :
    (checkExecPath E p).1 = some q ↔ q = p ∧ Acceptable E p := by
  unfold checkExecPath pyRun Acceptable
  cases h : E.run ⟨p, argsVersion, false⟩ with
  | none => simp
  | some out =>
    simp only [Option.map_some]
    by_cases hr : pyInRange E (jsTrim out) = true
    · rw [if_pos hr]
      obtain ⟨v, h1, h2, h3⟩ := (pyInRange_iff E _).mp hr
      constructor
      · intro e; cases e
        exact ⟨rfl, out, _, v, rfl, (stripped_iff _ _).mpr rfl, h1, h2, h3⟩
      · rintro ⟨rfl, _⟩; rfl
    · rw [if_neg hr]
      constructor
      · intro e; cases e
      · rintro ⟨_, out', t, v, e1, e2, e3⟩
        cases e1
        rw [stripped_iff] at e2
        subst e2
        exact absurd ((pyInRange_iff E _).mpr ⟨v, e3⟩) hr

theorem checkExecPath_calls (E : PyEnv) (p : Str) :
    (checkExecPath E p).2 = [⟨p, argsVersion, false⟩] := by
  unfold checkExecPath pyRun
  cases h : E.run ⟨p, argsVersion, false⟩ with
  | none => rfl
  | some out =>
    simp only [Option.map_some]
    by_cases hr : pyInRange E (jsTrim out) = true
    · rw [if_pos hr]
    · rw [if_neg hr]

/-- What asking a program for the path of its interpreter does. -/
theorem ask_spec (E : PyEnv) (c : Candidate) (call : PyCall) (hc : asksPath E c = some call)
    (hnp : ∀ p, c ≠ .path p)
    (r : Option Str × List PyCall)
    (hr : r = match pyRun E call.exec call.args call.shell with
      | (none, l) => (none, l)
      | (some execPath, l) => ((checkExecPath E execPath).1, l ++ (checkExecPath E execPath).2)) :
    (∀ p, r.1 = some p ↔ Leads E c p) ∧ probes E c r.2 := by
  have hn : ∀ p, Names E c p ↔ ∃ out, E.run call = some out ∧ p = jsTrim out := by
    intro p
    constructor
    · rintro (⟨call', out, e1, e2, e3⟩ | e)
      · rw [hc] at e1; cases e1
        exact ⟨out, e2, (stripped_iff _ _).mp e3⟩
      · exact absurd e (hnp p)
    · rintro ⟨out, e1, e2⟩
      exact Or.inl ⟨call, out, hc, e1, (stripped_iff _ _).mpr e2⟩
  cases h : E.run call with
  | none =>
    have : r = (none, [call]) := by rw [hr]; unfold pyRun; rw [show E.run ⟨call.exec, call.args, call.shell⟩ = none from h]; rfl
    rw [this]
    constructor
    · intro p
      constructor
      · intro e; cases e
      · rintro ⟨e, _⟩
        obtain ⟨out, e1, _⟩ := (hn p).mp e
        rw [h] at e1; cases e1
    · unfold probes
      rw [hc]
      exact Or.inl ⟨h, rfl⟩
  | some out =>
    have : r = ((checkExecPath E (jsTrim out)).1, [call] ++ (checkExecPath E (jsTrim out)).2) := by
      rw [hr]; unfold pyRun; rw [show E.run ⟨call.exec, call.args, call.shell⟩ = some out from h]; rfl
    rw [this]
    constructor
    · intro p
      refine (checkExecPath_some E _ p).trans ?_
      unfold Leads
      rw [hn]
      constructor
      · rintro ⟨rfl, e⟩; exact ⟨⟨out, h, rfl⟩, e⟩
      · rintro ⟨⟨out', e1, rfl⟩, e⟩
        rw [h] at e1; cases e1
        exact ⟨rfl, e⟩
    · unfold probes
      rw [hc]
      refine Or.inr ⟨jsTrim out, (hn _).mpr ⟨out, h, rfl⟩, ?_⟩
      rw [checkExecPath_calls]; rfl

theorem checkOf_spec (E : PyEnv) (c : Candidate) :
    (∀ p, (checkOf E c).1 = some p ↔ Leads E c p) ∧ probes E c (checkOf E c).2 := by
  cases c with
  | command c =>
    have hc : asksPath E (.command c) = some ⟨if E.win then dquote c else c,
        if E.win then argsExecutable.map dquote else argsExecutable, E.win⟩ := by
      cases hw : E.win <;> simp [asksPath, hw, dquote] <;> rfl
    refine ask_spec E _ _ hc (by intro p e; cases e) _ ?_
    show checkCommand E c = _
    unfold checkCommand
    simp only
    rcases pyRun E (if E.win then dquote c else c) (if E.win then argsExecutable.map dquote else argsExecutable) E.win with ⟨_ | p, l⟩ <;> rfl
  | launcher =>
    refine ask_spec E _ _ (rfl : asksPath E .launcher = some _) (by intro p e; cases e) _ ?_
    show checkPyLauncher E = _
    unfold checkPyLauncher
    rcases pyRun E E.pyLauncher (c!"-3" :: argsExecutable) false with ⟨_ | p, l⟩ <;> rfl
  | path q =>
    constructor
    · intro p
      refine (checkExecPath_some E q p).trans ?_
      unfold Leads Names
      constructor
      · rintro ⟨rfl, e⟩; exact ⟨Or.inr rfl, e⟩
      · rintro ⟨⟨call, out, e1, _⟩ | e, e'⟩
        · cases e1
        · cases e; exact ⟨rfl, e'⟩
    · exact ⟨q, rfl, checkExecPath_calls E q⟩

theorem checkOf_none (E : PyEnv) (c : Candidate) (h : (checkOf E c).1 = none) (p : Str) :
    ¬ Leads E c p := by
  rw [← (checkOf_spec E c).1, h]
  exact fun e => by cases e

/-- The loop over candidates. -/
theorem runChecks_spec (E : PyEnv) (cs : List Candidate) :
    (∃ p before c after, (runChecks (cs.map fun c => ⟨false, checkOf E c⟩)).1 = some p ∧
      cs = before ++ c :: after ∧ Leads E c p ∧ (∀ c' ∈ before, ∀ q, ¬ Leads E c' q) ∧
      ∃ ls, List.Forall₂ (probes E) (before ++ [c]) ls ∧
        (runChecks (cs.map fun c => ⟨false, checkOf E c⟩)).2 = ls.flatten) ∨
    ((runChecks (cs.map fun c => ⟨false, checkOf E c⟩)).1 = none ∧ (∀ c' ∈ cs, ∀ q, ¬ Leads E c' q) ∧
      ∃ ls, List.Forall₂ (probes E) cs ls ∧
        (runChecks (cs.map fun c => ⟨false, checkOf E c⟩)).2 = ls.flatten) := by
  induction cs with
  | nil => exact Or.inr ⟨rfl, by simp, [], .nil, rfl⟩
  | cons c cs ih =>
    simp only [List.map_cons, runChecks, Bool.false_eq_true, if_false]
    obtain ⟨hs, hp⟩ := checkOf_spec E c
    have hno := checkOf_none E c
    rcases hc : checkOf E c with ⟨_ | p, l⟩
    · rw [hc] at hp hno
      rcases ih with ⟨p, before, c', after, e1, e2, e3, e4, ls, e5, e6⟩ | ⟨e1, e4, ls, e5, e6⟩
      · refine Or.inl ⟨p, c :: before, c', after, e1, by rw [e2]; rfl, e3, ?_, l :: ls, .cons hp e5, ?_⟩
        · intro d hd
          rcases List.mem_cons.mp hd with rfl | hd
          · exact hno rfl
          · exact e4 d hd
        · simp only [e6, List.flatten_cons]
      · refine Or.inr ⟨e1, ?_, l :: ls, .cons hp e5, ?_⟩
        · intro d hd
          rcases List.mem_cons.mp hd with rfl | hd
          · exact hno rfl
          · exact e4 d hd
        · simp only [e6, List.flatten_cons]
    · rw [hc] at hp hs
      exact Or.inl ⟨p, [], c, cs, rfl, rfl, (hs p).mp rfl, by simp, [l], .cons hp .nil, by simp⟩

/-- **C55**.  The interpreter found is that of the first candidate, in the
documented order, that leads to a Python 3.6 or later. -/
theorem C55_first (E : PyEnv) (p : Str) :
    (findPython E).1 = some p ↔
      ∃ before c after, order E = before ++ c :: after ∧ Leads E c p ∧
        ∀ c' ∈ before, ∀ q, ¬ Leads E c' q := by
  unfold findPython
  rw [toCheck_order]
  rcases runChecks_spec E (order E) with ⟨p', before, c, after, e1, e2, e3, e4, _⟩ | ⟨e1, e2, _⟩
  · rw [e1]
    constructor
    · intro e; cases e; exact ⟨before, c, after, e2, e3, e4⟩
    · rintro ⟨before', c', after', f2, f3, f4⟩
      -- both are the first
      have huniq : c = c' ∧ True := by
        rw [e2] at f2
        rcases List.append_eq_append_iff.mp f2 with ⟨a, h1, h2⟩ | ⟨a, h1, h2⟩
        · cases a with
          | nil => simp at h2; exact ⟨h2.1, trivial⟩
          | cons x a =>
            simp at h2
            exact absurd e3 (f4 c (by rw [h1, h2.1]; simp) p')
        · cases a with
          | nil => simp at h2; exact ⟨h2.1.symm, trivial⟩
          | cons x a =>
            simp at h2
            exact absurd f3 (e4 c' (by rw [h1, h2.1]; simp) p)
      obtain ⟨rfl, _⟩ := huniq
      have h1 := ((checkOf_spec E c).1 p').mpr e3
      have h2 := ((checkOf_spec E c).1 p).mpr f3
      rw [← h1, h2]
  · rw [e1]
    constructor
    · intro e; cases e
    · rintro ⟨before, c, after, f2, f3, _⟩
      exact absurd f3 (e2 c (by rw [f2]; simp) p)

/-- **C55** (failure).  The search fails exactly when no candidate leads to a
usable Python. -/
theorem C55_fails (E : PyEnv) :
    (findPython E).1 = none ↔ ∀ c ∈ order E, ∀ p, ¬ Leads E c p := by
  unfold findPython
  rw [toCheck_order]
  rcases runChecks_spec E (order E) with ⟨p', before, c, after, e1, e2, e3, e4, _⟩ | ⟨e1, e2, _⟩
  · rw [e1]
    constructor
    · intro e; cases e
    · intro h; exact absurd e3 (h c (by rw [e2]; simp) p')
  · rw [e1]; exact ⟨fun _ => e2, fun _ => rfl⟩

/-- **C55** (programs run).  Candidates are looked at one after the other, and
nothing is run after one has been accepted. -/
theorem C55_stops (E : PyEnv) :
    ∃ tried rest ls, order E = tried ++ rest ∧ List.Forall₂ (probes E) tried ls ∧
      (findPython E).2 = ls.flatten ∧
      (∀ c ∈ tried.dropLast, ∀ p, ¬ Leads E c p) ∧ ((findPython E).1 = none → rest = []) := by
  unfold findPython
  rw [toCheck_order]
  rcases runChecks_spec E (order E) with ⟨p', before, c, after, e1, e2, e3, e4, ls, e5, e6⟩ | ⟨e1, e2, ls, e5, e6⟩
  · refine ⟨before ++ [c], after, ls, by rw [e2]; simp, e5, e6, ?_, ?_⟩
    · rw [List.dropLast_concat]; exact e4
    · rw [e1]; intro h; cases h
  · exact ⟨order E, [], ls, by simp, e5, e6, fun c hc => e2 c ((List.dropLast_sublist _).subset hc), fun _ => rfl⟩

/-- **C55** (forced).  With NODE_GYP_FORCE_PYTHON that command decides alone. -/
theorem C55_forced (E : PyEnv) (h : E.force ≠ []) :
    (∀ p, (findPython E).1 = some p ↔ Leads E (.command E.force) p) ∧
    ((findPython E).1 = none ↔ ∀ p, ¬ Leads E (.command E.force) p) := by
  have ho : order E = [.command E.force] := by unfold order; rw [if_pos h]
  constructor
  · intro p
    rw [C55_first, ho]
    constructor
    · rintro ⟨before, c, after, e, hl, _⟩
      cases before with
      | nil => simp at e; rw [e.1]; exact hl
      | cons x xs =>
        have := congrArg List.length e
        simp at this
    · intro hl; exact ⟨[], _, [], rfl, hl, by simp⟩
  · rw [C55_fails, ho]; simp

/-- **C55** (fallback).  A configured Python that is not usable is passed over:
the outcome is that of a search without it. -/
theorem C55_fallback (E : PyEnv) (hf : E.force = [])
    (h : ∀ p, ¬ Leads E (.command E.config) p) :
    (findPython E).1 = (findPython { E with config := [] }).1 := by
  by_cases hc : E.config = []
  · have : { E with config := [] } = E := by rw [← hc]
    rw [this]
  have hl : ∀ c p, Leads { E with config := [] } c p ↔ Leads E c p := by
    intro c p
    have : asksPath { E with config := [] } c = asksPath E c := by cases c <;> rfl
    unfold Leads Names Acceptable
    rw [this]
  have ho : order E = .command E.config :: order { E with config := [] } := by
    unfold order
    simp [hf, hc]
  cases hr : (findPython { E with config := [] }).1 with
  | none =>
    rw [C55_fails] at hr ⊢
    rw [ho]
    intro c hc' p
    rcases List.mem_cons.mp hc' with rfl | hc'
    · exact h p
    · rw [← hl]; exact hr c hc' p
  | some p =>
    rw [C55_first] at hr ⊢
    obtain ⟨before, c, after, e1, e2, e3⟩ := hr
    refine ⟨.command E.config :: before, c, after, by rw [ho, e1]; rfl, (hl _ _).mp e2, ?_⟩
    intro c' hc' q
    rcases List.mem_cons.mp hc' with rfl | hc'
    · exact h q
    · rw [← hl]; exact e3 c' hc' q

/-! ### A concrete search -/

/-- `python3` is too old, `python` leads to 3.9. -/
def exPy : PyEnv where
  win := false
  force := []
  config := c!"nopython"
  python := []
  pyLauncher := c!"py.exe"
  winDefaultLocations := []
  run := fun call =>
    if call = ⟨c!"python3", argsExecutable, false⟩ then some c!"/usr/bin/python3.5"
    else if call = ⟨c!"/usr/bin/python3.5", argsVersion, false⟩ then some c!"3.5.1\n"
    else if call = ⟨c!"python", argsExecutable, false⟩ then some c!"/opt/python"
    else if call = ⟨c!"/opt/python", argsVersion, false⟩ then some c!"3.9.2\n"
    else none
  parse := fun s =>
    if s = c!"3.5.1" then some ⟨3, 5, 1, []⟩ else if s = c!"3.9.2" then some ⟨3, 9, 2, []⟩ else none

example : (findPython exPy).1 = some c!"/opt/python" ∧ (findPython exPy).2.length = 5 := by decide +kernel

example : order exPy = [.command c!"nopython", .command c!"python3", .command c!"python"] := by decide +kernel

/-- The configured Python is not usable. -/
example : exPy.force = [] ∧ ∀ p, ¬ Leads exPy (.command exPy.config) p := by
  refine ⟨rfl, fun p => checkOf_none exPy _ (by decide +kernel) p⟩

example : { exPy with force := c!"python3" }.force ≠ [] ∧
    (findPython { exPy with force := c!"python3" }).1 = none := by decide +kernel

example : (findPython { exPy with win := true, winDefaultLocations := [c!"/opt/python"] }).1 =
    some c!"/opt/python" := by decide +kernel

end Gyp
