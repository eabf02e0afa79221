import Verif.Props.AnalyzerPaths
/-
C46: a build that meets the hypotheses of the claims, and what goes wrong outside them.
-/
namespace Gyp
open Spec

/-- An executable, a static library it uses, and a `none` target above an unrelated
library. -/
def anDicts (t : Str) : Option TInfo :=
  if t = c!"d/a.gyp:app" then
    some { type := c!"executable", sources := [c!"main.cc"], actions := [], rules := [],
           dependencies := [c!"d/a.gyp:lib"] }
  else if t = c!"d/a.gyp:lib" then
    some { type := c!"static_library", sources := [c!"../x/l.cc", c!"$(V)/q.cc"],
           actions := [[c!"./in.txt"]], rules := [], dependencies := [] }
  else if t = c!"d/a.gyp:docs" then
    some { type := c!"none", sources := [], actions := [], rules := [],
           dependencies := [c!"d/a.gyp:help"] }
  else if t = c!"d/a.gyp:help" then
    some { type := c!"shared_library", sources := [c!"h.cc"], actions := [], rules := [],
           dependencies := [] }
  else none

def anInput : AInput where
  targetList := [c!"d/a.gyp:lib", c!"d/a.gyp:app", c!"d/a.gyp:docs"]
  dicts := anDicts
  data := fun f => if f = c!"d/a.gyp" then some [c!"d/a.gyp", c!"../common.gypi"] else none
  toplevel := c!"/src"
  files := [c!"x/l.cc", c!"README"]
  buildFiles := [c!"d/a.gyp"]
  additional := [c!"all"]
  tests := [c!"app", c!"docs", c!"missing"]
  includes := [c!"./build/inc.gypi"]

def anNames : List Str := [c!"d/a.gyp:app", c!"d/a.gyp:docs", c!"d/a.gyp:lib", c!"d/a.gyp:help"]

theorem an_edges {t x : Str} (h : x ∈ depEdges anInput t) :
    (t = c!"d/a.gyp:app" ∧ x = c!"d/a.gyp:lib") ∨ (t = c!"d/a.gyp:docs" ∧ x = c!"d/a.gyp:help") := by
  unfold depEdges at h
  have hd : anInput.dicts t = anDicts t := rfl
  rw [hd] at h
  unfold anDicts at h
  by_cases h1 : t = c!"d/a.gyp:app"
  · rw [if_pos h1] at h; exact Or.inl ⟨h1, by simpa using h⟩
  rw [if_neg h1] at h
  by_cases h2 : t = c!"d/a.gyp:lib"
  · rw [if_pos h2] at h; simp at h
  rw [if_neg h2] at h
  by_cases h3 : t = c!"d/a.gyp:docs"
  · rw [if_pos h3] at h; exact Or.inr ⟨h3, by simpa using h⟩
  rw [if_neg h3] at h
  by_cases h4 : t = c!"d/a.gyp:help"
  · rw [if_pos h4] at h; simp at h
  rw [if_neg h4] at h
  simp at h

theorem an_inBuild {t : Str} (h : InBuild anInput t) : t ∈ anNames := by
  obtain ⟨r, hr, hrt⟩ := h
  have hr' : r ∈ anNames := by
    simp only [anInput, List.mem_cons, List.not_mem_nil, or_false] at hr
    rcases hr with rfl | rfl | rfl <;> simp [anNames]
  clear hr
  induction hrt with
  | refl => exact hr'
  | tail _ e ih =>
    rcases an_edges e with ⟨-, rfl⟩ | ⟨-, rfl⟩ <;> simp [anNames]

theorem an_wellLoaded : WellLoaded anInput where
  known := by
    intro t ht
    have := an_inBuild ht
    simp only [anNames, List.mem_cons, List.not_mem_nil, or_false] at this
    rcases this with rfl | rfl | rfl | rfl <;> exact ⟨_, _, _, rfl, rfl, rfl⟩
  acyclic := by
    intro t _ h
    have hstep : ∀ {a b : Str}, Reach1 (depEdges anInput) a b →
        (a = c!"d/a.gyp:app" ∨ a = c!"d/a.gyp:docs") ∧
          (b = c!"d/a.gyp:lib" ∨ b = c!"d/a.gyp:help") := by
      intro a b h
      induction h with
      | single e => rcases an_edges e with ⟨rfl, rfl⟩ | ⟨rfl, rfl⟩ <;> simp
      | tail _ e ih =>
        refine ⟨ih.1, ?_⟩
        rcases an_edges e with ⟨-, rfl⟩ | ⟨-, rfl⟩ <;> simp
    obtain ⟨h1, h2⟩ := hstep h
    rcases h1 with rfl | rfl <;> rcases h2 with h | h <;> exact absurd h (by decide)
  finite := ⟨anNames, fun _ => an_inBuild⟩

theorem an_unique : UniqueNames anInput := by
  intro t u ht hu
  have h1 := an_inBuild ht
  have h2 := an_inBuild hu
  simp only [anNames, List.mem_cons, List.not_mem_nil, or_false] at h1 h2
  rcases h1 with rfl | rfl | rfl | rfl <;> rcases h2 with rfl | rfl | rfl | rfl <;>
    first
    | (intro _; rfl)
    | (intro h; exact absurd h (by decide))

theorem an_noInclude : NoIncludeChanged anInput := by
  intro f hf
  have : f = c!"./build/inc.gypi" := by simpa [anInput] using hf
  subst this
  decide

def anOut : AOutput where
  status := .found
  testTargets := [c!"app"]
  compileTargets := [c!"app"]
  invalidTargets := [c!"missing"]

/-- The hypotheses of the claims are met: the library's file `x/l.cc` has changed, so of the
supplied tests only `app` is reported. -/
theorem an_answer : analyze anInput (fun _ l => l) 20 10 = .ok anOut := by decide +kernel

theorem an_permutes : Permutes (fun _ l => l) := fun _ _ => List.Perm.refl _

example := C46_answer an_wellLoaded an_permutes an_noInclude an_answer

example : c!"app" ∈ anInput.tests ∧
    ∃ c, ChangedTarget anInput c ∧ Reach (depEdges anInput) c!"d/a.gyp:app" c :=
  (C46_test_targets an_wellLoaded an_unique an_permutes an_noInclude an_answer
    (t := c!"d/a.gyp:app") ⟨_, by simp [anInput], .refl⟩ (by decide)).mp (by decide)

example : ¬ ∃ c, ChangedTarget anInput c ∧ Reach (depEdges anInput) c!"d/a.gyp:docs" c := by
  intro h
  have := (C46_test_targets an_wellLoaded an_unique an_permutes an_noInclude an_answer
    (t := c!"d/a.gyp:docs") ⟨_, by simp [anInput], .refl⟩ (by decide)).mpr ⟨by decide, h⟩
  exact absurd this (by decide)

example : c!"missing" ∈ anOut.invalidTargets := by decide

example : ∀ t, InBuild anInput t → (ParseQualifiedTarget t).2.1 ≠ c!"missing" :=
  ((C46_invalid an_wellLoaded an_permutes an_noInclude an_answer c!"missing").mp (by decide)).2.2

/-- The same build with `all` among the tests. -/
def anInputAll : AInput := { anInput with tests := [c!"all", c!"docs"], additional := [] }

theorem an_all_answer : analyze anInputAll (fun _ l => l) 20 10 =
    .ok { status := .found, testTargets := [c!"all"], compileTargets := [c!"all", c!"app"],
          invalidTargets := [] } := by decide +kernel

example := (C46_all (inp := anInputAll)
  ⟨an_wellLoaded.known, an_wellLoaded.acyclic, an_wellLoaded.finite⟩ an_permutes an_noInclude
  an_all_answer).mp (by decide)

/-- Another order of the sets. -/
example (out : AOutput) (h : analyze anInput (fun _ l => l.reverse) 20 10 = .ok out) :
    out = anOut :=
  C46_order_independent an_wellLoaded (fun _ _ => List.reverse_perm _) an_permutes an_noInclude h
    an_answer

example : ∃ N, ∀ fuel ≥ N, ∀ depth ≥ N, ∀ ord, Permutes ord →
    ∃ out, analyze anInput ord fuel depth = .ok out :=
  C46_terminates an_wellLoaded (by decide)

/-- A changed `-I` file. -/
example : ∃ out, analyze { anInput with files := [c!"build/inc.gypi"] } (fun _ l => l) 0 0 = .ok out
    ∧ out.status = .allChanged ∧ (∀ n, n ∈ out.testTargets ↔ n ∈ anInput.tests) ∧
      (∀ n, n ∈ out.compileTargets ↔ n ∈ anInput.additional ∨ n ∈ anInput.tests) :=
  C46_include_changed { anInput with files := [c!"build/inc.gypi"] } (fun _ l => l) 0 0
    (f := c!"./build/inc.gypi") (by simp [anInput]) (by decide)

/-- Compile targets: `app` is affected, supplied and an executable. -/
example : c!"app" ∈ anOut.compileTargets :=
  C46_compile_executables an_wellLoaded an_unique an_permutes an_noInclude an_answer
    (t := c!"d/a.gyp:app") ⟨_, by simp [anInput], .refl⟩
    ⟨c!"d/a.gyp:lib", ⟨_, rfl, by decide +kernel⟩, .single (show _ ∈ depEdges anInput _ by decide)⟩
    ⟨_, rfl, rfl⟩
    ⟨c!"d/a.gyp:app", ⟨_, by simp [anInput], .refl⟩, .refl, Or.inl ⟨by decide, Or.inr (by decide)⟩⟩

example : ∃ u, InBuild anInput u ∧ Reach (depEdges anInput) u c!"d/a.gyp:lib" ∧
    (ParseQualifiedTarget u).2.1 ∈ anOut.compileTargets :=
  C46_compile_suffices an_wellLoaded an_unique an_permutes an_noInclude an_answer
    (t := c!"d/a.gyp:lib") ⟨_, by simp [anInput], .refl⟩
    ⟨c!"d/a.gyp:lib", ⟨_, rfl, by decide +kernel⟩, .refl⟩
    ⟨_, rfl, Or.inl (by decide)⟩
    ⟨c!"d/a.gyp:app", ⟨_, by simp [anInput], .refl⟩,
      .single (show _ ∈ depEdges anInput _ by decide), Or.inl ⟨by decide, Or.inr (by decide)⟩⟩

example := C46_compile_needed an_wellLoaded an_unique an_permutes an_noInclude an_answer
  (n := c!"app") (by decide)

/-- The library is changed because `../x/l.cc`, read from `d`, is the changed file `x/l.cc`. -/
example : touched anInput c!"d/a.gyp:lib"
    { type := c!"static_library", sources := [c!"../x/l.cc", c!"$(V)/q.cc"],
      actions := [[c!"./in.txt"]], rules := [], dependencies := [] } = .ok true := by
  refine (C46_changed_file (inp := anInput) (dirs := [c!"d"]) (file := c!"a.gyp") (rest := c!"lib")
    (included := [c!"d/a.gyp", c!"../common.gypi"]) ?_ ?_ (by decide) (by decide) rfl rfl ?_ ?_
    ?_).mpr ?_
  · simp [validName, dot, dotdot]
  · simp [validName, dot, dotdot]
  · intro f hf
    simp only [anInput, List.mem_cons, List.not_mem_nil, or_false] at hf
    rcases hf with rfl | rfl
    · exact ⟨[c!"x", c!"l.cc"], by simp, by simp [validName, dot, dotdot], rfl⟩
    · exact ⟨[c!"README"], by simp, by simp [validName, dot, dotdot], rfl⟩
  · intro f hf
    have : f = c!"../common.gypi" := by simpa using hf
    subst this; rfl
  · intro s hs
    simp only [sourcesOf, List.flatten_cons, List.flatten_nil, List.append_nil, List.mem_append,
      List.mem_cons, List.not_mem_nil, or_false] at hs
    rcases hs with (rfl | rfl) | rfl <;> exact ⟨rfl, by decide, by simp⟩
  · refine Or.inr (Or.inr ⟨c!"../x/l.cc", by simp [sourcesOf], ⟨by simp, by simp, by decide⟩,
      [c!"x", c!"l.cc"], ⟨by simp, by simp [validName, dot, dotdot], by simp [anInput, joinWith]⟩, ?_⟩)
    intro l
    simp [walk, splitOn, walkStep, dot, dotdot]

/-! ### Outside the hypotheses -/

/-- C46, violated for a build file at the top of the tree: the source `../x`, a file
*outside* the tree, is taken for the file `x` inside it. -/
theorem C46_toplevel_parent :
    (∀ inp : AInput, inp.toplevel = c!"/src" → inp.files = [c!"x"] →
      inp.data c!"a.gyp" = some [c!"a.gyp"] →
      touched inp c!"a.gyp:t"
        { type := c!"none", sources := [c!"../x"], actions := [], rules := [],
          dependencies := [] } = .ok true) ∧
    ¬ Denotes [] c!"../x" [c!"x"] := by
  refine ⟨?_, ?_⟩
  · intro inp h1 h2 h3
    have e : (ParseQualifiedTarget c!"a.gyp:t").1 = some c!"a.gyp" := rfl
    unfold touched wasBuildFileModified
    rw [e]
    simp only
    rw [h1, h2, h3]
    decide +kernel
  · intro h
    have := h [c!"src"]
    simp [walk, splitOn, walkStep, dot, dotdot] at this

/-- Two static libraries, `a` using `b`, and nothing that links them; `z`, which has an action,
is above `a`, and `y` above `b`. -/
def slDicts (t : Str) : Option TInfo :=
  if t = c!"d/a.gyp:z" then
    some { type := c!"none", sources := [], actions := [[]], rules := [],
           dependencies := [c!"d/a.gyp:a"] }
  else if t = c!"d/a.gyp:a" then
    some { type := c!"static_library", sources := [c!"a.cc"], actions := [], rules := [],
           dependencies := [c!"d/a.gyp:b"] }
  else if t = c!"d/a.gyp:b" then
    some { type := c!"static_library", sources := [c!"b.cc"], actions := [], rules := [],
           dependencies := [] }
  else if t = c!"d/a.gyp:y" then
    some { type := c!"none", sources := [], actions := [], rules := [],
           dependencies := [c!"d/a.gyp:b"] }
  else none

/-- The build, with the target list in the given order. -/
def slInput (order : List Str) : AInput where
  targetList := order
  dicts := slDicts
  data := fun f => if f = c!"d/a.gyp" then some [] else none
  toplevel := c!"/src"
  files := [c!"d/a.cc", c!"d/b.cc"]
  buildFiles := [c!"d/a.gyp"]
  additional := [c!"z"]
  tests := []
  includes := []

/-- C46, violated: a changed static library that is linked into nothing is said (in the comment
in the source) to be always compiled by name, but whether it is depends on the order of the
target list.  Both `a` and `b` have changed and nothing links them; `a` is reported when it
is found before `b`, and not when it is found after. -/
theorem C46_static_library_order :
    analyze (slInput [c!"d/a.gyp:y", c!"d/a.gyp:z"]) (fun _ l => l) 20 10 =
      .ok { status := .found, testTargets := [], compileTargets := [c!"a", c!"b", c!"z"],
            invalidTargets := [] } ∧
    analyze (slInput [c!"d/a.gyp:z", c!"d/a.gyp:y"]) (fun _ l => l) 20 10 =
      .ok { status := .found, testTargets := [], compileTargets := [c!"b", c!"z"],
            invalidTargets := [] } := by
  constructor <;> decide +kernel

end Gyp
