import Verif.Proofs.MakeTools
/-
C89: which compilers, linker and archiver the makefiles run.
-/
namespace Gyp

open Spec

theorem firstGiven_append (a b : List (Option Str)) (d : Str) :
    firstGiven (a ++ b) d = firstGiven a (firstGiven b d) := by
  induction a with
  | nil => rfl
  | cons x xs ih => cases x with
    | none => exact ih
    | some t => rfl

theorem firstGiven_default {P : Str → Prop} (l : List (Option Str)) {d d' : Str}
    (h : (∀ x ∈ l, x = none) → (P d ↔ P d')) : P (firstGiven l d) ↔ P (firstGiven l d') := by
  induction l with
  | nil => exact h (by simp)
  | cons x xs ih => cases x with
    | some t => exact Iff.rfl
    | none => exact ih fun hx => h (by simpa using hx)

/-- For ordinary inputs the settings are written, and make understands every line of them. -/
theorem C89_read {conf : Str → Option Str} {settings : List (Str × Str)}
    (h : Ordinary conf settings) (flavor : Str) (builtin env cmd : Str → Option Str) :
    ∃ text, toolsText flavor conf settings = some text ∧
      ∃ st, toolVarsAfter (varsAtStart builtin env cmd) text = some st := by
  obtain ⟨text, h1, h2⟩ := tools_after h flavor
  obtain ⟨st, h3, _⟩ := h2 (varsAtStart builtin env cmd)
  exact ⟨text, h1, st, h3⟩

section

variable {conf : Str → Option Str} {settings : List (Str × Str)} (h : Ordinary conf settings)
  {flavor text : Str} (ht : toolsText flavor conf settings = some text)
  {builtin env cmd : Str → Option Str} {st : ToolVars}
  (hst : toolVarsAfter (varsAtStart builtin env cmd) text = some st) (hb : NoBuiltin builtin)

include h ht hst hb

/-- The values of the variables that have no built-in value and are not treated specially. -/
theorem plainValue {n d : Str} (hm : matchesWrapper n = false) (hs : specialName n = false)
    (hn : builtin n = none)
    (hd : firstEntry (headerEntries (flavorParams flavor conf)) n = some d) :
    toolValue st n = firstGiven [cmd n, env n, settingOf settings n] d := by
  rw [tools_value h ht hst n hm, hs, hn, hd]
  simp only [Bool.false_eq_true, if_false, Option.getD_some]
  cases cmd n <;> cases env n <;> rfl

/-- The C and C++ compilers of the target are, whatever the order of the lines: what is given to
make by the name `CC.target`, on its command line before its environment; the global setting of that
name; what gyp was given as `CC_target` or else as `CC`; and if there is none of these what `CC`
means to make: its command line, its environment, the global setting, the built-in value. -/
theorem C89_target_compilers (hz : flavor ≠ c!"zos") :
    ∀ X ∈ [c!"CC", c!"CXX"], ∀ r,
      CommandFor st (c!"$(" ++ (X ++ c!".target") ++ c!")") r ↔
      CommandFor st (firstGiven
        [cmd (X ++ c!".target"), env (X ++ c!".target"), settingOf settings (X ++ c!".target"),
         conf (X ++ c!"_target"), conf X,
         cmd X, env X, settingOf settings X, builtin X] []) r := by
  intro X hX r
  have hp : flavorParams flavor conf = toolParams conf := by unfold flavorParams; rw [if_neg hz]
  have main : IsName X → IsName (X ++ c!".target") → matchesWrapper X = false →
      specialName X = true →
      replaceChar '.' c!"_" X = X →
      firstEntry (headerEntries (flavorParams flavor conf)) X = none →
      toolValue st (X ++ c!".target") = firstGiven
        [cmd (X ++ c!".target"), env (X ++ c!".target"), settingOf settings (X ++ c!".target")]
        (environFallback conf [X ++ c!"_target", X] (c!"$(" ++ X ++ c!")")) →
      (CommandFor st (c!"$(" ++ (X ++ c!".target") ++ c!")") r ↔
        CommandFor st (firstGiven
          [cmd (X ++ c!".target"), env (X ++ c!".target"), settingOf settings (X ++ c!".target"),
           conf (X ++ c!"_target"), conf X,
           cmd X, env X, settingOf settings X, builtin X] []) r) := by
    intro n1 n2 n3 n4 n5 n6 hv
    rw [commandFor_ref n2, hv, environFallback_two, ← firstGiven_append]
    have hsplit : firstGiven [cmd (X ++ c!".target"), env (X ++ c!".target"),
          settingOf settings (X ++ c!".target"), conf (X ++ c!"_target"), conf X,
          cmd X, env X, settingOf settings X, builtin X] [] =
        firstGiven ([cmd (X ++ c!".target"), env (X ++ c!".target"),
          settingOf settings (X ++ c!".target")] ++ [conf (X ++ c!"_target"), conf X])
          (firstGiven [cmd X, env X, settingOf settings X, builtin X] []) := by
      rw [← firstGiven_append]
      rfl
    rw [hsplit]
    apply firstGiven_default (P := fun t => CommandFor st t r)
    intro hnone
    have hc : conf X = none := hnone _ (by simp)
    rw [commandFor_ref n1, tools_value h ht hst X n3, n4, n6, n5, hc]
    simp only [if_true, Option.getD_none]
    have : (settingOf settings X).map (fun t => t) = settingOf settings X := Option.map_id' ..
    rw [this]
  simp only [List.mem_cons, List.not_mem_nil, or_false] at hX
  rcases hX with rfl | rfl
  · exact main (by decide) (by decide) (by decide) (by decide) (by decide) (by rw [hp]; rfl)
      (plainValue h ht hst hb (by decide) (by decide) (hb _ (by decide)) (by rw [hp]; rfl))
  · exact main (by decide) (by decide) (by decide) (by decide) (by decide) (by rw [hp]; rfl)
      (plainValue h ht hst hb (by decide) (by decide) (hb _ (by decide)) (by rw [hp]; rfl))

/-- The archiver of the target: as for the compilers, but the global setting `AR` comes after what
is built into make. -/
theorem C89_target_archiver : ∀ r,
    CommandFor st c!"$(AR.target)" r ↔
      CommandFor st (firstGiven
        [cmd c!"AR.target", env c!"AR.target", settingOf settings c!"AR.target",
         conf c!"AR_target", conf c!"AR",
         cmd c!"AR", env c!"AR", builtin c!"AR", settingOf settings c!"AR"] []) r := by
  intro r
  have hp : firstEntry (headerEntries (flavorParams flavor conf)) c!"AR.target" =
      some (environFallback conf [c!"AR_target", c!"AR"] c!"$(AR)") := by
    unfold flavorParams; split <;> rfl
  have hp' : firstEntry (headerEntries (flavorParams flavor conf)) c!"AR" = none := by
    unfold flavorParams; split <;> rfl
  have := commandFor_ref (st := st) (k := c!"AR.target") (r := r) (by decide)
  rw [show c!"$(AR.target)" = c!"$(" ++ c!"AR.target" ++ c!")" from rfl, this,
    plainValue h ht hst hb (by decide) (by decide) (hb _ (by decide)) hp, environFallback_two,
    ← firstGiven_append]
  rw [show ([cmd c!"AR.target", env c!"AR.target", settingOf settings c!"AR.target",
         conf c!"AR_target", conf c!"AR",
         cmd c!"AR", env c!"AR", builtin c!"AR", settingOf settings c!"AR"] : List (Option Str)) =
      ([cmd c!"AR.target", env c!"AR.target", settingOf settings c!"AR.target"] ++
         [conf c!"AR_target", conf c!"AR"]) ++
      [cmd c!"AR", env c!"AR", builtin c!"AR", settingOf settings c!"AR"] from rfl,
    firstGiven_append _ [cmd c!"AR", env c!"AR", builtin c!"AR", settingOf settings c!"AR"]]
  apply firstGiven_default (P := fun t => CommandFor st t r)
  intro _
  have h2 := commandFor_ref (st := st) (k := c!"AR") (r := r) (by decide)
  rw [show c!"$(AR)" = c!"$(" ++ c!"AR" ++ c!")" from rfl, h2, tools_value h ht hst _ (by decide),
    hp', if_neg (by decide)]
  rfl

/-- The linker of the target: what is given by that name, to make, in the global settings or to gyp;
else what `LINK` is for make; and else the C++ compiler of the target. -/
theorem C89_target_linker : ∀ r,
    CommandFor st c!"$(LINK.target)" r ↔
      CommandFor st (firstGiven
        [cmd c!"LINK.target", env c!"LINK.target", settingOf settings c!"LINK.target",
         conf c!"LINK_target", conf c!"LINK",
         cmd c!"LINK", env c!"LINK", settingOf settings c!"LINK"] c!"$(CXX.target)") r := by
  intro r
  have hp : firstEntry (headerEntries (flavorParams flavor conf)) c!"LINK.target" =
      some (environFallback conf [c!"LINK_target", c!"LINK"] c!"$(LINK)") := by
    unfold flavorParams; split <;> rfl
  have hp' : firstEntry (headerEntries (flavorParams flavor conf)) c!"LINK" =
      some c!"$(CXX.target)" := by
    unfold flavorParams; split <;> rfl
  have := commandFor_ref (st := st) (k := c!"LINK.target") (r := r) (by decide)
  rw [show c!"$(LINK.target)" = c!"$(" ++ c!"LINK.target" ++ c!")" from rfl, this,
    plainValue h ht hst hb (by decide) (by decide) (hb _ (by decide)) hp, environFallback_two,
    ← firstGiven_append]
  rw [show ([cmd c!"LINK.target", env c!"LINK.target", settingOf settings c!"LINK.target",
         conf c!"LINK_target", conf c!"LINK",
         cmd c!"LINK", env c!"LINK", settingOf settings c!"LINK"] : List (Option Str)) =
      ([cmd c!"LINK.target", env c!"LINK.target", settingOf settings c!"LINK.target"] ++
         [conf c!"LINK_target", conf c!"LINK"]) ++
      [cmd c!"LINK", env c!"LINK", settingOf settings c!"LINK"] from rfl,
    firstGiven_append _ [cmd c!"LINK", env c!"LINK", settingOf settings c!"LINK"]]
  apply firstGiven_default (P := fun t => CommandFor st t r)
  intro _
  have h2 := commandFor_ref (st := st) (k := c!"LINK") (r := r) (by decide)
  rw [show c!"$(LINK)" = c!"$(" ++ c!"LINK" ++ c!")" from rfl, h2,
    plainValue h ht hst hb (by decide) (by decide) (hb _ (by decide)) hp']

/-- The compilers of the host: what make is given, then what gyp was given as `CC_host`, then the
global setting `CC.host`, then what gyp was given as `CC`, and else `gcc` and `g++`. -/
theorem C89_host_compilers (hz : flavor ≠ c!"zos") :
    ∀ X ∈ [(c!"CC", c!"gcc"), (c!"CXX", c!"g++")],
      toolValue st (X.1 ++ c!".host") = firstGiven
        [cmd (X.1 ++ c!".host"), env (X.1 ++ c!".host"), conf (X.1 ++ c!"_host"),
         settingOf settings (X.1 ++ c!".host"), conf X.1] X.2 := by
  intro X hX
  have hp : flavorParams flavor conf = toolParams conf := by unfold flavorParams; rw [if_neg hz]
  simp only [List.mem_cons, List.not_mem_nil, or_false] at hX
  have fin : ∀ (a b s t u v : Option Str) (d : Str), v = none →
      firstGiven [a, b, s.map fun t' => t.getD t', v] (firstGiven [t, u] d) =
        firstGiven [a, b, t, s, u] d := by
    intro a b s t u v d hv
    subst hv
    cases a <;> cases b <;> cases s <;> cases t <;> cases u <;> rfl
  rcases hX with rfl | rfl
  · simp only
    rw [tools_value h ht hst _ (by decide), hp, if_pos (by decide)]
    exact (congrArg _ (environFallback_two _ _ _ _)).trans (fin _ _ _ _ _ _ _ (hb _ (by decide)))
  · simp only
    rw [tools_value h ht hst _ (by decide), hp, if_pos (by decide)]
    exact (congrArg _ (environFallback_two _ _ _ _)).trans (fin _ _ _ _ _ _ _ (hb _ (by decide)))

/-- The archiver and the linker of the host. -/
theorem C89_host_others :
    toolValue st c!"AR.host" = firstGiven
      [cmd c!"AR.host", env c!"AR.host", settingOf settings c!"AR.host", conf c!"AR_host",
       conf c!"AR"] c!"ar" ∧
    toolValue st c!"LINK.host" = firstGiven
      [cmd c!"LINK.host", env c!"LINK.host", settingOf settings c!"LINK.host", conf c!"LINK_host",
       conf c!"LINK"] c!"$(CXX.host)" := by
  constructor
  · rw [plainValue h ht hst hb (d := environFallback conf [c!"AR_host", c!"AR"] c!"ar") (by decide)
      (by decide) (hb _ (by decide)) (by unfold flavorParams; split <;> rfl), environFallback_two,
      ← firstGiven_append]
    rfl
  · rw [plainValue h ht hst hb (d := environFallback conf [c!"LINK_host", c!"LINK"] c!"$(CXX.host)")
      (by decide) (by decide) (hb _ (by decide)) (by unfold flavorParams; split <;> rfl),
      environFallback_two, ← firstGiven_append]
    rfl

/-- The PL/I compilers. -/
theorem C89_pli : ∀ T ∈ [c!"target", c!"host"],
    toolValue st (c!"PLI." ++ T) = firstGiven
      [cmd (c!"PLI." ++ T), env (c!"PLI." ++ T), settingOf settings (c!"PLI." ++ T),
       conf (c!"PLI_" ++ T), conf c!"PLI"] c!"pli" := by
  intro T hT
  have fin : ∀ a b c d e : Option Str,
      firstGiven [a, b, c] (firstGiven [d, e] c!"pli") = firstGiven [a, b, c, d, e] c!"pli" := by
    intro a b c d e
    cases a <;> cases b <;> cases c <;> rfl
  simp only [List.mem_cons, List.not_mem_nil, or_false] at hT
  rcases hT with rfl | rfl
  · rw [← fin, ← environFallback_two]
    exact plainValue h ht hst hb (by decide) (by decide) (hb _ (by decide))
      (by unfold flavorParams; split <;> rfl)
  · rw [← fin, ← environFallback_two]
    exact plainValue h ht hst hb (by decide) (by decide) (hb _ (by decide))
      (by unfold flavorParams; split <;> rfl)

/-- The flags: what is given by the name, else those that make has by the usual names, which for the
host have `_host` at the end. -/
theorem C89_flags :
    ∀ x ∈ [(c!"CFLAGS.target", c!"$(CPPFLAGS) $(CFLAGS)"),
           (c!"CXXFLAGS.target", c!"$(CPPFLAGS) $(CXXFLAGS)"),
           (c!"LDFLAGS.target", c!"$(LDFLAGS)"),
           (c!"CFLAGS.host", c!"$(CPPFLAGS_host) $(CFLAGS_host)"),
           (c!"CXXFLAGS.host", c!"$(CPPFLAGS_host) $(CXXFLAGS_host)"),
           (c!"LDFLAGS.host", c!"$(LDFLAGS_host)")],
      toolValue st x.1 = firstGiven [cmd x.1, env x.1, settingOf settings x.1] x.2 := by
  intro x hx
  simp only [List.mem_cons, List.not_mem_nil, or_false] at hx
  rcases hx with rfl | rfl | rfl | rfl | rfl | rfl
  all_goals
    exact plainValue h ht hst hb (by decide) (by decide) (hb _ (by decide))
      (by unfold flavorParams; split <;> rfl)

/-- On z/OS the compilers that make has built in are not used, and the compilers that are used when
none is given go with the C compiler. -/
theorem C89_zos (hz : flavor = c!"zos") :
    ∃ cc cxx, (cc, cxx) = zosCompilers (firstGiven [conf c!"CC_target", conf c!"CC"] c!"njsc") ∧
    toolValue st c!"CC.target" = firstGiven
      [cmd c!"CC.target", env c!"CC.target", settingOf settings c!"CC.target",
       conf c!"CC_target", conf c!"CC"] c!"njsc" ∧
    toolValue st c!"CXX.target" = firstGiven
      [cmd c!"CXX.target", env c!"CXX.target", settingOf settings c!"CXX.target",
       conf c!"CXX_target", conf c!"CXX"] cxx ∧
    toolValue st c!"CC.host" = firstGiven
      [cmd c!"CC.host", env c!"CC.host", conf c!"CC_host", settingOf settings c!"CC.host",
       conf c!"CC"] cc ∧
    toolValue st c!"CXX.host" = firstGiven
      [cmd c!"CXX.host", env c!"CXX.host", conf c!"CXX_host", settingOf settings c!"CXX.host",
       conf c!"CXX"] cxx := by
  have fin : ∀ (a b s t u v : Option Str) (d : Str), v = none →
      firstGiven [a, b, s.map fun t' => t.getD t', v] (firstGiven [t, u] d) =
        firstGiven [a, b, t, s, u] d := by
    intro a b s t u v d hv
    subst hv
    cases a <;> cases b <;> cases s <;> cases t <;> cases u <;> rfl
  refine ⟨(if firstGiven [conf c!"CC_target", conf c!"CC"] c!"njsc" = c!"clang" then (c!"clang", c!"clang++")
    else if firstGiven [conf c!"CC_target", conf c!"CC"] c!"njsc" = c!"ibm-clang64" then (c!"ibm-clang64", c!"ibm-clang++64")
    else if firstGiven [conf c!"CC_target", conf c!"CC"] c!"njsc" = c!"ibm-clang" then (c!"ibm-clang", c!"ibm-clang++")
    else (c!"njsc", c!"njsc++")).1, (if firstGiven [conf c!"CC_target", conf c!"CC"] c!"njsc" = c!"clang" then (c!"clang", c!"clang++")
    else if firstGiven [conf c!"CC_target", conf c!"CC"] c!"njsc" = c!"ibm-clang64" then (c!"ibm-clang64", c!"ibm-clang++64")
    else if firstGiven [conf c!"CC_target", conf c!"CC"] c!"njsc" = c!"ibm-clang" then (c!"ibm-clang", c!"ibm-clang++")
    else (c!"njsc", c!"njsc++")).2, ?_, ?_, ?_, ?_, ?_⟩
  · generalize firstGiven [conf c!"CC_target", conf c!"CC"] c!"njsc" = t
    unfold zosCompilers
    by_cases h1 : t = c!"clang"
    · rw [h1]; rfl
    · by_cases h2 : t = c!"ibm-clang64"
      · rw [h2]; rfl
      · by_cases h3 : t = c!"ibm-clang"
        · rw [h3]; rfl
        · rw [if_neg h1, if_neg h2, if_neg h3]
          simp [Ne.symm h1, Ne.symm h2, Ne.symm h3]
  · rw [plainValue h ht hst hb (d := environFallback conf [c!"CC_target", c!"CC"] c!"njsc")
      (by decide) (by decide) (hb _ (by decide)) (by unfold flavorParams; rw [if_pos hz]; rfl),
      environFallback_two, ← firstGiven_append]
    rfl
  · rw [plainValue h ht hst hb (d := environFallback conf [c!"CXX_target", c!"CXX"] _)
      (by decide) (by decide) (hb _ (by decide))
      (by unfold flavorParams zosParams; rw [if_pos hz, environFallback_two]; rfl),
      environFallback_two, ← firstGiven_append]
    rfl
  · rw [tools_value h ht hst _ (by decide), if_pos (by decide)]
    refine Eq.trans (congrArg _ ?_) (fin _ _ _ _ _ _ _ (hb _ (by decide)))
    rw [← environFallback_two]
    unfold flavorParams zosParams
    rw [if_pos hz, environFallback_two]
    rfl
  · rw [tools_value h ht hst _ (by decide), if_pos (by decide)]
    refine Eq.trans (congrArg _ ?_) (fin _ _ _ _ _ _ _ (hb _ (by decide)))
    rw [← environFallback_two]
    unfold flavorParams zosParams
    rw [if_pos hz, environFallback_two]
    rfl

end

/-! ### Consequences -/

/-- When make runs in the environment gyp ran in, and is given nothing on its command line: the
environment comes before the global settings, and these before what is built into make. -/
theorem C89_same_environment {conf : Str → Option Str} {settings : List (Str × Str)}
    (h : Ordinary conf settings) {flavor text : Str}
    (ht : toolsText flavor conf settings = some text) {builtin : Str → Option Str} {st : ToolVars}
    (hst : toolVarsAfter (varsAtStart builtin conf fun _ => none) text = some st)
    (hb : NoBuiltin builtin) (hz : flavor ≠ c!"zos") :
    ∀ X ∈ [c!"CC", c!"CXX"], ∀ r,
      CommandFor st (c!"$(" ++ (X ++ c!".target") ++ c!")") r ↔
      CommandFor st (firstGiven
        [conf (X ++ c!".target"), settingOf settings (X ++ c!".target"),
         conf (X ++ c!"_target"), conf X, settingOf settings X, builtin X] []) r := by
  intro X hX r
  rw [C89_target_compilers h ht hst hb hz X hX r]
  have : ∀ a b c d e f : Option Str, firstGiven [none, a, b, c, d, none, d, e, f] [] =
      firstGiven [a, b, c, d, e, f] [] := by
    intro a b c d e f
    cases a <;> cases b <;> cases c <;> cases d <;> rfl
  rw [this]

/-- The generator stops at an empty value, and only there. -/
theorem C89_refused (flavor : Str) (conf : Str → Option Str) (settings : List (Str × Str))
    (hk : ∀ x ∈ settings, '\n' ∉ x.1) :
    toolsText flavor conf settings = none ↔ ∃ x ∈ settings, ¬ WrapperKey x.1 ∧ x.2 = [] := by
  unfold toolsText
  rw [Option.map_eq_none_iff]
  generalize wrappersOf settings = ws
  induction settings generalizing ws with
  | nil => simp [globalLines]
  | cons x rest ih =>
    obtain ⟨k, v⟩ := x
    have ih := ih fun x hx => hk x (by simp [hx])
    have hw := matchesWrapper_iff (hk (k, v) (by simp))
    cases hm : matchesWrapper k with
    | true =>
      have hwk : WrapperKey k := hw.mp hm
      rw [globalLines, if_pos hm, ih ws]
      simp [hwk]
    | false =>
      have hwk : ¬ WrapperKey k := fun h => by rw [hw.mpr h] at hm; cases hm
      by_cases hv : v = []
      · subst hv
        rw [globalLines]
        simp [hm, hwk]
      · rw [globalLines_cons conf ws rest k v hm hv, Option.map_eq_none_iff, ih]
        simp [hv]

/-- All targets must come from build files with the same settings. -/
theorem C89_same_settings (flavor : Str) (conf : Str → Option Str) (first : List (Str × Str))
    (rest : List (List (Str × Str))) (text : Str) :
    toolsOfTargets flavor conf (first :: rest) = some text ↔
      (∀ s ∈ rest, s = first) ∧ toolsText flavor conf first = some text := by
  rw [toolsOfTargets]
  by_cases hs : ∀ t ∈ rest, first = t
  · rw [if_pos hs]
    exact ⟨fun h => ⟨fun s hm => (hs s hm).symm, h⟩, fun h => h.2⟩
  · rw [if_neg hs]
    constructor
    · intro h; cases h
    · rintro ⟨h, _⟩
      exact absurd (fun t ht => (h t ht).symm) hs

/-! ### Examples -/

/-- GNU make's own values. -/
def gnuBuiltin (k : Str) : Option Str :=
  if k = c!"CC" then some c!"cc" else if k = c!"CXX" then some c!"g++"
  else if k = c!"AR" then some c!"ar" else none

/-- The compilers of the build of Chromium, with a wrapper. -/
def exampleToolSettings : List (Str × Str) :=
  [(c!"CC", c!"third_party/clang"), (c!"AR", c!"third_party/ar"), (c!"CC_wrapper", c!"ccache"),
   (c!"LINK", c!"$(CXX)"), (c!"CC", c!"second")]

def exampleConf (k : Str) : Option Str := if k = c!"CXX" then some c!"clang++" else none

theorem gnuBuiltin_none : NoBuiltin gnuBuiltin := by unfold NoBuiltin; decide

theorem example_ordinary : Ordinary exampleConf exampleToolSettings where
  conf := by
    intro k _ v hv
    unfold exampleConf at hv
    split at hv
    · cases hv
      exact ⟨by decide, by intro c hc; cases hc; decide⟩
    · cases hv
  key := by decide
  value := by decide
  some := by decide

/-- The C compiler is the one in the settings, with its wrapper, the C++ compiler is the one gyp was
given; the archiver of the settings is not used, since make has one of its own. -/
example : ∃ text st, toolsText c!"linux" exampleConf exampleToolSettings = some text ∧
    toolVarsAfter (varsAtStart gnuBuiltin (fun _ => none) fun _ => none) text = some st ∧
    CommandFor st c!"$(CC.target)" c!"$(abspath ccache) $(abspath third_party/clang)" ∧
    CommandFor st c!"$(CXX.target)" c!"clang++" ∧
    CommandFor st c!"$(AR.target)" c!"ar" ∧
    CommandFor st c!"$(LINK.target)" c!"g++" ∧
    toolValue st c!"CC.host" = c!"gcc" := by
  obtain ⟨text, h1, st, h2⟩ := C89_read example_ordinary c!"linux" gnuBuiltin (fun _ => none)
    fun _ => none
  refine ⟨text, st, h1, h2, ?_, ?_, ?_, ?_, ?_⟩
  · refine (C89_target_compilers example_ordinary h1 h2 gnuBuiltin_none (by decide) c!"CC"
      (by decide) _).mpr ?_
    exact .itself _ (by decide)
  · refine (C89_target_compilers example_ordinary h1 h2 gnuBuiltin_none (by decide) c!"CXX"
      (by decide) _).mpr ?_
    exact .itself _ (by decide)
  · refine (C89_target_archiver example_ordinary h1 h2 gnuBuiltin_none _).mpr ?_
    exact .itself _ (by decide)
  · refine (C89_target_linker example_ordinary h1 h2 gnuBuiltin_none _).mpr ?_
    refine .referred _ c!"CXX" _ (by decide) ?_
    have : toolValue st c!"CXX" = c!"g++" := by
      rw [tools_value example_ordinary h1 h2 _ (by decide)]
      decide +kernel
    rw [this]
    exact .itself _ (by decide)
  · exact C89_host_compilers example_ordinary h1 h2 gnuBuiltin_none (by decide) (c!"CC", c!"gcc")
      (by decide)

/-- Since the archiver of GNU make is always defined, the setting `AR` has never an effect on the
archiver of the target. -/
theorem C89_archiver_setting {conf : Str → Option Str} {settings : List (Str × Str)}
    (h : Ordinary conf settings) {flavor text : Str}
    (ht : toolsText flavor conf settings = some text) {env cmd : Str → Option Str} {st : ToolVars}
    (hst : toolVarsAfter (varsAtStart gnuBuiltin env cmd) text = some st) :
    ∀ r, CommandFor st c!"$(AR.target)" r ↔
      CommandFor st (firstGiven
        [cmd c!"AR.target", env c!"AR.target", settingOf settings c!"AR.target",
         conf c!"AR_target", conf c!"AR", cmd c!"AR", env c!"AR"] c!"ar") r := by
  intro r
  rw [C89_target_archiver h ht hst gnuBuiltin_none r]
  have : gnuBuiltin c!"AR" = some c!"ar" := by decide
  rw [this]
  rw [show ([cmd c!"AR.target", env c!"AR.target", settingOf settings c!"AR.target",
         conf c!"AR_target", conf c!"AR", cmd c!"AR", env c!"AR", some c!"ar",
         settingOf settings c!"AR"] : List (Option Str)) =
      [cmd c!"AR.target", env c!"AR.target", settingOf settings c!"AR.target",
         conf c!"AR_target", conf c!"AR", cmd c!"AR", env c!"AR"] ++
         [some c!"ar", settingOf settings c!"AR"] from rfl, firstGiven_append]
  rfl

/-- The compiler gyp was run with is written down: `make CC=...` does not change it. -/
theorem C89_configured_compiler_stays {conf : Str → Option Str} {settings : List (Str × Str)}
    (h : Ordinary conf settings) {flavor text : Str}
    (ht : toolsText flavor conf settings = some text) {builtin env cmd : Str → Option Str}
    {st : ToolVars} (hst : toolVarsAfter (varsAtStart builtin env cmd) text = some st)
    (hb : NoBuiltin builtin) (hz : flavor ≠ c!"zos") {cc : Str} (hc : conf c!"CC" = some cc)
    (h1 : conf c!"CC_target" = none) (h2 : settingOf settings c!"CC.target" = none)
    (h3 : cmd c!"CC.target" = none) (h4 : env c!"CC.target" = none) :
    ∀ r, CommandFor st c!"$(CC.target)" r ↔ CommandFor st cc r := by
  intro r
  have := C89_target_compilers h ht hst hb hz c!"CC" (by decide) r
  rw [show c!"CC" ++ c!".target" = c!"CC.target" from rfl,
    show c!"CC" ++ c!"_target" = c!"CC_target" from rfl, h1, h2, h3, h4, hc] at this
  exact this

/-- The hypotheses are met: `CC=` in the environment of gyp makes the compiler the empty command,
even for `make CC=gcc`. -/
example : ∃ text st,
    toolsText c!"linux" (fun k => if k = c!"CC" then some [] else none) [] = some text ∧
    toolVarsAfter (varsAtStart gnuBuiltin (fun _ => none)
      fun k => if k = c!"CC" then some c!"gcc" else none) text = some st ∧
    CommandFor st c!"$(CC.target)" [] := by
  have ho : Ordinary (fun k => if k = c!"CC" then some [] else none) [] :=
    { conf := by
        intro k _ v hv
        split at hv
        · cases hv; exact ⟨by decide, by intro c hc; cases hc⟩
        · cases hv
      key := by simp
      value := by simp
      some := by simp }
  obtain ⟨text, h1, st, h2⟩ := C89_read ho c!"linux" gnuBuiltin (fun _ => none)
    fun k => if k = c!"CC" then some c!"gcc" else none
  refine ⟨text, st, h1, h2, ?_⟩
  refine (C89_configured_compiler_stays ho h1 h2 gnuBuiltin_none (by decide) (cc := []) rfl
    (by decide) (by decide) rfl rfl _).mpr ?_
  exact .itself _ (by decide)

/-- z/OS with the compiler of IBM. -/
example : ∃ text st,
    toolsText c!"zos" (fun k => if k = c!"CC" then some c!"ibm-clang" else none) [] = some text ∧
    toolVarsAfter (varsAtStart gnuBuiltin (fun _ => none) fun _ => none) text = some st ∧
    toolValue st c!"CXX.target" = c!"ibm-clang++" := by
  have ho : Ordinary (fun k => if k = c!"CC" then some c!"ibm-clang" else none) [] :=
    { conf := by
        intro k _ v hv
        split at hv
        · cases hv; exact ⟨by decide, by intro c hc; cases hc; decide⟩
        · cases hv
      key := by simp
      value := by simp
      some := by simp }
  obtain ⟨text, h1, st, h2⟩ := C89_read ho c!"zos" gnuBuiltin (fun _ => none) fun _ => none
  refine ⟨text, st, h1, h2, ?_⟩
  obtain ⟨cc, cxx, h3, _, h4, _⟩ := C89_zos ho h1 h2 gnuBuiltin_none rfl
  rw [h4]
  have : (cc, cxx) = (c!"ibm-clang", c!"ibm-clang++") := h3
  cases this
  rfl

end Gyp
