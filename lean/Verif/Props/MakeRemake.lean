import Verif.Proofs.MakeRerun
/-
C76: a file is made again if and only if its command or a prerequisite has changed.
-/
namespace Gyp
open Spec

section
variable {flavor : Str} {vals : Str → Str} {target name : Str} {newer oo : List Str} {command record dep : Str}

/-- C76: the recipe of an output is empty if and only if the recorded command is the one it would
be made by now and no prerequisite has changed. -/
theorem C76_needed (h : Situation vals target name newer oo command record) (ht : OutputName target) :
    callText (macroDefs headerMacros (headerDefines flavor)) vals c!"do_cmd" [name, dep] = [] ↔
      record = command ∧ ¬ Outdated newer oo := by
  classical
  rw [call_value h ht]
  by_cases hc : command = record ∧ ¬ Outdated newer oo
  · rw [if_pos hc]
    simp [hc.1, hc.2]
  · rw [if_neg hc]
    constructor
    · intro e
      exact absurd e (doCmdLines_ne _ _)
    · rintro ⟨h1, h2⟩
      exact absurd ⟨h1.symm, h2⟩ hc

/-- C76: otherwise the recipe prints a message, makes the directories of the output and of its
record, runs the command once as it is, and then records it, so that make reads the same command
in the next build.  What follows only adds to the record. -/
theorem C76_recipe (h : Situation vals target name newer oo command record) (ht : OutputName target)
    (hc : RecordedCommand command)
    (hr : callText (macroDefs headerMacros (headerDefines flavor)) vals c!"do_cmd" [name, dep] ≠ []) :
    ∃ message directories finished log written,
      recipeLines (callText (macroDefs headerMacros (headerDefines flavor)) vals c!"do_cmd" [name, dep]) =
        [message, directories, c!"@" ++ command] ++ finished ++ [log] ++
          (if dep = [] then [c!"@"] else headerLines (recordFile vals target) target) ∧
      shellWords (message.drop 1) = some [c!"printf", c!"%s\\n",
        c!"  " ++ if vals c!"quiet" = [] then command else vals (c!"quiet_cmd_" ++ name)] ∧
      shellWords (directories.drop 1) = some [c!"mkdir", c!"-p", dirPart target, dirPart (recordFile vals target)] ∧
      (finished = [] ∨ finished = [c!"@echo \"  " ++ vals (c!"quiet_cmd_" ++ name) ++ c!": Finished\""]) ∧
      printsTo log = some (recordFile vals target, written) ∧
      ∀ rest, makeAssignment (written ++ rest) = some (c!"cmd_" ++ target, command) := by
  classical
  have e := call_value (flavor := flavor) (dep := dep) h ht
  rw [e] at hr ⊢
  have hn : ¬ (command = record ∧ ¬ Outdated newer oo) := fun hh => hr (if_pos hh)
  rw [if_neg hn, doCmd_lines h ht hc]
  have hf := h.fileName ht
  refine ⟨_, _, _, _, recordOf vals command ++ c!"\n", rfl, ?_, ?_, ?_, ?_, ?_⟩
  · show shellWords (echoOf _) = _
    rw [echo_words]
    rcases h.quiet with e | e <;> rw [e]
    · rw [List.nil_append, h.atCommand, if_pos rfl]
    · rw [if_neg (by decide)]
      rfl
  · exact mkdir_words ht.dir hf.dir
  · split
    · exact .inl rfl
    · right
      simp
  · exact echo_prints hf
  · exact record_read h ht hc

theorem leaves_record (h : Situation vals target name newer oo command record) (ht : OutputName target)
    (hc : RecordedCommand command)
    (hr : callText (macroDefs headerMacros (headerDefines flavor)) vals c!"do_cmd" [name, dep] ≠ []) :
    ∃ text, leavesIn (recordFile vals target)
        (recipeLines (callText (macroDefs headerMacros (headerDefines flavor)) vals c!"do_cmd" [name, dep])) = some text ∧
      ∀ rest, makeAssignment (text ++ rest) = some (c!"cmd_" ++ target, command) := by
  obtain ⟨m, d, f, l, w, e, -, -, -, hl, hw⟩ := C76_recipe h ht hc hr
  refine ⟨w, ?_, hw⟩
  rw [e]
  unfold leavesIn
  have h0 : ∀ x ∈ (if dep = [] then [c!"@"] else headerLines (recordFile vals target) target), printsTo x = none := by
    intro x hx
    split at hx
    · simp only [List.mem_singleton] at hx
      subst hx
      decide
    · unfold headerLines at hx
      simp only [List.mem_cons, List.not_mem_nil, or_false] at hx
      have : startsWith x c!"@printf " = false := by
        rcases hx with rfl | rfl | rfl | rfl | rfl | rfl | rfl | rfl | rfl | rfl <;> rfl
      unfold printsTo
      rw [this]
      rfl
  rw [List.filterMap_append, List.filterMap_append]
  have h1 : ((if dep = [] then [c!"@"] else headerLines (recordFile vals target) target).filterMap fun l =>
      (printsTo l).bind fun (f, x) => if f = recordFile vals target then some x else none) = [] := by
    rw [List.filterMap_eq_nil_iff]
    intro x hx
    rw [h0 x hx]
    rfl
  rw [h1, List.append_nil, List.getLast?_append]
  simp [hl]

theorem lastMade_append (h : List (Visit × Bool)) (e : Visit × Bool) :
    lastMade (h ++ [e]) = if e.2 && e.1.succeeded then some e.1.command else lastMade h := by
  unfold lastMade
  rw [List.filter_append]
  cases hb : e.2 && e.1.succeeded <;> simp [hb]

/-- C76: over any sequence of builds, a command is run if and only if a prerequisite has changed
or the command is not the one that last made the output. -/
theorem C76_history {h : List (Visit × Bool)} {r : Str}
    (hv : Visits (macroDefs headerMacros (headerDefines flavor)) target name dep h r) (ht : OutputName target)
    (hc : ∀ e ∈ h, RecordedCommand e.1.command) {v : Visit} (hn : v.command ≠ [])
    (hs : Situation vals target name newer oo v.command r) (ho : v.outdated = true ↔ Outdated newer oo) :
    callText (macroDefs headerMacros (headerDefines flavor)) vals c!"do_cmd" [name, dep] ≠ [] ↔
      v.outdated = true ∨ lastMade h ≠ some v.command := by
  have key : r = (lastMade h).getD [] := by
    clear hs ho
    induction hv with
    | start => rfl
    | skip _ _ _ _ ih =>
      rw [lastMade_append]
      exact ih fun e he => hc e (List.mem_append_left _ he)
    | fail _ _ _ _ hf ih =>
      rw [lastMade_append, hf]
      exact ih fun e he => hc e (List.mem_append_left _ he)
    | made _ h1 _ h3 h4 h5 h6 ih =>
      rename_i h' r0 v' vals' newer' oo' text rest r' _
      obtain ⟨text', e1, e2⟩ := leaves_record h1 ht (hc _ (List.mem_append_right _ (List.mem_singleton_self _))) h3
      rw [h5] at e1
      have e1 := Option.some.inj e1
      subst e1
      rw [e2] at h6
      have h6 := (Prod.mk.inj (Option.some.inj h6)).2
      rw [lastMade_append, h4]
      exact h6.symm
  rw [Ne, C76_needed hs ht, key]
  rw [ho]
  cases e : lastMade h with
  | none =>
    simp [Ne.symm hn]
  | some x =>
    simp only [Option.getD_some, Option.some.injEq, ne_eq]
    tauto

end

/-! ### Examples -/

/-- What make knows of an output in an example. -/
def exampleVals (command record : Str) (newer : Str) (name : Str) : Str :=
  if name = c!"@" then c!"out/a.o"
  else if name = c!"?" then newer
  else if name = c!"cmd_cc" then command
  else if name = c!"cmd_out/a.o" then record
  else if name = c!"quiet" then c!"quiet_"
  else if name = c!"quiet_cmd_cc" then c!"CC out/a.o"
  else if name = c!"depsdir" then c!".deps"
  else []

theorem exampleSituation (command record : Str) (newer : List Str) (hn : ∀ p ∈ newer, ListName p) :
    Situation (exampleVals command record (joinWith [' '] newer)) c!"out/a.o" c!"cc" newer [] command record :=
  ⟨rfl, rfl, rfl, rfl, rfl, rfl, .inr rfl, by show '\n' ∉ c!"CC out/a.o"; decide,
    by show OutputName c!".deps"; unfold OutputName; decide, fun p hp => hn p (by simpa using hp)⟩

example : OutputName c!"out/a.o" ∧ RecordedCommand c!"cc '-DA=$B' -c a.c" :=
  ⟨by unfold OutputName; decide, by decide, by decide, by rintro x ⟨⟩; rfl, by decide⟩

/-- The command changed. -/
example : callText (macroDefs headerMacros (headerDefines c!"linux"))
    (exampleVals c!"cc -c a.c" c!"cc a.c" []) c!"do_cmd" [c!"cc", c!"1"] ≠ [] := by
  intro h
  have := ((C76_needed (exampleSituation _ _ [] (by simp)) (by unfold OutputName; decide)).mp h).1
  revert this
  decide

/-- An output that was made is not made again, until a header is newer. -/
example : Visits (macroDefs headerMacros (headerDefines c!"linux")) c!"out/a.o" c!"cc" c!"1"
    [(⟨c!"cc '$x'", true, true⟩, true), (⟨c!"cc '$x'", false, true⟩, false), (⟨c!"cc '$x'", true, false⟩, true)]
    c!"cc '$x'" := by
  have ht : OutputName c!"out/a.o" := by unfold OutputName; decide
  have hc : RecordedCommand c!"cc '$x'" := ⟨by decide, by decide, by rintro x ⟨⟩; rfl, by decide⟩
  have hn : ∀ p ∈ [c!"a.h"], ListName p := by unfold ListName; decide
  have o1 : Outdated [c!"a.h"] [] := ⟨c!"a.h", by simp, by decide, by simp⟩
  have o2 : ¬ Outdated [] [] := by rintro ⟨p, hp, -⟩; cases hp
  have s1 := exampleSituation c!"cc '$x'" [] [c!"a.h"] hn
  have r1 : callText (macroDefs headerMacros (headerDefines c!"linux")) (exampleVals c!"cc '$x'" [] (joinWith [' '] [c!"a.h"]))
      c!"do_cmd" [c!"cc", c!"1"] ≠ [] := by
    rw [Ne, C76_needed s1 ht]
    rintro ⟨h, -⟩
    cases h
  obtain ⟨text, e1, e2⟩ := leaves_record s1 ht hc r1
  have v1 := Visits.made (v := ⟨c!"cc '$x'", true, true⟩) .start s1 (by simp [o1]) r1 rfl e1 (e2 [])
  have s2 := exampleSituation c!"cc '$x'" c!"cc '$x'" [] (by simp)
  have v2 := Visits.skip (v := ⟨c!"cc '$x'", false, true⟩) v1 s2 (by simp [o2]) ((C76_needed s2 ht).mpr ⟨rfl, o2⟩)
  have s3 := exampleSituation c!"cc '$x'" c!"cc '$x'" [c!"a.h"] hn
  exact Visits.fail (v := ⟨c!"cc '$x'", true, false⟩) v2 s3 (by simp [o1])
    (by rw [Ne, C76_needed s3 ht]; exact fun h => h.2 o1) rfl

/-! ### Where the code deviates -/

/-- A command with a number sign is taken for a changed one in every build: make reads the recorded
one only up to the number sign. -/
theorem C76_number_sign :
    ∃ text, leavesIn c!".deps/out/a.o.d" (recipeLines (callText (macroDefs headerMacros (headerDefines c!"linux"))
        (exampleVals c!"cc '-DA=#' a.c" [] []) c!"do_cmd" [c!"cc", c!"1"])) = some text ∧
      makeAssignment text = some (c!"cmd_out/a.o", c!"cc '-DA=") ∧
      callText (macroDefs headerMacros (headerDefines c!"linux"))
        (exampleVals c!"cc '-DA=#' a.c" c!"cc '-DA=" []) c!"do_cmd" [c!"cc", c!"1"] ≠ [] := by
  refine ⟨c!"cmd_out/a.o := cc '-DA=#' a.c\n", ?_, by decide, ?_⟩
  · decide +kernel
  · intro h
    have := ((C76_needed (exampleSituation _ _ [] (by simp)) (by unfold OutputName; decide)).mp h).1
    revert this
    decide

end Gyp
