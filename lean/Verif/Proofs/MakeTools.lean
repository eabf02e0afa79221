import Verif.Model.MakeTools
import Verif.Spec.MakeTools
import Verif.Props.MakeRules
import Mathlib.Data.List.Induction
/-
Proofs for the tools of the root makefile.
-/
namespace Gyp

open Spec

theorem varNameChar_ne {k : Str} (h : IsName k) {c : Char} (hc : varNameChar c = false) : c ∉ k :=
  fun hm => by have := h.2 c hm; simp [hc] at this

theorem name_head {k : Str} (h : IsName k) : ∃ c r, k = c :: r ∧ varNameChar c = true := by
  cases k with
  | nil => exact absurd rfl h.1
  | cons c r => exact ⟨c, r, rfl, h.2 c (by simp)⟩

theorem name_dropWhile {k s : Str} (h : IsName k) : (k ++ s).dropWhile isBlank = k ++ s := by
  obtain ⟨c, r, rfl, hc⟩ := name_head h
  have hb : isBlank c = false := by
    cases hb : isBlank c with
    | false => rfl
    | true =>
      simp [isBlank] at hb
      rcases hb with rfl | rfl <;> revert hc <;> decide
  simp [List.dropWhile, hb]

theorem rstrip_name {k : Str} (h : IsName k) : rstripBlanks (k ++ c!" ") = k := by
  unfold rstripBlanks
  rw [List.reverse_append]
  have : (List.reverse c!" " ++ k.reverse).dropWhile isBlank = k.reverse := by
    have h1 : (List.reverse c!" " ++ k.reverse) = ' ' :: k.reverse := rfl
    rw [h1]
    have h2 : isBlank ' ' = true := by decide
    simp only [List.dropWhile, h2]
    have hr : IsName k.reverse := ⟨by simpa using h.1, fun c hc => h.2 c (by simpa using hc)⟩
    simpa using name_dropWhile (s := []) hr
  rw [this, List.reverse_reverse]

theorem split1_at {c : Char} {a b : Str} (h : c ∉ a) : split1 c (a ++ c :: b) = some (a, b) := by
  induction a with
  | nil => simp [split1]
  | cons x xs ih =>
    have hx : x ≠ c := fun he => h (by simp [he])
    have := ih fun hm => h (by simp [hm])
    simp [split1, hx, this]

theorem value_dropWhile {v : Str} (h : ∀ c, v.head? = some c → isBlank c = false) :
    (' ' :: v).dropWhile isBlank = v := by
  have h2 : isBlank ' ' = true := by decide
  simp only [List.dropWhile, h2]
  cases v with
  | nil => rfl
  | cons c r => simp [List.dropWhile, h c rfl]

/-- The two kinds of assignments are read as written. -/
theorem readVarLine_line {pre k mid v : Str} (cond : Bool) (hpre : ∀ c ∈ pre, isBlank c = true)
    (hmid : mid = if cond then c!" ?" else c!" ")
    (hk : IsName k) (hv : FitsLine v) (hb : ∀ c, v.head? = some c → isBlank c = false) :
    readVarLine (pre ++ (k ++ (mid ++ '=' :: ' ' :: v))) =
      some (if cond then .unlessDefined k v else .assign k v) := by
  have h0 : (pre ++ (k ++ (mid ++ '=' :: ' ' :: v))).dropWhile isBlank =
      k ++ (mid ++ '=' :: ' ' :: v) := by
    rw [List.dropWhile_append_of_pos hpre, name_dropWhile hk]
  obtain ⟨c, r, hkc, hc⟩ := name_head hk
  have h1 : k ++ (mid ++ '=' :: ' ' :: v) ≠ [] := by simp
  have h2 : (k ++ (mid ++ '=' :: ' ' :: v)).head? ≠ some '#' := by
    rw [hkc]
    intro he
    simp at he
    rw [he] at hc
    revert hc; decide
  have h3 : '#' ∉ k ++ (mid ++ '=' :: ' ' :: v) := by
    have := varNameChar_ne hk (c := '#') (by decide)
    have hm : '#' ∉ mid := by rw [hmid]; cases cond <;> decide
    simp [this, hm, hv.2.1]
  have h4 : (k ++ (mid ++ '=' :: ' ' :: v)).getLast? ≠ some '\\' := by
    cases v with
    | nil => simp
    | cons x xs =>
      have := hv.2.2
      simpa [List.getLast?_append, List.getLast?_cons_cons] using this
  have hsp : split1 '=' (k ++ (mid ++ '=' :: ' ' :: v)) = some (k ++ mid, ' ' :: v) := by
    rw [← List.append_assoc]
    apply split1_at
    have := varNameChar_ne hk (c := '=') (by decide)
    have hm : '=' ∉ mid := by rw [hmid]; cases cond <;> decide
    simp [this, hm]
  unfold readVarLine
  simp only [h0]
  rw [if_neg (by rintro (h | h); exact h1 h; exact h2 h), if_neg (by rintro (h | h); exact h3 h; exact h4 h),
    hsp]
  cases cond with
  | true =>
    simp only [if_true] at hmid
    subst hmid
    have e1 : (k ++ c!" ?").getLast? = some '?' := by simp
    have e2 : (k ++ c!" ?").dropLast = k ++ c!" " := by
      have : k ++ c!" ?" = (k ++ c!" ") ++ ['?'] := by simp
      rw [this, List.dropLast_concat]
    simp only [e1, if_true, e2, rstrip_name hk, hk, value_dropWhile hb]
  | false =>
    simp at hmid
    subst hmid
    have e1 : (k ++ c!" ").getLast? ≠ some '?' := by simp
    simp only [if_neg e1, rstrip_name hk, hk, value_dropWhile hb, if_true]

theorem readVarLine_cond {k v : Str} (hk : IsName k) (hv : FitsLine v)
    (hb : ∀ c, v.head? = some c → isBlank c = false) :
    readVarLine (k ++ c!" ?= " ++ v) = some (.unlessDefined k v) := by
  have := readVarLine_line (pre := []) (mid := c!" ?") true (by simp) rfl hk hv hb
  simpa using this

theorem readVarLine_assign {k v : Str} (hk : IsName k) (hv : FitsLine v)
    (hb : ∀ c, v.head? = some c → isBlank c = false) :
    readVarLine (c!"  " ++ k ++ c!" = " ++ v) = some (.assign k v) := by
  have := readVarLine_line (pre := c!"  ") (mid := c!" ") false (by decide) rfl hk hv hb
  simpa using this

theorem readVarLine_origin {k : Str} (hk : IsName k) :
    readVarLine (c!"ifneq (,$(filter $(origin " ++ k ++ c!"), undefined default))") =
      some (.ifNotGiven k) := by
  have h0 : (c!"ifneq (,$(filter $(origin " ++ k ++ c!"), undefined default))").dropWhile isBlank =
      c!"ifneq (,$(filter $(origin " ++ k ++ c!"), undefined default))" := by
    rfl
  have hsp : split1 '=' (c!"ifneq (,$(filter $(origin " ++ k ++ c!"), undefined default))") =
      none := by
    have hn : '=' ∉ c!"ifneq (,$(filter $(origin " ++ k ++ c!"), undefined default))" := by
      have := varNameChar_ne hk (c := '=') (by decide)
      simp [this]
    generalize c!"ifneq (,$(filter $(origin " ++ k ++ c!"), undefined default))" = t at hn
    induction t with
    | nil => rfl
    | cons x xs ih =>
      have hx : x ≠ '=' := fun he => hn (by simp [he])
      simp [split1, hx, ih fun hm => hn (by simp [hm])]
  have h3 : '#' ∉ c!"ifneq (,$(filter $(origin " ++ k ++ c!"), undefined default))" := by
    have := varNameChar_ne hk (c := '#') (by decide)
    simp [this]
  unfold readVarLine
  simp only [h0]
  have h4 : (c!"ifneq (,$(filter $(origin " ++ k ++ c!"), undefined default))").getLast? ≠
      some '\\' := by
    rw [List.getLast?_append]
    simp
  rw [if_neg (by simp), if_neg (by rintro (h | h); exact h3 h; exact h4 h), hsp]
  simp only
  rw [if_neg (by simp)]
  unfold originCondition
  have hl : (c!"ifneq (,$(filter $(origin " ++ k ++ c!"), undefined default))").length -
      (c!"ifneq (,$(filter $(origin ").length - (c!"), undefined default))").length = k.length := by
    simp only [List.length_append]
    omega
  simp only
  rw [if_pos ⟨⟨k ++ c!"), undefined default))", by simp⟩, ⟨_, rfl⟩⟩, hl, List.append_assoc,
    List.drop_left', List.take_left']
  · rfl
  · rfl
  · rfl

/-! ### Running the lines -/

/-- The names for which a global setting replaces what is built in. -/
def specialName (k : Str) : Bool := k ∈ [c!"CC", c!"CC.host", c!"CXX", c!"CXX.host"]

/-- Whether an entry for a name has an effect. -/
def openFor (st : ToolVars) (special : Bool) (k : Str) : Bool :=
  if special then !varGiven st k else (st k).isNone

def entryStep (st : ToolVars) (special : Bool) (k v : Str) : ToolVars :=
  if openFor st special k then setToolVar st k v else st

def toolEntryLines (special : Bool) (k v : Str) : List VarLine :=
  if special then [.ifNotGiven k, .assign k v, .endif] else [.unlessDefined k v]

theorem runEntry (st : ToolVars) (special : Bool) (k v : Str) (r : List VarLine) :
    runVarLines st false (toolEntryLines special k v ++ r) =
      runVarLines (entryStep st special k v) false r := by
  cases special with
  | false =>
    simp only [toolEntryLines, entryStep, openFor, Bool.false_eq_true, if_false, List.singleton_append,
      runVarLines, false_or]
    cases h : st k <;> simp
  | true =>
    simp only [toolEntryLines, entryStep, openFor, if_true, List.cons_append, List.nil_append,
      runVarLines]
    cases hg : varGiven st k with
    | true => simp [runVarLines]
    | false =>
      have : (st k).map (·.2) ≠ some Origin.commandLine := by
        intro h
        unfold varGiven at hg
        cases hk : st k with
        | none => simp [hk] at h
        | some p =>
          obtain ⟨x, o⟩ := p
          simp [hk] at h hg
          rw [hg] at h
          cases h
      rw [if_neg (by simp [this])]
      simp [runVarLines]

/-- The entries of a list of settings, with the wrappers that are left. -/
def entryText (conf : Environ) (ws : List (Str × Str)) (k v : Str) : Str :=
  let t := if v.head? ≠ some '$' then c!"$(abspath " ++ v ++ c!")" else v
  let t := match aget ws k with
    | some w => if w = [] then t else w ++ c!" " ++ t
    | none => t
  if specialName k then (conf (replaceChar '.' c!"_" k)).getD t else t

def restWrappers (ws : List (Str × Str)) (k : Str) : List (Str × Str) :=
  match aget ws k with
  | some w => if w = [] then ws else ws.filter fun x => x.1 ≠ k
  | none => ws

theorem globalLines_cons (conf : Environ) (ws rest : List (Str × Str)) (k v : Str)
    (hk : matchesWrapper k = false) (hv : v ≠ []) :
    globalLines conf ws ((k, v) :: rest) =
      (globalLines conf (restWrappers ws k) rest).map
        ((if specialName k then
            [c!"ifneq (,$(filter $(origin " ++ k ++ c!"), undefined default))",
             c!"  " ++ k ++ c!" = " ++ entryText conf ws k v, c!"endif"]
          else [k ++ c!" ?= " ++ entryText conf ws k v]) ++ ·) := by
  cases v with
  | nil => exact absurd rfl hv
  | cons c r =>
    rw [globalLines]
    simp only [hk, Bool.false_eq_true, if_false, List.head?_cons]
    unfold restWrappers entryText specialName
    cases hw : aget ws k with
    | none =>
      by_cases hs : k ∈ [c!"CC", c!"CC.host", c!"CXX", c!"CXX.host"] <;>
        by_cases hc : c = '$' <;> simp [hs, hc]
    | some w =>
      by_cases hs : k ∈ [c!"CC", c!"CC.host", c!"CXX", c!"CXX.host"] <;>
        by_cases hc : c = '$' <;> by_cases he : w = [] <;> simp [hs, hc, he]

theorem aget_restWrappers (ws : List (Str × Str)) (k n : Str) (h : n ≠ k) :
    aget (restWrappers ws k) n = aget ws n := by
  have hf : aget (ws.filter fun x => x.1 ≠ k) n = aget ws n := by
    induction ws with
    | nil => rfl
    | cons x xs ih =>
      obtain ⟨a, b⟩ := x
      by_cases ha : a = k
      · subst ha
        rw [List.filter_cons, if_neg (by simp), ih]
        simp [aget, Ne.symm h]
      · rw [List.filter_cons, if_pos (by simpa using ha)]
        by_cases hb : a = n
        · simp [aget, hb]
        · simp [aget, hb]
          simpa using ih
  unfold restWrappers
  split
  · split
    · rfl
    · exact hf
  · rfl

/-- What the first entry for a name is. -/
def firstEntry (settings : List (Str × Str)) (k : Str) : Option Str :=
  (settings.find? fun x => x.1 = k).map (·.2)

/-- What the global settings do to the variables. -/
theorem global_runs (conf : Environ) (settings : List (Str × Str)) :
    ∀ (ws : List (Str × Str)),
    (∀ x ∈ settings, matchesWrapper x.1 = false → x.2 ≠ [] ∧ IsName x.1 ∧
      ∀ ws', (ws' ⊆ ws) → FitsLine (entryText conf ws' x.1 x.2) ∧
        ∀ c, (entryText conf ws' x.1 x.2).head? = some c → isBlank c = false) →
    ∃ lines stmts, globalLines conf ws settings = some lines ∧
      (∀ l ∈ lines, '\n' ∉ l) ∧ lines.mapM readVarLine = some stmts ∧
      ∀ (st : ToolVars), ∃ st', (∀ r, runVarLines st false (stmts ++ r) = runVarLines st' false r) ∧
        ∀ n, st' n =
          if matchesWrapper n = false ∧ openFor st (specialName n) n then
            match firstEntry settings n with
            | some v => some (entryText conf ws n v, .file)
            | none => st n
          else st n := by
  induction settings with
  | nil =>
    intro ws _
    refine ⟨[], [], rfl, by simp, rfl, fun st => ⟨st, fun r => rfl, fun n => ?_⟩⟩
    simp [firstEntry]
  | cons x rest ih =>
    intro ws h
    obtain ⟨k, v⟩ := x
    cases hk : matchesWrapper k with
    | true =>
      obtain ⟨lines, stmts, h1, h2, h3, h4⟩ := ih ws fun x hx => h x (by simp [hx])
      refine ⟨lines, stmts, by rw [globalLines]; simpa [hk] using h1, h2, h3, fun st => ?_⟩
      obtain ⟨st', h5, h6⟩ := h4 st
      refine ⟨st', h5, fun n => ?_⟩
      rw [h6 n]
      by_cases hn : matchesWrapper n = false
      · have hne : k ≠ n := fun he => by rw [he, hn] at hk; cases hk
        simp [firstEntry, hne]
      · simp [hn]
    | false =>
      have hsub : restWrappers ws k ⊆ ws := by
        unfold restWrappers
        split
        · split
          · exact fun _ h => h
          · exact fun _ h => (List.mem_filter.mp h).1
        · exact fun _ h => h
      obtain ⟨hv, hname, htext⟩ := h (k, v) (by simp) hk
      obtain ⟨hfit, hblank⟩ := htext ws fun _ h => h
      obtain ⟨lines, stmts, h1, h2, h3, h4⟩ := ih (restWrappers ws k) fun x hx hm =>
        ⟨(h x (by simp [hx]) hm).1, (h x (by simp [hx]) hm).2.1, fun ws' hs =>
          (h x (by simp [hx]) hm).2.2 ws' fun _ hw => hsub (hs hw)⟩
      have hnl := varNameChar_ne hname (c := '\n') (by decide)
      refine ⟨_, toolEntryLines (specialName k) k (entryText conf ws k v) ++ stmts,
        by rw [globalLines_cons conf ws rest k v hk hv, h1]; rfl, ?_, ?_, fun st => ?_⟩
      · intro l hl
        rcases List.mem_append.mp hl with hl | hl
        · have hf := hfit.1
          split at hl
          · simp only [List.mem_cons, List.not_mem_nil, or_false] at hl
            rcases hl with rfl | rfl | rfl
            · simp [hnl]
            · simp [hnl, hf]
            · decide
          · simp only [List.mem_singleton] at hl
            subst hl
            simp [hnl, hf]
        · exact h2 l hl
      · rw [List.mapM_append, h3]
        by_cases hs : specialName k = true
        · rw [if_pos hs]
          simp only [List.mapM_cons, List.mapM_nil, readVarLine_origin hname,
            readVarLine_assign hname hfit hblank]
          have : readVarLine c!"endif" = some .endif := by decide
          rw [this]
          simp [toolEntryLines, hs]
        · rw [if_neg hs]
          simp only [List.mapM_cons, List.mapM_nil, readVarLine_cond hname hfit hblank]
          simp [toolEntryLines, hs]
      · obtain ⟨st', h5, h6⟩ := h4 (entryStep st (specialName k) k (entryText conf ws k v))
        refine ⟨st', fun r => ?_, fun n => ?_⟩
        · rw [List.append_assoc, runEntry]
          exact h5 r
        · rw [h6 n]
          by_cases hn : n = k
          · subst hn
            simp only [hk, true_and]
            by_cases ho : openFor st (specialName n) n = true
            · have e1 : entryStep st (specialName n) n (entryText conf ws n v) n =
                  some (entryText conf ws n v, .file) := by
                unfold entryStep
                rw [if_pos ho]
                simp [setToolVar]
              have hc : openFor (entryStep st (specialName n) n (entryText conf ws n v))
                  (specialName n) n = false := by
                unfold openFor varGiven
                rw [e1]
                cases specialName n <;> rfl
              rw [if_neg (by simp [hc]), if_pos ho, e1]
              simp [firstEntry]
            · simp [ho, entryStep]
          · have e1 : entryStep st (specialName k) k (entryText conf ws k v) n = st n := by
              unfold entryStep setToolVar
              split <;> simp [hn]
            have e2 : openFor (entryStep st (specialName k) k (entryText conf ws k v))
                (specialName n) n = openFor st (specialName n) n := by
              simp [openFor, varGiven, e1]
            have e3 : firstEntry ((k, v) :: rest) n = firstEntry rest n := by
              simp [firstEntry, Ne.symm hn]
            have e4 : ∀ v, entryText conf (restWrappers ws k) n v = entryText conf ws n v := by
              intro v
              unfold entryText
              rw [aget_restWrappers ws k n hn]
            rw [e1, e2, e3]
            simp only [e4]

/-! ### The wrappers -/

theorem endsWith_take {k n : Str} :
    (endsWith k c!"_wrapper" = true ∧ k.take (k.length - c!"_wrapper".length) = n) ↔
      k = n ++ c!"_wrapper" := by
  constructor
  · rintro ⟨h, rfl⟩
    obtain ⟨t, rfl⟩ := List.isSuffixOf_iff_suffix.mp h
    have : (t ++ c!"_wrapper").length - c!"_wrapper".length = t.length := by
      rw [List.length_append]; omega
    rw [this, List.take_left']
    rfl
  · rintro rfl
    refine ⟨List.isSuffixOf_iff_suffix.mpr ⟨n, rfl⟩, ?_⟩
    have : (n ++ c!"_wrapper").length - c!"_wrapper".length = n.length := by
      rw [List.length_append]; omega
    rw [this, List.take_left']
    rfl

theorem aget_wrappersOf (settings : List (Str × Str)) (n : Str) :
    aget (wrappersOf settings) n =
      (settings.reverse.find? fun y => y.1 = n ++ c!"_wrapper").map fun w =>
        c!"$(abspath " ++ w.2 ++ c!")" := by
  induction settings using List.reverseRecOn with
  | nil => rfl
  | append_singleton xs x ih =>
    unfold wrappersOf at ih ⊢
    rw [List.foldl_append, List.reverse_append]
    simp only [List.foldl_cons, List.foldl_nil, List.reverse_singleton, List.singleton_append]
    by_cases he : endsWith x.1 c!"_wrapper" = true
    · rw [if_pos he, aget_aset]
      by_cases ht : x.1.take (x.1.length - c!"_wrapper".length) = n
      · have hx := endsWith_take.mp ⟨he, ht⟩
        rw [if_pos ht.symm, List.find?_cons_of_pos (by simp [hx])]
        rfl
      · have hx : x.1 ≠ n ++ c!"_wrapper" := fun h => ht (endsWith_take.mpr h).2
        rw [if_neg fun h => ht h.symm, List.find?_cons_of_neg (by simpa using hx)]
        exact ih
    · have hx : x.1 ≠ n ++ c!"_wrapper" := fun h => he (endsWith_take.mpr h).1
      rw [if_neg he, List.find?_cons_of_neg (by simpa using hx)]
      exact ih

theorem mem_aset_text {d : List (Str × Str)} {k v : Str} {x : Str × Str} (h : x ∈ aset d k v) :
    x = (k, v) ∨ x ∈ d := by
  induction d with
  | nil => simp [aset] at h; exact Or.inl h
  | cons y ys ih =>
    obtain ⟨a, b⟩ := y
    rw [aset] at h
    split at h
    · rcases List.mem_cons.mp h with h | h
      · left; rw [h]
      · right; simp [h]
    · rcases List.mem_cons.mp h with h | h
      · right; simp [h]
      · rcases ih h with h | h
        · exact Or.inl h
        · right; simp [h]

theorem mem_wrappersOf (settings : List (Str × Str)) :
    ∀ x ∈ wrappersOf settings, ∃ y ∈ settings, x.2 = c!"$(abspath " ++ y.2 ++ c!")" := by
  induction settings using List.reverseRecOn with
  | nil => intro x hx; simp [wrappersOf] at hx
  | append_singleton xs y ih =>
    intro x hx
    unfold wrappersOf at ih hx
    rw [List.foldl_append] at hx
    simp only [List.foldl_cons, List.foldl_nil] at hx
    have hold : x ∈ xs.foldl (fun ws kv =>
        if endsWith kv.1 c!"_wrapper" then
          aset ws (kv.1.take (kv.1.length - c!"_wrapper".length)) (c!"$(abspath " ++ kv.2 ++ c!")")
        else ws) [] → ∃ y' ∈ xs ++ [y], x.2 = c!"$(abspath " ++ y'.2 ++ c!")" := by
      intro h
      obtain ⟨y', hy', he⟩ := ih x h
      exact ⟨y', by simp [hy'], he⟩
    split at hx
    · rcases mem_aset_text hx with h | h
      · exact ⟨y, by simp, by rw [h]⟩
      · exact hold h
    · exact hold hx

theorem matchesWrapper_iff {k : Str} (h : '\n' ∉ k) : matchesWrapper k = true ↔ WrapperKey k := by
  unfold WrapperKey
  induction k with
  | nil => simp [matchesWrapper]
  | cons c s ih =>
    have hc : c ≠ '\n' := fun he => h (by simp [he])
    have ih := ih fun hm => h (by simp [hm])
    rw [matchesWrapper, List.infix_cons_iff]
    simp [hc, ih, startsWith, List.isPrefixOf_iff_prefix]

/-! ### The texts fit into lines -/

theorem fits_abspath {v : Str} (h : FitsLine v) : FitsLine (c!"$(abspath " ++ v ++ c!")") := by
  refine ⟨by simp [h.1], by simp [h.2.1], ?_⟩
  rw [List.getLast?_append]
  simp

theorem getLast?_append_ne {a b : Str} (hb : b ≠ []) : (a ++ b).getLast? = b.getLast? := by
  rw [List.getLast?_append]
  cases h : b.getLast? with
  | none => simp at h; exact absurd h hb
  | some x => rfl

theorem fits_append {a b : Str} (ha : FitsLine a) (hb : FitsLine b) (hne : b ≠ []) :
    FitsLine (a ++ c!" " ++ b) :=
  ⟨by simp [ha.1, hb.1], by simp [ha.2.1, hb.2.1], by rw [getLast?_append_ne hne]; exact hb.2.2⟩

def Placeable (t : Str) : Prop := FitsLine t ∧ ∀ c, t.head? = some c → isBlank c = false

theorem special_lookedAt {k : Str} (h : specialName k = true) :
    replaceChar '.' c!"_" k ∈ lookedAt := by
  simp only [specialName, List.mem_cons, List.not_mem_nil, or_false, decide_eq_true_eq] at h
  rcases h with rfl | rfl | rfl | rfl <;> decide

theorem entryText_placeable {conf : Environ} {settings : List (Str × Str)}
    (h : Ordinary conf settings) {x : Str × Str} (hx : x ∈ settings) {ws : List (Str × Str)}
    (hws : ws ⊆ wrappersOf settings) : Placeable (entryText conf ws x.1 x.2) := by
  have hd : ∀ r : Str, ∀ c, ('$' :: r).head? = some c → isBlank c = false := by
    intro r c hc
    simp at hc
    subst hc
    decide
  have h1 : FitsLine (if x.2.head? ≠ some '$' then c!"$(abspath " ++ x.2 ++ c!")" else x.2) ∧
      ∃ r, (if x.2.head? ≠ some '$' then c!"$(abspath " ++ x.2 ++ c!")" else x.2) = '$' :: r := by
    split
    · exact ⟨fits_abspath (h.value x hx), _, rfl⟩
    · rename_i hh
      refine ⟨h.value x hx, ?_⟩
      simp only [ne_eq, Decidable.not_not] at hh
      cases hv : x.2 with
      | nil => rw [hv] at hh; cases hh
      | cons c r => rw [hv] at hh; simp at hh; exact ⟨r, by rw [hh]⟩
  unfold entryText
  simp only
  revert h1
  generalize (if x.2.head? ≠ some '$' then c!"$(abspath " ++ x.2 ++ c!")" else x.2) = t
  rintro ⟨h1, r, hr⟩
  have h2 : Placeable (match aget ws x.1 with
      | some w => if w = [] then t else w ++ c!" " ++ t
      | none => t) := by
    cases hw : aget ws x.1 with
    | none => exact ⟨h1, by rw [hr]; exact hd r⟩
    | some w =>
      obtain ⟨y, hy, he⟩ := mem_wrappersOf settings _ (hws (aget_some_mem hw))
      simp only at he
      have hwne : w ≠ [] := by rw [he]; simp
      simp only [if_neg hwne]
      refine ⟨fits_append (he ▸ fits_abspath (h.value y hy)) h1 (by rw [hr]; simp), ?_⟩
      rw [he]
      exact hd _
  split
  · rename_i hs
    cases hc : conf (replaceChar '.' c!"_" x.1) with
    | none => exact h2
    | some v => exact h.conf _ (special_lookedAt hs) v hc
  · exact h2

/-! ### The rest of the header -/

def headerEntries (p : ToolParams) : List (Str × Str) :=
  [(c!"CC.target", p.ccTarget),
   (c!"CFLAGS.target", c!"$(CPPFLAGS) $(CFLAGS)"),
   (c!"CXX.target", p.cxxTarget),
   (c!"CXXFLAGS.target", c!"$(CPPFLAGS) $(CXXFLAGS)"),
   (c!"LINK.target", p.linkTarget),
   (c!"LDFLAGS.target", c!"$(LDFLAGS)"),
   (c!"AR.target", p.arTarget),
   (c!"PLI.target", p.pliTarget),
   (c!"LINK", c!"$(CXX.target)"),
   (c!"CC.host", p.ccHost),
   (c!"CFLAGS.host", c!"$(CPPFLAGS_host) $(CFLAGS_host)"),
   (c!"CXX.host", p.cxxHost),
   (c!"CXXFLAGS.host", c!"$(CPPFLAGS_host) $(CXXFLAGS_host)"),
   (c!"LINK.host", p.linkHost),
   (c!"LDFLAGS.host", c!"$(LDFLAGS_host)"),
   (c!"AR.host", p.arHost),
   (c!"PLI.host", p.pliHost)]

theorem fallback_placeable {conf : Environ} {settings : List (Str × Str)}
    (h : Ordinary conf settings) {a b d : Str} (ha : a ∈ lookedAt) (hb : b ∈ lookedAt)
    (hd : Placeable d) : Placeable (environFallback conf [a, b] d) := by
  unfold environFallback
  split
  · exact h.conf _ ha _ (by assumption)
  · unfold environFallback
    split
    · exact h.conf _ hb _ (by assumption)
    · exact hd

theorem placeable_of {d : Str} (h : FitsLine d) (hh : d.head?.all (fun c => !isBlank c) = true) :
    Placeable d := by
  refine ⟨h, fun c hc => ?_⟩
  rw [hc] at hh
  simpa using hh

theorem header_placeable {conf : Environ} {settings : List (Str × Str)}
    (h : Ordinary conf settings) (flavor : Str) :
    ∀ x ∈ headerEntries (flavorParams flavor conf), Placeable x.2 ∧ IsName x.1 := by
  intro x hx
  have hn : IsName x.1 := by
    have : x.1 ∈ (headerEntries (flavorParams flavor conf)).map (·.1) :=
      List.mem_map.mpr ⟨x, hx, rfl⟩
    have hall : ∀ k ∈ (headerEntries (flavorParams flavor conf)).map (·.1), IsName k := by
      show ∀ k ∈ [c!"CC.target", c!"CFLAGS.target", c!"CXX.target", c!"CXXFLAGS.target",
        c!"LINK.target", c!"LDFLAGS.target", c!"AR.target", c!"PLI.target", c!"LINK", c!"CC.host",
        c!"CFLAGS.host", c!"CXX.host", c!"CXXFLAGS.host", c!"LINK.host", c!"LDFLAGS.host",
        c!"AR.host", c!"PLI.host"], IsName k
      decide
    exact hall _ this
  refine ⟨?_, hn⟩
  unfold flavorParams at hx
  split at hx
  · simp only [headerEntries, zosParams, toolParams, List.mem_cons, List.not_mem_nil, or_false] at hx
    rcases hx with rfl | rfl | rfl | rfl | rfl | rfl | rfl | rfl | rfl | rfl | rfl | rfl | rfl |
      rfl | rfl | rfl | rfl
    all_goals first
      | exact placeable_of (by decide) (by decide)
      | exact fallback_placeable h (by decide) (by decide) (placeable_of (by decide) (by decide))
      | refine fallback_placeable h (by decide) (by decide) ?_
        repeat' split
        all_goals exact placeable_of (by decide) (by decide)
  · simp only [headerEntries, toolParams, List.mem_cons, List.not_mem_nil, or_false] at hx
    rcases hx with rfl | rfl | rfl | rfl | rfl | rfl | rfl | rfl | rfl | rfl | rfl | rfl | rfl |
      rfl | rfl | rfl | rfl
    all_goals first
      | exact placeable_of (by decide) (by decide)
      | exact fallback_placeable h (by decide) (by decide) (placeable_of (by decide) (by decide))

theorem headerLines_read (p : ToolParams)
    (h : ∀ x ∈ headerEntries p, Placeable x.2 ∧ IsName x.1) :
    ∃ stmts, (headerLines p ++ [[]]).mapM readVarLine = some stmts ∧
      (∀ l ∈ headerLines p, '\n' ∉ l) ∧
      ∀ st, runVarLines st false stmts =
        (headerEntries p).foldl (fun st x => entryStep st false x.1 x.2) st := by
  have hr : ∀ x ∈ headerEntries p, readVarLine (x.1 ++ c!" ?= " ++ x.2) =
      some (.unlessDefined x.1 x.2) := fun x hx => readVarLine_cond (h x hx).2 (h x hx).1.1 (h x hx).1.2
  have hb : readVarLine [] = some .nothing := by decide
  have hc1 : readVarLine c!"# C++ apps need to be linked with g++." = some .nothing := by decide
  have hc2 : readVarLine c!"# TODO(evan): move all cross-compilation logic to gyp-time so we don't need" = some .nothing := by decide
  have hc3 : readVarLine c!"# to replicate this environment fallback in make as well." = some .nothing := by decide
  have hnl : ∀ x ∈ headerEntries p, '\n' ∉ x.2 := fun x hx => (h x hx).1.1.1
  simp only [headerEntries, List.forall_mem_cons, List.not_mem_nil, false_imp_iff, implies_true,
    and_true] at hr hnl
  obtain ⟨r1, r2, r3, r4, r5, r6, r7, r8, r9, r10, r11, r12, r13, r14, r15, r16, r17⟩ := hr
  obtain ⟨n1, n2, n3, n4, n5, n6, n7, n8, n9, n10, n11, n12, n13, n14, n15, n16, n17⟩ := hnl
  have q2 := r2; have q4 := r4; have q6 := r6; have q9 := r9
  simp only [List.cons_append, List.nil_append] at r1 r2 r3 r4 r5 r6 r7 r8 r9 r10 r11 r12 r13 r14 r15 r16 r17
  refine ⟨[.nothing, .nothing] ++ (((headerEntries p).take 8).flatMap fun x =>
      toolEntryLines false x.1 x.2) ++ [.nothing, .nothing] ++
      (toolEntryLines false c!"LINK" c!"$(CXX.target)") ++ [.nothing, .nothing, .nothing] ++
      (((headerEntries p).drop 9).flatMap fun x => toolEntryLines false x.1 x.2) ++ [.nothing], ?_, ?_, ?_⟩
  · simp only [headerLines, List.cons_append, List.nil_append, List.mapM_cons, List.mapM_nil,
      hb, hc1, hc2, hc3, r1, r2, r3, r4, r5, r6, r7, r8, r9, r10, r11, r12, r13, r14, r15, r16, r17]
    rfl
  · simp only [headerLines, List.forall_mem_cons, List.not_mem_nil, false_imp_iff, implies_true,
      and_true]
    simp [n1, n3, n5, n7, n8, n10, n12, n14, n16, n17]
  · intro st
    simp only [headerEntries, List.take, List.drop, List.flatMap_cons, List.flatMap_nil,
      List.append_nil, List.append_assoc, List.foldl_cons, List.foldl_nil, List.cons_append,
      List.nil_append]
    simp only [runVarLines, runEntry]

theorem foldl_toolEntries (es : List (Str × Str)) (st : ToolVars) (n : Str) :
    es.foldl (fun st x => entryStep st false x.1 x.2) st n =
      match st n with
      | some x => some x
      | none => (firstEntry es n).map fun v => (v, .file) := by
  induction es generalizing st with
  | nil => cases h : st n <;> simp [firstEntry, h]
  | cons x xs ih =>
    rw [List.foldl_cons, ih]
    by_cases hn : x.1 = n
    · cases h : st n with
      | some y =>
        have : entryStep st false x.1 x.2 n = some y := by
          unfold entryStep openFor setToolVar
          split <;> simp_all
        rw [this]
      | none =>
        have : entryStep st false x.1 x.2 n = some (x.2, .file) := by
          simp [entryStep, openFor, setToolVar, hn, h]
        rw [this]
        simp [firstEntry, hn]
    · have : entryStep st false x.1 x.2 n = st n := by
        unfold entryStep setToolVar
        split <;> simp [Ne.symm hn]
      rw [this]
      have : firstEntry (x :: xs) n = firstEntry xs n := by simp [firstEntry, hn]
      rw [this]

/-! ### All lines -/

theorem tools_after {conf : Environ} {settings : List (Str × Str)} (h : Ordinary conf settings)
    (flavor : Str) :
    ∃ text, toolsText flavor conf settings = some text ∧ ∀ st : ToolVars, ∃ st',
      toolVarsAfter st text = some st' ∧ ∀ n, matchesWrapper n = false → st' n =
        match (if openFor st (specialName n) n then
            match firstEntry settings n with
            | some v => some (entryText conf (wrappersOf settings) n v, Origin.file)
            | none => st n
          else st n) with
        | some x => some x
        | none => (firstEntry (headerEntries (flavorParams flavor conf)) n).map fun v => (v, .file) := by
  obtain ⟨lines, stmts, h1, h2, h3, h4⟩ := global_runs conf settings (wrappersOf settings)
    fun x hx hm => ⟨h.some x hx (fun hw => by
        rw [← matchesWrapper_iff (varNameChar_ne (h.key x hx) (by decide))] at hw
        rw [hm] at hw
        exact Bool.false_ne_true hw), h.key x hx,
      fun ws hs => entryText_placeable h hx hs⟩
  obtain ⟨hst, g1, g2, g3⟩ := headerLines_read _ (header_placeable h flavor)
  refine ⟨_, by unfold toolsText; rw [h1]; rfl, fun st => ?_⟩
  obtain ⟨st1, h5, h6⟩ := h4 st
  refine ⟨runVarLines st false (stmts ++ hst), ?_, ?_⟩
  · unfold toolVarsAfter
    rw [splitOn_lines _ fun l hl => by
      rcases List.mem_append.mp hl with hl | hl
      · exact h2 l hl
      · exact g2 l hl, List.append_assoc, List.mapM_append, h3, g1]
    rfl
  · intro n hn
    have := h5 hst
    rw [this, g3, foldl_toolEntries, h6 n]
    simp only [hn, true_and]

/-! ### The values -/

theorem entryText_setting {conf : Environ} {settings : List (Str × Str)} (n : Str)
    (hs : specialName n = false) :
    (firstEntry settings n).map (entryText conf (wrappersOf settings) n) = settingOf settings n := by
  unfold firstEntry settingOf
  rw [Option.map_map]
  congr 1
  funext x
  simp only [Function.comp]
  unfold entryText absoluteCommand
  rw [aget_wrappersOf]
  simp only [hs, Bool.false_eq_true, if_false]
  cases (settings.reverse.find? fun y => y.1 = n ++ c!"_wrapper") with
  | none => by_cases hx : x.2.head? = some '$' <;> simp [hx]
  | some w => by_cases hx : x.2.head? = some '$' <;> simp [hx]

theorem entryText_special {conf : Environ} {settings : List (Str × Str)} (n : Str)
    (hs : specialName n = true) :
    (firstEntry settings n).map (entryText conf (wrappersOf settings) n) =
      (settingOf settings n).map fun t => (conf (replaceChar '.' c!"_" n)).getD t := by
  unfold firstEntry settingOf
  rw [Option.map_map, Option.map_map]
  congr 1
  funext x
  simp only [Function.comp]
  unfold entryText absoluteCommand
  rw [aget_wrappersOf]
  simp only [hs, if_true]
  cases (settings.reverse.find? fun y => y.1 = n ++ c!"_wrapper") with
  | none => by_cases hx : x.2.head? = some '$' <;> simp [hx]
  | some w => by_cases hx : x.2.head? = some '$' <;> simp [hx]

theorem tools_value {conf : Environ} {settings : List (Str × Str)} (h : Ordinary conf settings)
    {flavor text : Str} (ht : toolsText flavor conf settings = some text)
    {builtin env cmd : Str → Option Str} {st : ToolVars}
    (hst : toolVarsAfter (varsAtStart builtin env cmd) text = some st) (n : Str)
    (hn : matchesWrapper n = false) :
    toolValue st n =
      firstGiven
        (if specialName n then
          [cmd n, env n, (settingOf settings n).map fun t => (conf (replaceChar '.' c!"_" n)).getD t,
           builtin n]
         else [cmd n, env n, builtin n, settingOf settings n])
        ((firstEntry (headerEntries (flavorParams flavor conf)) n).getD []) := by
  obtain ⟨text', h1, h2⟩ := tools_after h flavor
  rw [ht] at h1
  cases h1
  obtain ⟨st', h3, h4⟩ := h2 (varsAtStart builtin env cmd)
  rw [hst] at h3
  cases h3
  unfold toolValue
  rw [h4 n hn]
  cases hs : specialName n with
  | true =>
    have he := entryText_special (conf := conf) (settings := settings) n hs
    simp only [if_true]
    rw [← he]
    unfold openFor varGiven varsAtStart
    cases cmd n <;> cases env n <;> cases builtin n <;> cases firstEntry settings n <;>
      cases firstEntry (headerEntries (flavorParams flavor conf)) n <;> simp [firstGiven]
  | false =>
    have he := entryText_setting (conf := conf) (settings := settings) n hs
    simp only [Bool.false_eq_true, if_false]
    rw [← he]
    unfold openFor varsAtStart
    cases cmd n <;> cases env n <;> cases builtin n <;> cases firstEntry settings n <;>
      cases firstEntry (headerEntries (flavorParams flavor conf)) n <;> simp [firstGiven]

theorem commandFor_ref {st : ToolVars} {k r : Str} (hk : IsName k) :
    CommandFor st (c!"$(" ++ k ++ c!")") r ↔ CommandFor st (toolValue st k) r := by
  have hm : reference (c!"$(" ++ k ++ c!")") = some k := by
    unfold reference
    have : ((c!"$(" ++ k ++ c!")").drop 2).dropLast = k := by
      show (k ++ [')']).dropLast = k
      rw [List.dropLast_concat]
    simp only [this]
    rw [if_pos ⟨trivial, hk⟩]
  constructor
  · intro h
    cases h with
    | itself _ hn => rw [hm] at hn; cases hn
    | referred _ m _ hr hs =>
      rw [hm] at hr
      cases hr
      exact hs
  · intro h
    exact .referred _ _ _ hm h

theorem environFallback_two (conf : Environ) (a b d : Str) :
    environFallback conf [a, b] d = firstGiven [conf a, conf b] d := by
  unfold environFallback environFallback environFallback
  cases conf a <;> cases conf b <;> rfl

end Gyp
