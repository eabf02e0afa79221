import Verif.Proofs.MakeRemake
import Verif.Props.Make
/-
When the canned recipe does something, and what it records.
-/
namespace Gyp
open Spec

/-! ### Nothing has changed -/

theorem replaceStr_nil_nil {a b : Str} (ha : a ≠ []) (h : replaceStr a [] b = []) : b = [] ∨ a <+: b := by
  cases b with
  | nil => exact .inl rfl
  | cons c b =>
    right
    rw [replaceStr] at h
    by_cases hp : a.isPrefixOf (c :: b) ∧ a ≠ []
    · exact List.isPrefixOf_iff_prefix.mp hp.1
    · rw [if_neg hp] at h
      cases h

theorem replaceStr_self (a : Str) : replaceStr a [] a = [] := by
  cases a with
  | nil => rw [replaceStr]
  | cons c a =>
    rw [replaceStr, if_pos ⟨List.isPrefixOf_iff_prefix.mpr (List.prefix_refl _), by simp⟩, List.drop_length, replaceStr]
    rfl

theorem changed_nil (a b : Str) : functionResult c!"or" [makeSubst a [] b, makeSubst b [] a] = [] ↔ a = b := by
  have h0 : functionResult c!"or" [makeSubst a [] b, makeSubst b [] a] = [] ↔
      makeSubst a [] b = [] ∧ makeSubst b [] a = [] := by
    have : functionResult c!"or" [makeSubst a [] b, makeSubst b [] a] =
        ([makeSubst a [] b, makeSubst b [] a].find? (· ≠ [])).getD [] := rfl
    rw [this]
    by_cases h1 : makeSubst a [] b = [] <;> by_cases h2 : makeSubst b [] a = [] <;> simp [h1, h2]
  rw [h0]
  unfold makeSubst
  constructor
  · rintro ⟨h1, h2⟩
    by_cases ha : a = []
    · rw [if_pos ha] at h1
      simp_all
    · rw [if_neg ha] at h1
      by_cases hb : b = []
      · rw [if_pos hb] at h2
        simp_all
      · rw [if_neg hb] at h2
        rcases replaceStr_nil_nil ha h1 with h | h
        · exact absurd h hb
        · rcases replaceStr_nil_nil hb h2 with h' | h'
          · exact absurd h' ha
          · exact h.eq_of_length (Nat.le_antisymm h.length_le h'.length_le)
  · rintro rfl
    by_cases ha : a = []
    · simp [ha]
    · rw [if_neg ha, replaceStr_self]
      simp

theorem words_name {w : Str} (h : ∀ c ∈ w, blankOrLine c = false) (cur rest : Str) :
    wordsFrom cur (w ++ rest) = wordsFrom (cur ++ w) rest := by
  induction w generalizing cur with
  | nil => simp
  | cons c w ih =>
    rw [List.cons_append, wordsFrom, if_neg (by simp [h c (by simp)]), ih fun d hd => h d (by simp [hd])]
    simp

theorem words_one {w : Str} (hne : w ≠ []) (h : ∀ c ∈ w, blankOrLine c = false) : makeWords w = [w] := by
  have := words_name h [] []
  unfold makeWords
  rw [List.append_nil] at this
  rw [this, wordsFrom]
  simp [hne]

theorem makeWords_join {ws : List Str} (h : ∀ w ∈ ws, w ≠ [] ∧ ∀ c ∈ w, blankOrLine c = false) :
    makeWords (joinWith [' '] ws) = ws := by
  induction ws with
  | nil => rfl
  | cons w ws ih =>
    have hw := h w (by simp)
    cases ws with
    | nil => exact words_one hw.1 hw.2
    | cons v ws =>
      have : joinWith [' '] (w :: v :: ws) = w ++ ' ' :: joinWith [' '] (v :: ws) := by simp [joinWith]
      rw [this]
      unfold makeWords at ih ⊢
      rw [words_name hw.2, wordsFrom, if_pos (by decide), if_neg (by simpa using hw.1), ih fun x hx => h x (by simp [hx])]
      simp

theorem pattern_name {p w : Str} (h : '%' ∉ p) : matchesPattern p w = decide (p = w) := by
  unfold matchesPattern
  rw [split1_none_iff.mpr h]

theorem Spec.ListName.words {p : Str} (h : ListName p) : p ≠ [] ∧ ∀ c ∈ p, blankOrLine c = false :=
  ⟨h.1, fun c hc => (h.2 c hc).1⟩

theorem Spec.ListName.percent {p : Str} (h : ListName p) : '%' ∉ p := fun hc => (h.2 _ hc).2 rfl

theorem filterOut_names {ps ws : List Str} (hp : ∀ p ∈ ps, ListName p) (hw : ∀ w ∈ ws, ListName w) :
    filterOut (joinWith [' '] ps) (joinWith [' '] ws) = joinWith [' '] (ws.filter (· ∉ ps)) := by
  unfold filterOut
  rw [makeWords_join fun p h => (hp p h).words, makeWords_join fun w h => (hw w h).words]
  congr 1
  apply List.filter_congr
  intro w _
  rw [Bool.eq_iff_iff, Bool.not_eq_true', ← Bool.not_eq_true, List.any_eq_true]
  simp only [decide_eq_true_eq]
  constructor
  · intro h hm
    exact h ⟨w, hm, by rw [pattern_name (hp w hm).percent]; simp⟩
  · rintro h ⟨p, hm, hpw⟩
    rw [pattern_name (hp p hm).percent, decide_eq_true_eq] at hpw
    exact h (hpw ▸ hm)

theorem joinWith_nil_iff {ws : List Str} (h : ∀ w ∈ ws, w ≠ []) : joinWith [' '] ws = [] ↔ ws = [] := by
  cases ws with
  | nil => simp [joinWith]
  | cons w ws =>
    have := h w (by simp)
    cases ws <;> simp [joinWith, this]

theorem prereq_nil {newer oo : List Str} (h : ∀ p ∈ newer ++ oo, ListName p) :
    filterOut c!"FORCE_DO_CMD" (filterOut (joinWith [' '] oo) (joinWith [' '] newer)) = [] ↔ ¬ Outdated newer oo := by
  have hn : ∀ p ∈ newer, ListName p := fun p hp => h p (by simp [hp])
  rw [filterOut_names (fun p hp => h p (by simp [hp])) hn]
  have hf : ∀ p ∈ newer.filter (· ∉ oo), ListName p := fun p hp => hn p (List.mem_filter.mp hp).1
  have := filterOut_names (ps := [c!"FORCE_DO_CMD"]) (by unfold ListName; decide) hf
  have e : joinWith [' '] [c!"FORCE_DO_CMD"] = c!"FORCE_DO_CMD" := rfl
  rw [e] at this
  rw [this, joinWith_nil_iff fun w hw => (hf w (List.mem_filter.mp hw).1).1]
  unfold Outdated
  rw [List.filter_eq_nil_iff]
  simp only [List.mem_filter, decide_eq_true_eq, List.mem_singleton, not_exists]
  constructor
  · rintro h p ⟨h1, h2, h3⟩
    exact h p ⟨h1, h3⟩ h2
  · rintro h p ⟨h1, h3⟩ h2
    exact h p ⟨h1, h2, h3⟩

/-! ### Names without blanks -/

theorem replaceStr_lacks {a : Char} {x s : Str} (h : a ∉ s) : replaceStr [a] x s = s := by
  rw [replaceStr_one]
  induction s with
  | nil => rfl
  | cons c s ih =>
    rw [List.flatMap_cons, ih fun hc => h (by simp [hc]), if_neg]
    · rfl
    · rintro rfl
      simp at h

theorem Spec.OutputName.no {t : Str} (h : OutputName t) {c : Char} (hc : c ∈ ['$', ':', '\n', '#', '\\', '\t', ' ', '?', '"', '`']) :
    c ∉ t := fun hm => h.2 c hm hc

theorem Spec.OutputName.noBlank {t : Str} (h : OutputName t) {c : Char} (hc : c ∈ t) : blankOrLine c = false := by
  cases e : blankOrLine c with
  | false => rfl
  | true =>
    exfalso
    apply h.2 c hc
    simp only [blankOrLine, Bool.or_eq_true, decide_eq_true_eq] at e
    rcases e with (rfl | rfl) | rfl <;> decide

theorem rsplit1_mem {c : Char} {s a b : Str} (h : rsplit1 c s = some (a, b)) {x : Char} (hx : x ∈ a) : x ∈ s := by
  rw [(rsplit1_some h).1]
  simp [hx]

theorem dirPart_mem {t : Str} {c : Char} (h : c ∈ dirPart t) : c ∈ t ∨ c = '.' ∨ c = '/' := by
  unfold dirPart at h
  cases e : rsplit1 '/' t with
  | none => rw [e] at h; simp at h; tauto
  | some p =>
    obtain ⟨a, b⟩ := p
    rw [e] at h
    simp only [List.mem_append, List.mem_singleton] at h
    rcases h with h | h
    · exact .inl (rsplit1_mem e h)
    · tauto

theorem filePart_mem {t : Str} {c : Char} (h : c ∈ filePart t) : c ∈ t := by
  unfold filePart at h
  cases e : rsplit1 '/' t with
  | none => rw [e] at h; exact h
  | some p =>
    obtain ⟨a, b⟩ := p
    rw [e] at h
    rw [(rsplit1_some e).1]
    simp only at h
    simp [h]

theorem Spec.OutputName.dir {t : Str} (h : OutputName t) : OutputName (dirPart t) := by
  refine ⟨?_, ?_⟩
  · unfold dirPart
    split <;> simp
  · intro c hc
    rcases dirPart_mem hc with h' | rfl | rfl
    · exact h.2 c h'
    · decide
    · decide

theorem Spec.OutputName.dirx {t : Str} (h : OutputName t) :
    replaceStr ['?'] [' '] (joinWith [' '] ((makeWords (replaceStr [' '] ['?'] t)).map dirPart)) = dirPart t := by
  rw [replaceStr_lacks (h.no (by decide)), words_one h.1 fun c hc => h.noBlank hc]
  show replaceStr ['?'] [' '] (dirPart t) = dirPart t
  exact replaceStr_lacks (h.dir.no (by decide))

theorem Spec.OutputName.append {s t : Str} (hs : OutputName s) (ht : ∀ c ∈ t, c ∉ ['$', ':', '\n', '#', '\\', '\t', ' ', '?', '"', '`']) :
    OutputName (s ++ t) :=
  ⟨by simp [hs.1], fun c hc => by
    rcases List.mem_append.mp hc with h | h
    · exact hs.2 c h
    · exact ht c h⟩

/-! ### The situation -/

section
variable {flavor : Str} {vals : Str → Str} {target name : Str} {newer oo : List Str} {command record dep : Str}

theorem Spec.Situation.header (h : Situation vals target name newer oo command record) : HeaderVals vals :=
  ⟨h.empty, h.quiet⟩

theorem Spec.Situation.file (h : Situation vals target name newer oo command record) (ht : OutputName target) :
    depfileOf vals = recordFile vals target := by
  unfold depfileOf recordFile
  rw [h.atTarget, replaceStr_lacks (ht.no (by decide))]
  simp

theorem Spec.Situation.fileName (h : Situation vals target name newer oo command record) (ht : OutputName target) :
    OutputName (recordFile vals target) := by
  unfold recordFile
  rw [List.append_assoc, List.append_assoc]
  apply h.depsdir.append
  intro c hc
  simp only [List.mem_append] at hc
  rcases hc with hc | hc | hc
  · revert c; decide
  · exact ht.2 c hc
  · revert c; decide

open Classical in
theorem call_value (h : Situation vals target name newer oo command record) (ht : OutputName target) :
    callText (headerDefs flavor) vals c!"do_cmd" [name, dep] =
      if command = record ∧ ¬ Outdated newer oo then []
      else doCmdLines (flockIndex flavor) vals (lookUp (headerDefs flavor) vals 19 c!"fixup_dep" [name, dep]) name dep := by
  unfold callText
  rw [doCmd_value h.header, changed_value h.header, prereq_value, h.atTarget, replaceStr_lacks (ht.no (by decide)),
    h.atRecord, h.atCommand, h.atOrder, h.atNewer]
  have h1 := changed_nil command record
  have h2 := prereq_nil h.names
  generalize functionResult c!"or" [makeSubst command [] record, makeSubst record [] command] = x at *
  generalize filterOut c!"FORCE_DO_CMD" (filterOut (joinWith [' '] oo) (joinWith [' '] newer)) = y at *
  generalize doCmdLines _ _ _ _ _ = z
  have e : functionResult c!"if" [functionResult c!"or" [x, y], z] =
      if (([x, y].find? (· ≠ [])).getD []) = [] then [] else z := rfl
  rw [e]
  by_cases hx : x = []
  · by_cases hy : y = []
    · rw [if_pos (by simp [hx, hy]), if_pos ⟨h1.mp hx, h2.mp hy⟩]
    · rw [if_neg (by simp [hx, hy]), if_neg fun h => hy (h2.mpr h.2)]
  · rw [if_neg (by simp [hx]), if_neg fun h => hx (h1.mpr h.1)]

theorem doCmdLines_ne (k : Nat) (fixup : Str) : doCmdLines k vals fixup name dep ≠ [] := by
  simp [doCmdLines]

end


/-! ### The lines of the recipe -/

theorem split_text {a : Str} (odd : Bool) (cur rest : Str) (hn : '\n' ∉ a) (ho : a = [] → odd = false)
    (hl : a.getLast? ≠ some '\\') :
    recipeSplit odd cur (a ++ rest) = recipeSplit false (cur ++ a) rest := by
  induction a generalizing odd cur with
  | nil => simp [ho rfl]
  | cons c a ih =>
    rw [List.cons_append, recipeSplit, if_neg]
    · rw [ih _ _ (fun h => hn (by simp [h]))]
      · simp
      · rintro rfl
        have : c ≠ '\\' := by simpa using hl
        simp [this]
      · cases a with
        | nil => simp
        | cons d a => simpa [List.getLast?_cons_cons] using hl
    · rintro ⟨rfl, -⟩
      simp at hn

/-- A text that make takes as one line. -/
def SingleLine (a : Str) : Prop := ∀ cur rest, recipeSplit false cur (a ++ '\n' :: rest) = (cur ++ a) :: recipeSplit false [] rest

theorem singleLine {a : Str} (hn : '\n' ∉ a) (hl : a.getLast? ≠ some '\\') : SingleLine a := by
  intro cur rest
  rw [split_text false cur _ hn (fun _ => rfl) hl, recipeSplit, if_pos ⟨rfl, rfl⟩]

theorem singleLine_cont {a b : Str} (hn : '\n' ∉ a) (hl : a.getLast? ≠ some '\\') (hb : SingleLine b) :
    SingleLine (a ++ '\\' :: '\n' :: b) := by
  intro cur rest
  rw [List.append_assoc, split_text false cur _ hn (fun _ => rfl) hl, List.cons_append, List.cons_append, recipeSplit,
    if_neg (by decide), recipeSplit, if_neg (by decide), show (decide (('\n' : Char) = '\\') && !(decide (('\\' : Char) = '\\') && !false)) = false from by decide,
    hb]
  simp

theorem split_lines {ls : List Str} (h : ∀ l ∈ ls, SingleLine l) :
    recipeSplit false [] (ls.flatMap fun l => l ++ ['\n']) = ls ++ [[]] := by
  induction ls with
  | nil => rfl
  | cons l ls ih =>
    rw [List.flatMap_cons, List.append_assoc, List.singleton_append, h l (by simp), ih fun x hx => h x (by simp [hx])]
    simp

theorem recipe_lines {ls : List Str} (h : ∀ l ∈ ls, SingleLine l) :
    recipeLines (ls.flatMap fun l => l ++ ['\n']) = (ls.map fun l => l.dropWhile isBlank).filter (· ≠ []) := by
  unfold recipeLines
  rw [split_lines h]
  simp

section
variable {flavor : Str} {vals : Str → Str} {target name : Str} {newer oo : List Str} {command record dep : Str}

set_option maxRecDepth 8000 in
theorem fixup_value (h : Situation vals target name newer oo command record) (ht : OutputName target) :
    lookUp (headerDefs flavor) vals 19 c!"fixup_dep" [name, dep] ++ c!"\n" =
      ((headerLines (recordFile vals target) target).flatMap fun l => l ++ ['\n']).drop 1 := by
  rw [look_def rfl (headerDefs_fixup_dep flavor)]
  simp only [fixupDepExp, value_nil, value_lit, value_ref, value_notdir, values_nil, values_arg, List.append_nil]
  rw [depfile_value h.header, look_val (name := c!"@") rfl (headerDefs_none (by decide))]
  have e := h.file ht
  unfold depfileOf at e
  rw [e, h.atTarget]
  have : functionResult c!"notdir" [target] = filePart target := by
    show joinWith [' '] ((makeWords target).map filePart) = _
    rw [words_one ht.1 fun c hc => ht.noBlank hc]
    rfl
  rw [this]
  simp [headerLines]

/-- The lines of the recipe as they are written. -/
def doCmdParts (k : Nat) (vals : Str → Str) (target name dep command file : Str) : List Str :=
  [[], c!"  @" ++ echoOf (c!"  " ++ vals (vals c!"quiet" ++ (c!"cmd_" ++ name))),
   c!"  @mkdir -p \"" ++ (dirPart target ++ (c!"\" \"" ++ (dirPart file ++ c!"\""))), c!"  ", c!"    @" ++ command,
   if functionResult c!"findstring" [c!"flock", functionResult c!"word" [natStr k, command]] = [] then c!"  "
   else c!"    @echo \"  " ++ (vals (c!"quiet_cmd_" ++ name) ++ c!": Finished\""),
   c!"  @" ++ (echoOf (recordOf vals command) ++ (c!" > " ++ file))] ++
  (if dep = [] then [c!"  @"]
   else (c!"  " ++ (headerLines file target).headD []) :: (headerLines file target).tail) ++ [c!"  "]

set_option maxRecDepth 8000 in
theorem doCmd_parts (h : Situation vals target name newer oo command record) (ht : OutputName target) (k : Nat) :
    doCmdLines k vals (lookUp (headerDefs flavor) vals 19 c!"fixup_dep" [name, dep]) name dep =
      (doCmdParts k vals target name dep command (recordFile vals target)).flatMap fun l => l ++ ['\n'] := by
  have hf := h.fileName ht
  unfold doCmdLines doCmdParts
  simp only
  rw [h.atTarget, ht.dirx, h.file ht, words_one hf.1 fun c hc => hf.noBlank hc, h.atCommand]
  have hj : joinWith [' '] (List.map dirPart [recordFile vals target]) = dirPart (recordFile vals target) := rfl
  rw [hj]
  have hfix := fixup_value (flavor := flavor) (dep := dep) h ht
  generalize lookUp (headerDefs flavor) vals 19 c!"fixup_dep" [name, dep] = fix at *
  have hif : ∀ a b c : Str, functionResult c!"if" [a, b, c] = if a = [] then c else b := fun _ _ _ => rfl
  have hif2 : ∀ a b : Str, functionResult c!"if" [a, b] = if a = [] then [] else b := fun _ _ => rfl
  rw [hif, hif2]
  generalize functionResult c!"findstring" _ = x
  generalize echoOf (recordOf vals command) = log
  generalize echoOf _ = echo
  have hl : ((headerLines (recordFile vals target) target).flatMap fun l => l ++ ['\n']) =
      '@' :: ((headerLines (recordFile vals target) target).flatMap fun l => l ++ ['\n']).drop 1 := rfl
  have hl2 : ((headerLines (recordFile vals target) target).flatMap fun l => l ++ ['\n']) =
      (headerLines (recordFile vals target) target).headD [] ++ '\n' ::
        ((headerLines (recordFile vals target) target).tail.flatMap fun l => l ++ ['\n']) := by
    generalize headerLines (recordFile vals target) target = L at *
    cases L with
    | nil => cases hl
    | cons a L => simp
  rw [← hfix] at hl
  rw [hl] at hl2
  generalize (headerLines (recordFile vals target) target).headD [] = A at *
  generalize ht2 : (headerLines (recordFile vals target) target).tail = T at *
  have hl3 := congrArg (fun l => l ++ c!"  \n") hl2
  simp only [List.append_assoc, List.cons_append, List.nil_append] at hl3
  by_cases hx : x = [] <;> by_cases hd : dep = [] <;> simp [hx, hd]
  · exact hl3
  · exact hl3

theorem echoOf_eq (x : Str) : echoOf x = c!"printf '%s\\n' " ++ makeEscapeShellArgument x := by
  unfold echoOf makeEscapeShellArgument
  rw [replaceStr_one]
  simp [replaceChar]

theorem mem_replaced {a : Char} {x s : Str} {c : Char} (h : c ∈ replaceStr [a] x s) : c ∈ x ∨ c ∈ s := by
  rw [replaceStr_one, List.mem_flatMap] at h
  obtain ⟨d, hd, hc⟩ := h
  split at hc
  · exact .inl hc
  · simp at hc
    exact .inr (hc ▸ hd)

theorem echoOf_line {x : Str} (h : '\n' ∉ x) : '\n' ∉ echoOf x := by
  unfold echoOf
  simp only [List.mem_append, not_or]
  refine ⟨by decide, fun hc => ?_, by decide⟩
  rcases mem_replaced hc with hc | hc
  · revert hc; decide
  · exact h hc

theorem echoOf_last (x : Str) : (echoOf x).getLast? = some '\'' := by
  unfold echoOf
  rw [← List.append_assoc, List.getLast?_append]
  rfl

theorem recordOf_eq (h : Situation vals target name newer oo command record) (ht : OutputName target) :
    recordOf vals command = c!"cmd_" ++ target ++ c!" := " ++ EscapeMakeVariableExpansion command := by
  unfold recordOf EscapeMakeVariableExpansion replaceChar
  rw [h.atTarget, replaceStr_lacks (ht.no (by decide)), replaceStr_one, List.flatMap_append, List.flatMap_append,
    List.flatMap_append]
  have h1 : (target.flatMap fun c => if c = '$' then c!"$$" else [c]) = target := by
    rw [← replaceStr_one]
    exact replaceStr_lacks (ht.no (by decide))
  rw [h1]
  simp

theorem getLast?_app {a b : Str} {c : Char} (h : b.getLast? = some c) : (a ++ b).getLast? = some c := by
  rw [List.getLast?_append, h]
  rfl

theorem OutputName_last {t : Str} (h : OutputName t) : t.getLast? ≠ some '\\' := fun e =>
  h.no (c := '\\') (by decide) (List.mem_of_getLast? e)

theorem getLast?_app_ne {a b : Str} (hb : b ≠ []) (h : b.getLast? ≠ some '\\') : (a ++ b).getLast? ≠ some '\\' := by
  rw [List.getLast?_append]
  obtain ⟨d, hd⟩ : ∃ d, b.getLast? = some d := ⟨_, List.getLast?_eq_some_getLast hb⟩
  rw [hd] at h ⊢
  simpa using h

theorem headerLines_single {file : Str} (hf : OutputName file) (ht : OutputName target) :
    ∀ l ∈ headerLines file target, SingleLine l := by
  have hn : '\n' ∉ file := hf.no (by decide)
  have hn2 : '\n' ∉ target := ht.no (by decide)
  have hn3 : '\n' ∉ filePart target := fun h => hn2 (filePart_mem h)
  intro l hl
  unfold headerLines at hl
  simp only [List.mem_cons, List.not_mem_nil, or_false] at hl
  rcases hl with rfl | rfl | rfl | rfl | rfl | rfl | rfl | rfl | rfl | rfl
  · exact singleLine (by decide) (by decide)
  · refine singleLine (by simp [hn]) ?_
    rw [getLast?_app (c := 'w') (by decide)]; decide
  · exact singleLine (by decide) (by decide)
  · refine singleLine (by simp [hn, hn2, hn3]) (getLast?_app_ne hf.1 (OutputName_last hf))
  · exact singleLine (by decide) (by decide)
  · exact singleLine (by decide) (by decide)
  · exact singleLine (by decide) (by decide)
  · exact singleLine (by decide) (by decide)
  · have e : c!"sed -e 's|\\\\||' -e 'y| |\\n|' " ++ file ++ c!".raw |\\\n  grep -v '^$'                             |\\\n" ++
        c!"  sed -e 1d -e 's|$|:|'                     \\\n    >> " ++ file =
      (c!"sed -e 's|\\\\||' -e 'y| |\\n|' " ++ file ++ c!".raw |") ++ '\\' :: '\n' ::
        (c!"  grep -v '^$'                             |" ++ '\\' :: '\n' ::
          (c!"  sed -e 1d -e 's|$|:|'                     " ++ '\\' :: '\n' :: (c!"    >> " ++ file))) := by
      simp
    rw [e]
    refine singleLine_cont (by simp [hn]) ?_ (singleLine_cont (by decide) (by decide)
      (singleLine_cont (by decide) (by decide) (singleLine (by simp [hn]) (getLast?_app_ne hf.1 (OutputName_last hf)))))
    rw [getLast?_app (c := '|') (by decide)]; decide
  · refine singleLine (by simp [hn]) ?_
    rw [getLast?_app (c := 'w') (by decide)]; decide

theorem singleLine_prefix {a l : Str} (ha : '\n' ∉ a) (hl : a.getLast? ≠ some '\\') (h : SingleLine l) : SingleLine (a ++ l) := by
  intro cur rest
  rw [List.append_assoc, split_text false cur _ ha (fun _ => rfl) hl, h]
  simp

theorem doCmd_single (h : Situation vals target name newer oo command record) (ht : OutputName target)
    (hc : RecordedCommand command) (k : Nat) :
    ∀ l ∈ doCmdParts k vals target name dep command (recordFile vals target), SingleLine l := by
  have hf := h.fileName ht
  have hh := headerLines_single hf ht
  have hn : '\n' ∉ recordFile vals target := hf.no (by decide)
  have hnt : '\n' ∉ target := ht.no (by decide)
  have hquiet : '\n' ∉ vals (vals c!"quiet" ++ (c!"cmd_" ++ name)) := by
    rcases h.quiet with e | e <;> rw [e]
    · rw [List.nil_append, h.atCommand]
      exact hc.line.1
    · exact h.quietText
  intro l hl
  unfold doCmdParts at hl
  simp only [List.mem_append, List.mem_cons, List.not_mem_nil, or_false] at hl
  rcases hl with ((rfl | rfl | rfl | rfl | rfl | rfl | rfl) | hl) | rfl
  · exact singleLine (by decide) (by decide)
  · refine singleLine ?_ ?_
    · simp only [List.mem_append, not_or]
      exact ⟨by decide, echoOf_line (by simpa using hquiet)⟩
    · rw [getLast?_app (echoOf_last _)]; decide
  · refine singleLine ?_ ?_
    · simp only [List.mem_append, not_or]
      exact ⟨by decide, ht.dir.no (by decide), by decide, hf.dir.no (by decide), by decide⟩
    · rw [← List.append_assoc, ← List.append_assoc, ← List.append_assoc, getLast?_app (c := '"') (by decide)]; decide
  · exact singleLine (by decide) (by decide)
  · exact singleLine (by simp [hc.line.1]) (getLast?_app_ne hc.ne hc.last)
  · split
    · exact singleLine (by decide) (by decide)
    · refine singleLine ?_ ?_
      · simp only [List.mem_append, not_or]
        exact ⟨by decide, h.quietText, by decide⟩
      · rw [← List.append_assoc, getLast?_app (c := '"') (by decide)]; decide
  · refine singleLine ?_ ?_
    · simp only [List.mem_append, not_or]
      refine ⟨by decide, echoOf_line ?_, by decide, hn⟩
      rw [recordOf_eq h ht]
      simp only [List.mem_append, not_or]
      refine ⟨⟨⟨by decide, hnt⟩, by decide⟩, fun hm => ?_⟩
      unfold EscapeMakeVariableExpansion replaceChar at hm
      rw [← replaceStr_one] at hm
      rcases mem_replaced hm with hm | hm
      · revert hm; decide
      · exact hc.line.1 hm
    · rw [← List.append_assoc, ← List.append_assoc]
      exact getLast?_app_ne hf.1 (OutputName_last hf)
  · split at hl
    · simp only [List.mem_cons, List.not_mem_nil, or_false] at hl
      subst hl
      exact singleLine (by decide) (by decide)
    · rcases List.mem_cons.mp hl with rfl | hl
      · exact singleLine_prefix (by decide) (by decide) (hh _ (by simp [headerLines]))
      · exact hh _ (List.mem_of_mem_tail hl)
  · exact singleLine (by decide) (by decide)

theorem drop_at (x : Str) : ('@' :: x).dropWhile isBlank = '@' :: x := rfl

/-- The lines of the recipe. -/
theorem doCmd_lines (h : Situation vals target name newer oo command record) (ht : OutputName target)
    (hc : RecordedCommand command) (k : Nat) :
    recipeLines (doCmdLines k vals (lookUp (headerDefs flavor) vals 19 c!"fixup_dep" [name, dep]) name dep) =
      [c!"@" ++ echoOf (c!"  " ++ vals (vals c!"quiet" ++ (c!"cmd_" ++ name))),
       c!"@mkdir -p \"" ++ (dirPart target ++ (c!"\" \"" ++ (dirPart (recordFile vals target) ++ c!"\""))),
       c!"@" ++ command] ++
      (if functionResult c!"findstring" [c!"flock", functionResult c!"word" [natStr k, command]] = [] then []
       else [c!"@echo \"  " ++ (vals (c!"quiet_cmd_" ++ name) ++ c!": Finished\"")]) ++
      [c!"@" ++ (echoOf (recordOf vals command) ++ (c!" > " ++ recordFile vals target))] ++
      (if dep = [] then [c!"@"] else headerLines (recordFile vals target) target) := by
  rw [doCmd_parts h ht, recipe_lines (doCmd_single h ht hc k)]
  unfold doCmdParts
  generalize functionResult c!"findstring" _ = x
  generalize echoOf (recordOf vals command) = log
  generalize echoOf _ = echo
  by_cases hx : x = [] <;> by_cases hd : dep = [] <;> simp [hx, hd, headerLines, isBlank]

/-! ### What the lines do -/

omit vals name newer oo command record dep in
theorem echo_lex (x : Str) :
    lexRun false ⟨.plain, none, []⟩ (echoOf x) = some ⟨.plain, some x, [c!"printf", c!"%s\\n"]⟩ := by
  rw [echoOf_eq, lexRun_append]
  have : lexRun false ⟨.plain, none, []⟩ c!"printf '%s\\n' " = some ⟨.plain, none, [c!"printf", c!"%s\\n"]⟩ := by decide
  rw [this, Option.bind_some, lex_makeEscape]

theorem echo_words (x : Str) : shellWords (echoOf x) = some [c!"printf", c!"%s\\n", x] := by
  unfold shellWords lexWords
  rw [echo_lex]
  rfl

theorem redirect_append {s s' : Lex} {a : Str} (h : lexRun false s a = some s') (b : Str) :
    redirectRun s (a ++ b) = redirectRun s' b := by
  induction a generalizing s with
  | nil => injection h with h; rw [← h]; rfl
  | cons c a ih =>
    rw [lexRun] at h
    obtain ⟨s1, h1, h2⟩ := Option.bind_eq_some_iff.mp h
    rw [List.cons_append, redirectRun, if_neg, h1, Option.bind_some, ih h2]
    rintro ⟨hm, rfl⟩
    unfold lexStep at h1
    rw [hm] at h1
    cases h1

theorem echo_prints {x file : Str} (hf : OutputName file) :
    printsTo (c!"@" ++ (echoOf x ++ (c!" > " ++ file))) = some (file, x ++ c!"\n") := by
  have h1 : startsWith (c!"@" ++ (echoOf x ++ (c!" > " ++ file))) c!"@printf " = true := by
    unfold echoOf
    simp [startsWith]
  have h2 : redirectRun ⟨.plain, none, []⟩ ((c!"@" ++ (echoOf x ++ (c!" > " ++ file))).drop 1) =
      some ([c!"printf", c!"%s\\n", x], file) := by
    show redirectRun ⟨.plain, none, []⟩ (echoOf x ++ (c!" > " ++ file)) = _
    rw [redirect_append (echo_lex x)]
    have hd : file.dropWhile isBlank = file := by
      cases file with
      | nil => rfl
      | cons c file =>
        rw [List.dropWhile_cons, if_neg]
        have := hf.noBlank (c := c) (by simp)
        simp [blankOrLine] at this
        simp [isBlank, this]
    simp [redirectRun, lexStep, isBlank, hd]
  unfold printsTo
  rw [if_pos h1, h2]
  rfl

theorem double_lex {s : Str} (w : Str) (done : List Str) (h : ∀ c ∈ s, c ∉ ['"', '\\', '`', '$']) :
    lexRun false ⟨.double, some w, done⟩ s = some ⟨.double, some (w ++ s), done⟩ := by
  induction s generalizing w with
  | nil => simp [lexRun]
  | cons c s ih =>
    have hc := h c (by simp)
    simp only [List.mem_cons, List.not_mem_nil, or_false, not_or] at hc
    rw [lexRun]
    simp only [lexStep, hc, if_false, false_and, Lex.push, Option.getD_some, Option.bind_some]
    rw [ih _ fun d hd => h d (by simp [hd])]
    simp

theorem Spec.OutputName.quoted {t : Str} (h : OutputName t) : ∀ c ∈ t, c ∉ ['"', '\\', '`', '$'] := by
  intro c hc hm
  apply h.2 c hc
  simp only [List.mem_cons, List.not_mem_nil, or_false] at hm ⊢
  tauto

theorem mkdir_words {a b : Str} (ha : OutputName a) (hb : OutputName b) :
    shellWords (c!"mkdir -p \"" ++ (a ++ (c!"\" \"" ++ (b ++ c!"\"")))) = some [c!"mkdir", c!"-p", a, b] := by
  unfold shellWords lexWords
  have h1 : lexRun false ⟨.plain, none, []⟩ c!"mkdir -p \"" = some ⟨.double, some [], [c!"mkdir", c!"-p"]⟩ := by decide
  have h2 : lexRun false ⟨.double, some a, [c!"mkdir", c!"-p"]⟩ c!"\" \"" =
      some ⟨.double, some [], [c!"mkdir", c!"-p", a]⟩ := by
    simp [lexRun, lexStep, Lex.push]
  have h3 : lexRun false ⟨.double, some b, [c!"mkdir", c!"-p", a]⟩ c!"\"" =
      some ⟨.plain, some b, [c!"mkdir", c!"-p", a]⟩ := by
    simp [lexRun, lexStep]
  rw [lexRun_append, h1, Option.bind_some, lexRun_append, double_lex _ _ ha.quoted, Option.bind_some, List.nil_append,
    lexRun_append, h2, Option.bind_some, lexRun_append, double_lex _ _ hb.quoted, Option.bind_some, List.nil_append, h3]
  rfl

/-- What is recorded is read back. -/
theorem record_read (h : Situation vals target name newer oo command record) (ht : OutputName target)
    (hc : RecordedCommand command) (rest : Str) :
    makeAssignment (recordOf vals command ++ c!"\n" ++ rest) = some (c!"cmd_" ++ target, command) := by
  have hv : VarText (c!"cmd_" ++ target) := by
    intro c hm
    rcases List.mem_append.mp hm with hm | hm
    · exact (by decide : ∀ c ∈ c!"cmd_", c ≠ ':' ∧ c ≠ '\n' ∧ c ≠ '#' ∧ c ≠ '\\') c hm
    · refine ⟨?_, ?_, ?_, ?_⟩ <;> (rintro rfl; exact ht.no (by decide) hm)
  have hE : ∀ c, c ∈ EscapeMakeVariableExpansion command → c ∈ command := by
    intro c hm
    unfold EscapeMakeVariableExpansion replaceChar at hm
    rw [List.mem_flatMap] at hm
    obtain ⟨d, hd, hm⟩ := hm
    split at hm
    · rename_i e
      simp at hm
      rw [hm, ← e]; exact hd
    · simp at hm
      rw [hm]; exact hd
  have hne : EscapeMakeVariableExpansion command ≠ [] := by
    intro e
    unfold EscapeMakeVariableExpansion replaceChar at e
    rw [List.flatMap_eq_nil_iff] at e
    obtain ⟨c, hm⟩ := List.exists_mem_of_ne_nil _ hc.ne
    have := e c hm
    split at this <;> cases this
  have hlast : ∀ c, (EscapeMakeVariableExpansion command).getLast? = some c → c ≠ '\\' := by
    rintro c e rfl
    obtain ⟨a, d, rfl⟩ : ∃ a d, command = a ++ [d] := ⟨_, _, (List.dropLast_append_getLast hc.ne).symm⟩
    unfold EscapeMakeVariableExpansion replaceChar at e
    rw [List.flatMap_append] at e
    by_cases hd : d = '$'
    · simp [hd] at e
    · simp [hd] at e
      have := hc.last
      simp [e] at this
  have hfirst : (EscapeMakeVariableExpansion command).dropWhile isBlank = EscapeMakeVariableExpansion command := by
    cases command with
    | nil => rfl
    | cons c t =>
      have hb := hc.first c rfl
      have : EscapeMakeVariableExpansion (c :: t) =
          (if c = '$' then c!"$$" else [c]) ++ EscapeMakeVariableExpansion t := rfl
      rw [this]
      split
      · rfl
      · rw [List.singleton_append, List.dropWhile_cons, if_neg (by simp [hb])]
  have hlog : makeLogicalLine (recordOf vals command ++ c!"\n" ++ rest) =
      c!"cmd_" ++ target ++ c!" := " ++ EscapeMakeVariableExpansion command := by
    rw [recordOf_eq h ht]
    unfold makeLogicalLine
    rw [List.foldl_append, List.foldl_append, List.foldl_append, List.foldl_append (l := c!"cmd_" ++ target), hv.line]
    have h1 : (c!" := ").foldl makeStep ⟨.text, 0, [] ++ (c!"cmd_" ++ target)⟩ =
        ⟨.text, 0, c!"cmd_" ++ target ++ c!" := "⟩ := by
      simp [makeStep, makeText]
    rw [h1, make_line _ (fun hm => hc.line.1 (hE _ hm)) (fun hm => hc.line.2 (hE _ hm)) hlast]
    generalize c!"cmd_" ++ target ++ c!" := " ++ EscapeMakeVariableExpansion command = out
    have h2 : (c!"\n").foldl makeStep ⟨.text, 0, out⟩ = ⟨.done, 0, out⟩ := by
      simp [makeStep, makeText]
    rw [h2]
    have h3 : ∀ l : Str, l.foldl makeStep ⟨.done, 0, out⟩ = ⟨.done, 0, out⟩ := by
      intro l
      induction l with
      | nil => rfl
      | cons c l ih => rw [List.foldl_cons]; exact ih
    rw [h3]
  unfold makeAssignment
  rw [hlog]
  have hs : split1 ':' (c!"cmd_" ++ target ++ c!" := " ++ EscapeMakeVariableExpansion command) =
      some (c!"cmd_" ++ target ++ [' '], '=' :: ' ' :: EscapeMakeVariableExpansion command) := by
    have := split1_cons ':' (c!"cmd_" ++ target ++ [' ']) ('=' :: ' ' :: EscapeMakeVariableExpansion command) (by
      intro hm
      rcases List.mem_append.mp hm with hm | hm
      · exact (hv _ hm).1 rfl
      · revert hm; decide)
    simpa using this
  rw [hs]
  simp only
  have hd : (' ' :: EscapeMakeVariableExpansion command).dropWhile isBlank = EscapeMakeVariableExpansion command := by
    rw [List.dropWhile_cons, if_pos (by decide), hfirst]
  have he := expand_escaped command []
  rw [List.append_nil] at he
  rw [hd, he, rstrip_blank]
  · simp [makeExpand]
  · intro c hm
    rcases List.mem_append.mp hm with hm | hm
    · exact (by decide : ∀ c ∈ c!"cmd_", isBlank c = false) c hm
    · have := ht.noBlank hm
      simp [blankOrLine] at this
      simp [isBlank, this]

end

end Gyp
