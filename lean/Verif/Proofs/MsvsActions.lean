import Verif.Spec.MsvsActions
import Verif.Proofs.MsvsMacros
import Verif.Proofs.MsvsSources
import Verif.Proofs.Path
import Verif.Props.Quoting
import Verif.Props.Build
/-
Lemmas about the actions and copies of Visual Studio projects.
-/
namespace Gyp
open Spec

/-! ### Macros line by line -/

theorem renamedMacros_noReturn : ∀ m ∈ renamedMacros, '\r' ∉ m.1 := by decide +kernel
theorem slashMacros_noReturn : ∀ m ∈ slashMacros, '\r' ∉ m := by decide +kernel
theorem renamedMacros_noNewline : ∀ m ∈ renamedMacros, '\n' ∉ m.2 := by decide +kernel

theorem prefix_before_return {m s b : Str} (hm : '\r' ∉ m) (hb : b.head? = some '\r') (h : m <+: s ++ b) :
    m <+: s := by
  obtain ⟨t, ht⟩ := h
  rcases List.append_eq_append_iff.mp ht with ⟨u, h1, _⟩ | ⟨u, h1, h2⟩
  · exact ⟨u, h1.symm⟩
  · cases u with
    | nil => exact ⟨[], by simpa using h1⟩
    | cons x u =>
      rw [h2] at hb
      simp only [List.cons_append, List.head?_cons, Option.some.injEq] at hb
      exact absurd (by rw [h1, hb]; simp) hm

theorem macros_append {a a' b b' : Str} (ha : MacrosConverted a a') (hb : MacrosConverted b b')
    (h : b.head? = some '\r') : MacrosConverted (a ++ b) (a' ++ b') := by
  induction ha with
  | nil => simpa using hb
  | renamed hm _ ih =>
    rw [List.append_assoc, List.append_assoc]
    exact .renamed hm ih
  | slashes hm hsl hs _ ih =>
    rename_i m sl s out _
    have e : m ++ out ++ b' = m ++ (out ++ b') := List.append_assoc _ _ _
    rw [List.append_assoc (m ++ sl), e]
    refine .slashes hm hsl ?_ ih
    intro c hc
    cases s with
    | nil =>
      rw [List.nil_append, h] at hc
      cases hc
      decide
    | cons x s => exact hs c (by simpa using hc)
  | char h1 h2 _ ih =>
    exact .char (fun m hm hp => h1 m hm (prefix_before_return (renamedMacros_noReturn m hm) h hp))
      (fun m hm hp => h2 m hm (prefix_before_return (slashMacros_noReturn m hm) h hp)) ih

theorem macros_plain {c : Char} {a a' : Str} (hc : c ≠ '$') (h : MacrosConverted a a') :
    MacrosConverted (c :: a) (c :: a') := by
  refine .char ?_ ?_ h
  · intro m hm hp
    have : m.1.head? = some '$' := (by decide +kernel : ∀ m ∈ renamedMacros, m.1.head? = some '$') m hm
    obtain ⟨t, ht⟩ := hp
    cases hm1 : m.1 with
    | nil => simp [hm1] at this
    | cons x xs =>
      rw [hm1] at this ht
      simp only [List.cons_append, List.cons.injEq, List.head?_cons, Option.some.injEq] at this ht
      exact hc (ht.1.symm.trans this)
  · intro m hm hp
    have : m.head? = some '$' := (by decide +kernel : ∀ m ∈ slashMacros, m.head? = some '$') m hm
    obtain ⟨t, ht⟩ := hp
    cases m with
    | nil => simp at this
    | cons x xs =>
      simp only [List.cons_append, List.cons.injEq, List.head?_cons, Option.some.injEq] at this ht
      exact hc (ht.1.symm.trans this)

theorem macros_noNewline {a a' : Str} (h : MacrosConverted a a') (ha : '\n' ∉ a) : '\n' ∉ a' := by
  induction h with
  | nil => exact ha
  | renamed hm _ ih =>
    simp only [List.mem_append, not_or] at ha ⊢
    exact ⟨renamedMacros_noNewline _ hm, ih ha.2⟩
  | slashes hm _ _ _ ih =>
    simp only [List.mem_append, not_or] at ha ⊢
    exact ⟨ha.1.1, ih ha.2⟩
  | char _ _ _ ih =>
    simp only [List.mem_cons, not_or] at ha ⊢
    exact ⟨ha.1, ih ha.2⟩

/-- The text of the item before macros are converted. -/
def checkedText (cs : List Str) : Str :=
  joinWith c!"\r\n" (cs.map fun c => c ++ c!"\r\n" ++ stopLine)

theorem macros_stop : MacrosConverted (c!"\r\n" ++ stopLine) (c!"\r\n" ++ stopLine) :=
  no_macro (by decide)

theorem macros_checked {cs : List Str} (hne : cs ≠ []) :
    ∃ lines, List.Forall₂ MacrosConverted cs lines ∧
      MacrosConverted (checkedText cs) (checkedText lines) ∧ lines ≠ [] := by
  induction cs with
  | nil => exact absurd rfl hne
  | cons c cs ih =>
    have hc := macrosConverted c
    by_cases hcs : cs = []
    · subst hcs
      refine ⟨[ConvertVCMacrosToMSBuild c], .cons hc .nil, ?_, by simp⟩
      simp only [checkedText, List.map_cons, List.map_nil, joinWith, List.append_assoc]
      exact macros_append hc macros_stop rfl
    · obtain ⟨lines, h1, h2, h3⟩ := ih hcs
      refine ⟨ConvertVCMacrosToMSBuild c :: lines, .cons hc h1, ?_, by simp⟩
      have e : ∀ (x : Str) (xs : List Str), xs ≠ [] →
          checkedText (x :: xs) = x ++ (c!"\r\n" ++ stopLine ++ (c!"\r\n" ++ checkedText xs)) := by
        intro x xs hx
        cases xs with
        | nil => exact absurd rfl hx
        | cons y ys => simp [checkedText, joinWith, List.append_assoc]
      rw [e _ _ hcs, e _ _ h3]
      refine macros_append hc (macros_append macros_stop ?_ rfl) rfl
      exact macros_plain (by decide) (macros_plain (by decide) h2)

/-! ### Lines -/

theorem batchLines_cons {l rest : Str} (h : '\n' ∉ l) :
    batchLines (l ++ c!"\r\n" ++ rest) = l :: batchLines rest := by
  have e : l ++ c!"\r\n" ++ rest = (l ++ ['\r']) ++ '\n' :: rest := by simp
  rw [e]
  unfold batchLines
  rw [splitOn_append_sep, splitOn_noSep (by simp [h])]
  simp [dropReturn]

theorem batchLines_checked {cs : List Str} (hne : cs ≠ []) (h : ∀ c ∈ cs, '\n' ∉ c) :
    batchLines (checkedText cs) = cs.flatMap fun c => [c, stopLine] := by
  induction cs with
  | nil => exact absurd rfl hne
  | cons c cs ih =>
    have hs : '\n' ∉ stopLine := by decide
    cases cs with
    | nil =>
      simp only [checkedText, List.map_cons, List.map_nil, joinWith, List.flatMap_cons,
        List.flatMap_nil, List.append_nil]
      rw [batchLines_cons (h c (by simp))]
      have : batchLines stopLine = [stopLine] := by decide
      rw [this]
    | cons d ds =>
      have e : checkedText (c :: d :: ds) = c ++ c!"\r\n" ++ (stopLine ++ c!"\r\n" ++ checkedText (d :: ds)) := by
        simp [checkedText, joinWith, List.append_assoc]
      rw [e, batchLines_cons (h c (by simp)), batchLines_cons hs,
        ih (by simp) (fun x hx => h x (by simp [hx]))]
      simp

theorem forall₂_map_left {α β γ : Type} {R : β → γ → Prop} {f : α → β} {l : List α} {m : List γ}
    (h : List.Forall₂ R (l.map f) m) : List.Forall₂ (fun a c => R (f a) c) l m := by
  induction l generalizing m with
  | nil => cases h; exact .nil
  | cons a l ih => cases h with | cons h1 h2 => exact .cons h1 (ih h2)

/-- The command of an item, line by line. -/
theorem command_lines {cs : List Str} (hne : cs ≠ []) (h : ∀ c ∈ cs, '\n' ∉ c) :
    ∃ lines, List.Forall₂ MacrosConverted cs lines ∧
      batchLines (ConvertVCMacrosToMSBuild (checkedText cs)) = lines.flatMap fun l => [l, stopLine] := by
  obtain ⟨lines, h1, h2, h3⟩ := macros_checked hne
  refine ⟨lines, h1, ?_⟩
  rw [macrosConverted_unique (macrosConverted _) h2]
  refine batchLines_checked h3 ?_
  clear h2 h3 hne
  induction h1 with
  | nil => simp
  | cons hc _ ih =>
    intro c hmem
    rcases List.mem_cons.mp hmem with rfl | hm
    · exact macros_noNewline hc (h _ (by simp))
    · exact ih (fun x hx => h x (by simp [hx])) c hm

/-! ### Lists -/

theorem listed_join {ws : List Str} (h : ∀ w ∈ ws, w ≠ [] ∧ ';' ∉ w) : listed (joinWith c!";" ws) = ws := by
  unfold listed
  cases ws with
  | nil => simp [joinWith, splitOn]
  | cons a ws =>
    rw [splitOn_joinWith (by simp) (fun w hw => (h w hw).2)]
    exact List.filter_eq_self.mpr fun w hw => by simpa using (h w hw).1

theorem mem_foldl_winUpdate {α : Type} (f : α → List Str) (l : List α) (acc : List Str) (y : Str) :
    y ∈ l.foldl (fun acc s => winUpdate acc (f s)) acc ↔ y ∈ acc ∨ ∃ s ∈ l, y ∈ f s := by
  induction l generalizing acc with
  | nil => simp
  | cons a l ih =>
    rw [List.foldl_cons, ih, mem_winUpdate]
    simp [or_assoc]

/-! ### The dictionary of steps -/

/-- The dictionary has the steps, each at its first input. -/
structure HasSteps (steps : List WinStep) (d : WinSteps) : Prop where
  keys : (akeys d).Nodup
  values : ∀ k, aget d k = if attachedSteps steps k = [] then none else some (attachedSteps steps k)

theorem hasSteps_nil : HasSteps [] [] := ⟨by simp [akeys], fun k => by simp [aget, attachedSteps]⟩

theorem hasSteps_add {steps : List WinStep} {d d' : WinSteps} {s : WinStep} (h : HasSteps steps d)
    (hs : addActionStep d s = some d') : HasSteps (steps ++ [s]) d' := by
  unfold addActionStep at hs
  cases hi : s.inputs with
  | nil => simp [hi] at hs
  | cons chosen rest =>
    simp only [hi] at hs
    have hs := (Option.some.inj hs).symm
    subst hs
    refine ⟨akeys_aset_nodup h.keys _ _, fun k => ?_⟩
    rw [aget_aset]
    have hat : attachedSteps (steps ++ [s]) k = attachedSteps steps k ++ if chosen = k then [s] else [] := by
      unfold attachedSteps
      rw [List.filter_append]
      by_cases hk : chosen = k
      · simp [hi, hk]
      · simp [hi, hk]
    rw [hat]
    by_cases hk : k = chosen
    · subst hk
      rw [if_pos rfl, h.values]
      simp only [if_true]
      by_cases e : attachedSteps steps k = []
      · simp [e]
      · simp [e]
    · have e : (if chosen = k then [s] else []) = [] := if_neg (fun e => hk e.symm)
      rw [if_neg hk, e, List.append_nil]
      exact h.values k

theorem hasSteps_fold {new : List WinStep} : ∀ {steps : List WinStep} {d d' : WinSteps}, HasSteps steps d →
    new.foldlM addActionStep d = some d' → HasSteps (steps ++ new) d' := by
  induction new with
  | nil =>
    intro steps d d' h hd
    simp only [List.foldlM_nil, Option.pure_def, Option.some.injEq] at hd
    subst hd
    simpa using h
  | cons s new ih =>
    intro steps d d' h hd
    simp only [List.foldlM_cons] at hd
    cases hs : addActionStep d s with
    | none => simp [hs] at hd
    | some d1 =>
      simp only [hs, Option.bind_eq_bind, Option.bind_some] at hd
      have := ih (hasSteps_add h hs) hd
      simpa using this

theorem hasSteps_mem {steps : List WinStep} {d : WinSteps} (h : HasSteps steps d) {e : Str × List WinStep}
    (he : e ∈ d) : e.2 = attachedSteps steps e.1 ∧ e.2 ≠ [] := by
  have := aget_of_mem h.keys (k := e.1) (v := e.2) he
  rw [h.values] at this
  by_cases hn : attachedSteps steps e.1 = []
  · simp [hn] at this
  · rw [if_neg hn] at this
    have := Option.some.inj this
    exact ⟨this.symm, this ▸ hn⟩

theorem hasSteps_keys {steps : List WinStep} {d : WinSteps} (h : HasSteps steps d) (k : Str) :
    k ∈ akeys d ↔ ∃ s ∈ steps, s.inputs.head? = some k := by
  rw [← aget_isSome, h.values]
  by_cases hn : attachedSteps steps k = []
  · rw [if_pos hn]
    unfold attachedSteps at hn
    simp only [Option.isSome_none, Bool.false_eq_true, false_iff, not_exists, not_and]
    intro s hs hk
    have := List.filter_eq_nil_iff.mp hn s hs
    simp [hk] at this
  · rw [if_neg hn]
    simp only [Option.isSome_some, true_iff]
    obtain ⟨s, hs⟩ := List.exists_mem_of_ne_nil _ hn
    unfold attachedSteps at hs
    have := List.mem_filter.mp hs
    exact ⟨s, this.1, by simpa using this.2⟩

/-! ### Actions -/

theorem addActions_steps {w : WinPaths} {cygwinDir gypFile : Str} {actions : List WinActionSpec} :
    ∀ {setup : List Str} {d d' : WinSteps}, addActions w cygwinDir gypFile setup d actions = some d' →
    ∃ steps : List WinStep, steps.length = actions.length ∧ steps.foldlM addActionStep d = some d' ∧
      ∀ i a, actions[i]? = some a → ∃ (s : WinStep) (first : Bool), steps[i]? = some s ∧
        (first = true ↔ (inputsOf gypFile a).headD [] ∉ setup ∧
          ∀ b ∈ actions.take i, (inputsOf gypFile b).headD [] ≠ (inputsOf gypFile a).headD []) ∧
        StepFor w cygwinDir gypFile first a s := by
  induction actions with
  | nil =>
    intro setup d d' h
    simp only [addActions, Option.some.injEq] at h
    subst h
    exact ⟨[], rfl, by simp, by simp⟩
  | cons a as ih =>
    intro setup d d' h
    simp only [addActions, Option.bind_eq_bind] at h
    obtain ⟨cmd, hc, h⟩ := Option.bind_eq_some_iff.mp h
    obtain ⟨d1, hd1, h⟩ := Option.bind_eq_some_iff.mp h
    obtain ⟨steps, hl, hf, hs⟩ := ih h
    refine ⟨⟨inputsOf gypFile a, a.outputs, a.message.getD a.name, cmd⟩ :: steps, by simp [hl], ?_, ?_⟩
    · rw [List.foldlM_cons]
      have : addActionStep d ⟨inputsOf gypFile a, a.outputs, a.message.getD a.name, cmd⟩ = some d1 := hd1
      rw [this]
      exact hf
    · intro i b hb
      cases i with
      | zero =>
        simp only [List.getElem?_cons_zero, Option.some.injEq] at hb
        subst hb
        refine ⟨_, decide ((inputsOf gypFile a).headD [] ∉ setup), rfl, by simp, rfl, rfl, rfl, hc⟩
      | succ i =>
        simp only [List.getElem?_cons_succ] at hb ⊢
        obtain ⟨s, first, h1, h2, h3⟩ := hs i b hb
        refine ⟨s, first, h1, h2.trans ?_, h3⟩
        rw [List.take_succ_cons, List.forall_mem_cons]
        simp only [List.mem_cons, not_or]
        constructor
        · rintro ⟨⟨h1, h2⟩, h3⟩; exact ⟨h2, fun e => h1 e.symm, h3⟩
        · rintro ⟨h1, h2, h3⟩; exact ⟨⟨fun e => h2 e.symm, h1⟩, h3⟩

/-- The item of a key. -/
theorem item_for {w : WinPaths} {hosts : Bool} {steps : List WinStep} {e : Str × List WinStep}
    (he : e.2 = attachedSteps steps e.1) (hne : e.2 ≠ []) :
    ItemFor w hosts steps e.1 (actionItem w hosts e) := by
  have hin : ∀ s : WinStep, (if hosts then s.inputs.map fixupHostExe else s.inputs) =
      s.inputs.map (hostInput hosts) := by
    intro s
    cases hosts with
    | false =>
      simp only [Bool.false_eq_true, if_false]
      refine (List.map_id' _).symm.trans (List.map_congr_left fun x _ => ?_)
      unfold hostInput hostText
      simp
    | true =>
      simp only [if_true]
      refine List.map_congr_left fun x _ => ?_
      unfold fixupHostExe hostInput hostText
      have : hasSub c!"$(OutDir)" x = true ↔ c!"$(OutDir)" <:+: x := by
        rw [hasSub_iff]
        constructor
        · rintro ⟨a, b, h⟩; exact ⟨a, b, h.symm⟩
        · rintro ⟨a, b, h⟩; exact ⟨a, b, h.symm⟩
      by_cases hx : c!"$(OutDir)" <:+: x
      · rw [if_pos (this.mpr hx), if_pos hx, if_pos rfl]
      · rw [if_neg (fun h => hx (this.mp h)), if_neg hx]
  constructor
  · rfl
  · simp only [actionItem, customBuild, ← he]
  · intro h
    rw [← he] at h ⊢
    have hcs : e.2.map (fun s => stepCommand hosts s) ≠ [] := by simpa using hne
    obtain ⟨lines, h1, h2⟩ := command_lines hcs (by
      intro c hc
      obtain ⟨s, hs, rfl⟩ := List.mem_map.mp hc
      unfold stepCommand
      have := h s hs
      unfold hostText at this
      simp only [List.mem_append, not_or]
      exact ⟨by decide, this⟩)
    refine ⟨lines, forall₂_map_left h1, ?_⟩
    rw [← h2]
    simp only [actionItem, customBuild, checkedText, List.map_map]
    congr 4
    funext s
    simp [stopLine]
  · intro h o
    rw [← he] at h ⊢
    simp only [actionItem, customBuild]
    rw [listed_join (by
      intro x hx
      obtain ⟨y, hy, rfl⟩ := List.mem_map.mp hx
      rcases (mem_foldl_winUpdate (fun s : WinStep => s.outputs) _ _ _).mp hy with hy | ⟨s, hs, hy⟩
      · cases hy
      · exact h s hs y hy)]
    rw [List.mem_map]
    constructor
    · rintro ⟨x, hx, rfl⟩
      rcases (mem_foldl_winUpdate (fun s : WinStep => s.outputs) _ _ _).mp hx with hy | ⟨s, hs, hy⟩
      · cases hy
      · exact ⟨s, hs, x, hy, rfl⟩
    · rintro ⟨s, hs, x, hx, rfl⟩
      exact ⟨x, (mem_foldl_winUpdate (fun s : WinStep => s.outputs) _ _ _).mpr (Or.inr ⟨s, hs, hx⟩), rfl⟩
  · intro h i
    rw [← he] at h ⊢
    simp only [actionItem, customBuild, hin]
    have key : ∀ y, y ∈ e.2.foldl (fun acc (s : WinStep) => winUpdate acc (s.inputs.map (hostInput hosts))) [] ↔
        ∃ s ∈ e.2, ∃ x ∈ s.inputs, y = hostInput hosts x := by
      intro y
      rw [mem_foldl_winUpdate (fun s : WinStep => s.inputs.map (hostInput hosts))]
      simp only [List.not_mem_nil, false_or, List.mem_map]
      constructor
      · rintro ⟨s, hs, x, hx, rfl⟩; exact ⟨s, hs, x, hx, rfl⟩
      · rintro ⟨s, hs, x, hx, rfl⟩; exact ⟨s, hs, x, hx, rfl⟩
    have hg : ∀ t : Str, (if t = [] then (none : Option Str) else some t).getD [] = t := by
      intro t
      by_cases ht : t = []
      · simp [ht]
      · simp [ht]
    rw [hg]
    rw [listed_join (by
      intro x hx
      obtain ⟨y, hy, rfl⟩ := List.mem_map.mp (List.mem_filter.mp hx).1
      obtain ⟨s, hs, z, hz, rfl⟩ := (key y).mp hy
      exact h s hs z hz)]
    rw [List.mem_filter, List.mem_map]
    constructor
    · rintro ⟨⟨y, hy, rfl⟩, hne⟩
      obtain ⟨s, hs, z, hz, rfl⟩ := (key y).mp hy
      exact ⟨by simpa using hne, s, hs, z, hz, rfl⟩
    · rintro ⟨hne, s, hs, z, hz, rfl⟩
      exact ⟨⟨_, (key _).mpr ⟨s, hs, z, hz, rfl⟩, rfl⟩, by simpa using hne⟩

/-! ### Runs -/

theorem runBatch_checked {W : Type} (exec : Str → W → W × Nat) {cs : List Str}
    (hs : ∀ c ∈ cs, c ≠ stopLine) (hv : ∀ c ∈ cs, ¬ setsErrorlevel c) (w : W) :
    ∃ ran code, runBatch exec ⟨w, 0, none⟩ (cs.flatMap fun c => [c, stopLine]) = (ran, code) ∧
      UntilFailure exec w cs ran code := by
  induction cs generalizing w with
  | nil => exact ⟨[], 0, rfl, .finished⟩
  | cons c cs ih =>
    simp only [List.flatMap_cons, List.cons_append, List.nil_append, runBatch]
    rw [if_neg (hs c (by simp)), if_neg (hv c (by simp))]
    simp only [if_true, Option.getD_none]
    by_cases h : (exec c w).2 = 0
    · obtain ⟨ran, code, h1, h2⟩ := ih (fun x hx => hs x (by simp [hx])) (fun x hx => hv x (by simp [hx]))
        (exec c w).1
      refine ⟨c :: ran, code, ?_, .next h h2⟩
      rw [if_neg (by simpa using h), h, h1]
    · exact ⟨[c], (exec c w).2, by rw [if_pos h], .failed h⟩

theorem runBatch_hidden {W : Type} (exec : Str → W → W × Nat) {cs : List Str}
    (hs : ∀ c ∈ cs, c ≠ stopLine) (w : W) (level : Nat) :
    runBatch exec ⟨w, level, some 0⟩ (cs.flatMap fun c => [c, stopLine]) =
      (cs, lastCode exec w level cs) := by
  induction cs generalizing w level with
  | nil => rfl
  | cons c cs ih =>
    simp only [List.flatMap_cons, List.cons_append, List.nil_append, runBatch, lastCode]
    rw [if_neg (hs c (by simp))]
    simp [ih (fun x hx => hs x (by simp [hx]))]

/-! ### Paths -/

theorem place_fromProject {w : WinPaths} {place : Loc → Str → Loc} (m : PathMeaning w place)
    (l : Loc) {p : Str} (hp : p ≠ []) : place l (fromProject w p) = place (place l w.base) p := by
  unfold fromProject
  by_cases h1 : w.base = []
  · rw [if_neg (by simp [h1]), h1, m.here]
  by_cases h2 : w.isabs p = true
  · rw [if_neg (by simp [h2])]
    exact m.absolute _ _ _ h2
  by_cases h3 : p.head? = some '$'
  · rw [if_neg (by simp [h3])]
    exact m.macro_ _ _ _ h3
  by_cases h4 : isWindowsAbsPath p = true
  · rw [if_neg (by simp [h4])]
    exact m.drive _ _ _ h4
  simp only [Bool.not_eq_true] at h2 h4
  rw [if_pos ⟨h1, hp, h2, h3, h4⟩]
  exact m.join _ _ _ hp h2 h3 h4

theorem fromProject_ne {w : WinPaths} {place : Loc → Str → Loc} (m : PathMeaning w place)
    {p : Str} (hp : p ≠ []) : fromProject w p ≠ [] := by
  unfold fromProject
  split
  · exact m.joinNonempty _ _ hp
  · exact hp

theorem place_normalized {w : WinPaths} {place : Loc → Str → Loc} (m : PathMeaning w place)
    (l : Loc) {p : Str} (hp : p ≠ []) : place l (normalizedSource w p) = place l p := by
  unfold normalizedSource
  by_cases h : p.count '$' = (w.norm p).count '$'
  · rw [if_pos h]; exact m.norm l p hp h
  · rw [if_neg h]

theorem place_dropLastSep {w : WinPaths} {place : Loc → Str → Loc} (m : PathMeaning w place)
    (l : Loc) {sep : Char} (hsep : sep = '\\' ∨ sep = '/') {p : Str} (h0 : dropLastSep sep p ≠ [])
    (h1 : (dropLastSep sep p).getLast? ≠ some '\\') (h2 : (dropLastSep sep p).getLast? ≠ some '/')
    (h3 : (dropLastSep sep p).getLast? ≠ some ':') : place l (dropLastSep sep p) = place l p := by
  unfold dropLastSep at *
  by_cases h : p.getLast? = some sep
  · rw [if_pos h] at h0 h1 h2 h3 ⊢
    have hp : p = p.dropLast ++ [sep] := by
      have := List.dropLast_append_getLast? sep h
      exact this.symm
    obtain ⟨c, hc⟩ : ∃ c, p.dropLast.getLast? = some c := by
      cases e : p.dropLast.getLast? with
      | none => exact absurd (List.getLast?_eq_none_iff.mp e) h0
      | some c => exact ⟨c, rfl⟩
    rw [hc] at h1 h2 h3
    simp only [ne_eq, Option.some.injEq] at h1 h2 h3
    have := m.ending l _ c hc h2 h1 h3
    rcases hsep with rfl | rfl
    · exact this.1.symm.trans (by rw [← hp])
    · exact this.2.symm.trans (by rw [← hp])
  · rw [if_neg h]

theorem replaceChar_ne {c : Char} {r p : Str} (hr : r ≠ []) (hp : p ≠ []) : replaceChar c r p ≠ [] := by
  cases p with
  | nil => exact absurd rfl hp
  | cons x p =>
    unfold replaceChar
    simp only [List.flatMap_cons]
    split
    · simp [hr]
    · simp

theorem place_fixPath {w : WinPaths} {place : Loc → Str → Loc} (m : PathMeaning w place)
    (l : Loc) {p : Str} (hp : p ≠ []) (hq : QuotedPath (fixPath w p)) :
    place l (fixPath w p) = place (place l w.base) p := by
  obtain ⟨_, _, _, _, h0, h1, h2, h3⟩ := hq
  unfold fixPath at *
  rw [place_dropLastSep m l (.inl rfl) h0 h1 h2 h3,
    place_normalized m l (replaceChar_ne (by simp) (fromProject_ne m hp)), m.slash,
    place_fromProject m l hp]

theorem place_fixPathSlash {w : WinPaths} {place : Loc → Str → Loc} (m : PathMeaning w place)
    (l : Loc) {p : Str} (hp : p ≠ []) (hq : QuotedPath (fixPathSlash w p)) :
    place l (fixPathSlash w p) = place (place l w.base) p := by
  obtain ⟨_, _, _, _, h0, h1, h2, h3⟩ := hq
  unfold fixPathSlash at *
  rw [place_dropLastSep m l (.inr rfl) h0 h1 h2 h3, m.backslash,
    place_normalized m l (fromProject_ne m hp), place_fromProject m l hp]

/-! ### Words -/

theorem winQuote_plain (t : Str) (h : '"' ∉ t) : ∀ n, winQuote n t = List.replicate n '\\' ++ t := by
  induction t with
  | nil => intro n; simp [winQuote]
  | cons c t ih =>
    intro n
    simp only [List.mem_cons, not_or] at h
    rw [winQuote]
    by_cases hc : c = '\\'
    · rw [if_pos hc, ih h.2, hc, List.replicate_succ']
      simp
    · rw [if_neg hc, if_neg (fun e => h.1 e.symm), ih h.2]
      simp

theorem rspText_plain {t : Str} (h : '"' ∉ t) : rspText t = c!"\"" ++ t ++ c!"\"" := by
  unfold rspText
  rw [winQuote_plain t h]
  simp

theorem batchPercent_plain {t : Str} (h : '%' ∉ t) : batchPercent t = some t := by
  induction t with
  | nil => rfl
  | cons c t ih =>
    simp only [List.mem_cons, not_or] at h
    rw [percent_cons c t (fun e => h.1 e.symm), ih h.2]
    rfl

/-- Words without blanks and quotes, one after the other. -/
theorem argv_word {a rest : Str} {done : List Str} (hne : a ≠ [])
    (h : ∀ c ∈ a, c ≠ '\\' ∧ c ≠ '"' ∧ c ≠ ' ' ∧ c ≠ '\t') :
    (a ++ ' ' :: rest).foldl argvStep ⟨false, 0, none, done⟩ =
      rest.foldl argvStep ⟨false, 0, none, done ++ [a]⟩ := by
  have key : ∀ (a w : Str), (∀ c ∈ a, c ≠ '\\' ∧ c ≠ '"' ∧ c ≠ ' ' ∧ c ≠ '\t') →
      a.foldl argvStep ⟨false, 0, some w, done⟩ = ⟨false, 0, some (w ++ a), done⟩ := by
    intro a
    induction a with
    | nil => intro w _; simp
    | cons c a ih =>
      intro w h
      have hc := h c (by simp)
      rw [List.foldl_cons]
      have : argvStep ⟨false, 0, some w, done⟩ c = ⟨false, 0, some (w ++ [c]), done⟩ := by
        simp [argvStep, hc.1, hc.2.1, hc.2.2.1, hc.2.2.2, ArgvSt.push]
      rw [this, ih _ (fun x hx => h x (by simp [hx]))]
      simp
  rw [List.foldl_append, List.foldl_cons]
  congr 1
  cases a with
  | nil => exact absurd rfl hne
  | cons c a =>
    have hc := h c (by simp)
    have : argvStep ⟨false, 0, none, done⟩ c = ⟨false, 0, some [c], done⟩ := by
      simp [argvStep, hc.1, hc.2.1, hc.2.2.1, hc.2.2.2, ArgvSt.push]
    rw [List.foldl_cons, this, key a [c] (fun x hx => h x (by simp [hx]))]
    simp [argvStep]

theorem argv_quoted {a rest : Str} {done : List Str} (hq : '"' ∉ a) (hb : a.getLast? ≠ some '\\') :
    ((c!"\"" ++ a ++ c!"\"") ++ ' ' :: rest).foldl argvStep ⟨false, 0, none, done⟩ =
      rest.foldl argvStep ⟨false, 0, none, done ++ [a]⟩ := by
  rw [← rspText_plain hq, List.foldl_append, argv_rspText a done hb, List.foldl_cons]
  simp [argvStep]

theorem fixSlashes_noDollar (s : Str) (h : '$' ∉ s) : FixVCMacroSlashes s = s := by
  induction s with
  | nil => rw [FixVCMacroSlashes]
  | cons c s ih =>
    simp only [List.mem_cons, not_or] at h
    have hc : ∀ m : Str, m.head? = some '$' → startsWith (c :: s) m = false := by
      intro m hm
      cases m with
      | nil => simp at hm
      | cons x m =>
        simp only [List.head?_cons, Option.some.injEq] at hm
        have : ¬ x = c := fun e => h.1 (hm ▸ e)
        unfold startsWith
        simp [List.isPrefixOf, this]
    rw [FixVCMacroSlashes, hc _ rfl, hc _ rfl, ih h.2]
    simp

end Gyp
