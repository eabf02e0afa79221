import Verif.Spec.Log
/-
C77: messages are shown in order, once, when they are due.
-/
namespace Gyp
open Spec

/-! ### Events one by one -/

theorem runLog_snoc (l : Logger) (es : List LogEvent) (e : LogEvent) :
    runLog l (es ++ [e]) =
      ((onLog (runLog l es).1 e).1, (runLog l es).2 ++ (onLog (runLog l es).1 e).2) := by
  induction es generalizing l with
  | nil => simp [runLog]
  | cons a es ih => simp [runLog, ih]

theorem pausedAfter_snoc (es : List LogEvent) (e : LogEvent) :
    pausedAfter (es ++ [e]) = if e = .pause then true else if e = .resume then false else pausedAfter es := by
  unfold pausedAfter
  rw [List.filter_append]
  by_cases h1 : e = .pause
  · subst h1; simp
  · by_cases h2 : e = .resume
    · subst h2; simp
    · simp [h1, h2]

theorem take_snoc {es : List LogEvent} {e : LogEvent} {i : Nat} (h : i ≤ es.length) :
    (es ++ [e]).take i = es.take i := by
  rw [List.take_append_of_le_length h]

theorem shownAt_lt {es : List LogEvent} {i j : Nat} (hi : i < es.length) (h : shownAt es i = some j) : j < es.length := by
  unfold shownAt at h
  split at h
  · exact List.mem_range.mp (List.mem_of_find?_eq_some h)
  · injection h with h
    omega

theorem find?_same {α : Type} {p q : α → Bool} {l : List α} (h : ∀ x ∈ l, p x = q x) : l.find? p = l.find? q := by
  induction l with
  | nil => rfl
  | cons a l ih => rw [List.find?_cons, List.find?_cons, h a (by simp), ih fun x hx => h x (by simp [hx])]

theorem shownAt_snoc {es : List LogEvent} {e : LogEvent} {i : Nat} (hi : i < es.length) :
    shownAt (es ++ [e]) i = (shownAt es i).or (if e = .resume then some es.length else none) := by
  unfold shownAt
  rw [take_snoc (by omega)]
  by_cases hp : pausedAfter (es.take i) = true
  · rw [if_pos hp, if_pos hp]
    have hl : (es ++ [e]).length = es.length + 1 := by simp
    rw [hl, List.range_succ, List.find?_append]
    congr 1
    · apply find?_same
      intro j hj
      rw [List.getElem?_append_left (List.mem_range.mp hj)]
    · simp [hi]
  · rw [if_neg hp, if_neg hp]
    rfl

theorem shownAt_last (es : List LogEvent) (e : LogEvent) :
    shownAt (es ++ [e]) es.length = if pausedAfter es then none else some es.length := by
  unfold shownAt
  rw [take_snoc (Nat.le_refl _), List.take_length]
  split
  · rw [List.find?_eq_none]
    intro j hj
    have := List.mem_range.mp hj
    simp at this
    simp
    omega
  · rfl

def isMessage : LogEvent → Bool
  | .message _ _ _ => true
  | _ => false

/-- A message that waits keeps all later ones waiting. -/
theorem waits {es : List LogEvent} {i k : Nat} (hik : i < k) (hk : k < es.length) {m : LogEvent}
    (hm : es[i]? = some m) (hmm : isMessage m = true) (h : shownAt es i = none) : shownAt es k = none := by
  unfold shownAt at h ⊢
  have hp : pausedAfter (es.take i) = true := by
    by_contra hc
    rw [if_neg hc] at h
    cases h
  rw [if_pos hp, List.find?_eq_none] at h
  have hno : ∀ j, i < j → es[j]? ≠ some .resume := by
    intro j hj e
    have hj' : j < es.length := (List.getElem?_eq_some_iff.mp e).1
    exact h j (List.mem_range.mpr hj') (by simp [hj, e])
  have hpk : ∀ d, i + d ≤ es.length → pausedAfter (es.take (i + d)) = true := by
    intro d
    induction d with
    | zero => intro _; exact hp
    | succ d ih =>
      intro hd
      have hlt : i + d < es.length := by omega
      rw [show i + (d + 1) = (i + d) + 1 from rfl, List.take_succ_eq_append_getElem hlt, pausedAfter_snoc, ih (by omega)]
      have : es[i + d] ≠ .resume := by
        intro e
        cases d with
        | zero =>
          have := (List.getElem?_eq_some_iff.mp hm).2
          simp only [Nat.add_zero] at e
          rw [e] at this
          rw [← this] at hmm
          cases hmm
        | succ d => exact hno (i + (d + 1)) (by omega) (by rw [List.getElem?_eq_getElem hlt, e])
      rw [if_neg this]
      split <;> rfl
  have : pausedAfter (es.take k) = true := by
    have := hpk (k - i) (by omega)
    rwa [show i + (k - i) = k from by omega] at this
  rw [if_pos this, List.find?_eq_none]
  intro j _ hj
  simp only [Bool.and_eq_true, decide_eq_true_eq] at hj
  exact hno j (by omega) hj.2


/-! ### The state of the logger -/

/-- What matters for showing a message. -/
def stateOf (first : Option Bool) (es : List LogEvent) : Logger :=
  ⟨true, [], if (levelIndex (levelAfter es)).isSome then some (levelAfter es) else none, streamAfter first es⟩

theorem logMessage_same {l l' : Logger} (h1 : l.level = l'.level) (h2 : l.stream = l'.stream) (e : LogEvent) :
    logMessage l e = logMessage l' e := by
  unfold logMessage isVisible
  rw [h1, h2]

/-- The messages among the events. -/
def messageAt (es : List LogEvent) (i : Nat) : Option LogEvent := es[i]?.filter isMessage

/-- What is written for the event number `i`. -/
def writtenFor (first : Option Bool) (es : List LogEvent) (i : Nat) : List Str :=
  match messageAt es i, shownAt es i with
  | some m, some j => logMessage (stateOf first (es.take j)) m
  | _, _ => []

/-- The event, if it is a message that waits. -/
def waiting (es : List LogEvent) (i : Nat) : Option LogEvent :=
  match shownAt es i with
  | none => messageAt es i
  | some _ => none

structure LogInv (first : Option Bool) (es : List LogEvent) (l : Logger) (out : List Str) : Prop where
  paused : l.paused = pausedAfter es
  level : l.level = (stateOf first es).level
  stream : l.stream = (stateOf first es).stream
  buffer : l.buffer = (List.range es.length).filterMap (waiting es)
  empty : l.paused = false → l.buffer = []
  out : out = (List.range es.length).flatMap (writtenFor first es)

theorem flatMap_same {α β : Type} {l : List α} {f g : α → List β} (h : ∀ a ∈ l, f a = g a) : l.flatMap f = l.flatMap g := by
  induction l with
  | nil => rfl
  | cons a l ih => rw [List.flatMap_cons, List.flatMap_cons, h a (by simp), ih fun x hx => h x (by simp [hx])]

theorem filterMap_same {α β : Type} {l : List α} {f g : α → Option β} (h : ∀ a ∈ l, f a = g a) :
    l.filterMap f = l.filterMap g := by
  induction l with
  | nil => rfl
  | cons a l ih => rw [List.filterMap_cons, List.filterMap_cons, h a (by simp), ih fun x hx => h x (by simp [hx])]

theorem filterMap_toList {α β : Type} {l : List α} {f : α → Option β} {γ : Type} (g : β → List γ) :
    (l.filterMap f).flatMap g = l.flatMap fun a => (f a).toList.flatMap g := by
  induction l with
  | nil => rfl
  | cons a l ih =>
    rw [List.filterMap_cons, List.flatMap_cons]
    cases f a with
    | none => simp [ih]
    | some b => simp [ih]

theorem split_pred {α β : Type} {l : List α} {p : α → Bool} {f g : α → List β}
    (h : l.Pairwise fun a b => p a = false → f b = [])
    (hf : ∀ a ∈ l, p a = false → f a = []) (hg : ∀ a ∈ l, p a = true → g a = []) :
    l.flatMap (fun a => if p a then f a else g a) = l.flatMap f ++ l.flatMap g := by
  induction l with
  | nil => rfl
  | cons a l ih =>
    rw [List.pairwise_cons] at h
    rw [List.flatMap_cons, List.flatMap_cons, List.flatMap_cons]
    cases hp : p a with
    | true =>
      rw [if_pos rfl, hg a (by simp) hp, ih h.2 (fun x hx => hf x (by simp [hx])) (fun x hx => hg x (by simp [hx]))]
      simp
    | false =>
      have h0 : l.flatMap f = [] := by
        rw [List.flatMap_eq_nil_iff]
        exact fun x hx => h.1 x hx hp
      rw [if_neg (by simp), hf a (by simp) hp, ih h.2 (fun x hx => hf x (by simp [hx])) (fun x hx => hg x (by simp [hx])), h0]
      simp

section
variable {first : Option Bool} {es : List LogEvent} {l : Logger} {out : List Str}

theorem messageAt_snoc {e : LogEvent} {i : Nat} (hi : i < es.length) : messageAt (es ++ [e]) i = messageAt es i := by
  unfold messageAt
  rw [List.getElem?_append_left hi]

theorem messageAt_last (e : LogEvent) : messageAt (es ++ [e]) es.length = (some e).filter isMessage := by
  unfold messageAt
  simp

theorem writtenFor_old {e : LogEvent} (he : e ≠ .resume) {i : Nat} (hi : i < es.length) :
    writtenFor first (es ++ [e]) i = writtenFor first es i := by
  unfold writtenFor
  rw [messageAt_snoc hi, shownAt_snoc hi, if_neg he, Option.or_none]
  cases hm : messageAt es i with
  | none => rfl
  | some m =>
    cases hj : shownAt es i with
    | none => rfl
    | some j =>
      have := shownAt_lt hi hj
      dsimp only
      rw [take_snoc (by omega)]

theorem waiting_old {e : LogEvent} (he : e ≠ .resume) {i : Nat} (hi : i < es.length) :
    waiting (es ++ [e]) i = waiting es i := by
  unfold waiting
  rw [messageAt_snoc hi, shownAt_snoc hi, if_neg he, Option.or_none]

theorem out_old {e : LogEvent} (he : e ≠ .resume) :
    (List.range (es ++ [e]).length).flatMap (writtenFor first (es ++ [e])) =
      (List.range es.length).flatMap (writtenFor first es) ++ writtenFor first (es ++ [e]) es.length := by
  have hl : (es ++ [e]).length = es.length + 1 := by simp
  rw [hl, List.range_succ, List.flatMap_append]
  congr 1
  · exact flatMap_same fun i hi => writtenFor_old he (List.mem_range.mp hi)
  · simp

theorem buffer_old {e : LogEvent} (he : e ≠ .resume) :
    (List.range (es ++ [e]).length).filterMap (waiting (es ++ [e])) =
      (List.range es.length).filterMap (waiting es) ++ (waiting (es ++ [e]) es.length).toList := by
  have hl : (es ++ [e]).length = es.length + 1 := by simp
  rw [hl, List.range_succ, List.filterMap_append]
  congr 1
  · exact filterMap_same fun i hi => waiting_old he (List.mem_range.mp hi)

theorem out_quiet {e : LogEvent} (hm : isMessage e = false) : writtenFor first (es ++ [e]) es.length = [] := by
  unfold writtenFor
  rw [messageAt_last]
  simp [Option.filter, hm]

theorem buffer_quiet {e : LogEvent} (hm : isMessage e = false) : waiting (es ++ [e]) es.length = none := by
  unfold waiting
  rw [messageAt_last]
  split <;> simp [Option.filter, hm]

/-- An event that is no message and does not resume. -/
theorem inv_quiet (h : LogInv first es l out) {e : LogEvent} (hm : isMessage e = false) (he : e ≠ .resume) {l' : Logger}
    (hp : l'.paused = pausedAfter (es ++ [e])) (hpp : l'.paused = false → l.paused = false) (hb : l'.buffer = l.buffer)
    (h1 : l'.level = (stateOf first (es ++ [e])).level) (h2 : l'.stream = (stateOf first (es ++ [e])).stream) :
    LogInv first (es ++ [e]) l' (out ++ []) := by
  refine ⟨hp, h1, h2, ?_, fun hq => by rw [hb]; exact h.empty (hpp hq), ?_⟩
  · rw [hb, h.buffer, buffer_old he, buffer_quiet hm]
    simp
  · rw [h.out, out_old he, out_quiet hm]

theorem stateOf_same {e : LogEvent} (h1 : ∀ x, e ≠ .setLevel x) (h2 : ∀ x, e ≠ .setStream x) :
    stateOf first (es ++ [e]) = stateOf first es := by
  unfold stateOf levelAfter streamAfter
  rw [List.filterMap_append, List.filterMap_append]
  cases e <;> simp at h1 h2 ⊢

theorem written_resume (h1 : l.level = (stateOf first es).level) (h2 : l.stream = (stateOf first es).stream) {i : Nat}
    (hi : i < es.length) :
    writtenFor first (es ++ [.resume]) i =
      if (waiting es i).isNone then writtenFor first es i else (waiting es i).toList.flatMap (logMessage l) := by
  have hsame := fun m => logMessage_same h1 h2 m
  unfold writtenFor waiting
  rw [messageAt_snoc hi, shownAt_snoc hi, if_pos rfl]
  generalize messageAt es i = m
  cases hj : shownAt es i with
  | none =>
    cases m with
    | none => rfl
    | some m =>
      have ht : (es ++ [LogEvent.resume]).take es.length = es := by rw [take_snoc (Nat.le_refl _), List.take_length]
      simp only [Option.none_or, ht, Option.isNone_some, Bool.false_eq_true, if_false, Option.toList_some,
        List.flatMap_singleton, hsame]
  | some j =>
    have := shownAt_lt hi hj
    have ht : (es ++ [LogEvent.resume]).take j = es.take j := take_snoc (by omega)
    cases m with
    | none => rfl
    | some m =>
      simp only [Option.some_or, ht, Option.isNone_none, if_true]

theorem inv_step (h : LogInv first es l out) (e : LogEvent) :
    LogInv first (es ++ [e]) (onLog l e).1 (out ++ (onLog l e).2) := by
  cases e with
  | pause =>
    exact inv_quiet h rfl (by simp) (by rw [pausedAfter_snoc]; rfl) (by simp [onLog]) rfl
      (by rw [stateOf_same (by simp) (by simp)]; exact h.level) (by rw [stateOf_same (by simp) (by simp)]; exact h.stream)
  | setLevel x =>
    refine inv_quiet h rfl (by simp) (by rw [pausedAfter_snoc]; exact h.paused) id rfl ?_ ?_
    · simp [onLog, setLogLevel, stateOf, levelAfter]
    · simp only [onLog, setLogLevel]
      rw [h.stream]
      simp [stateOf, streamAfter]
  | setStream x =>
    refine inv_quiet h rfl (by simp) (by rw [pausedAfter_snoc]; exact h.paused) id rfl ?_ ?_
    · simp only [onLog]
      rw [h.level]
      simp [stateOf, levelAfter]
    · simp [onLog, stateOf, streamAfter]
  | message a b c =>
    have hs := stateOf_same (first := first) (es := es) (e := .message a b c) (by simp) (by simp)
    have hpa : pausedAfter (es ++ [.message a b c]) = pausedAfter es := by rw [pausedAfter_snoc]; simp
    cases hp : l.paused with
    | true =>
      have e1 : onLog l (.message a b c) = ({ l with buffer := l.buffer ++ [.message a b c] }, []) := by
        simp [onLog, hp]
      rw [e1]
      have hp' : pausedAfter es = true := by rw [← h.paused, hp]
      refine ⟨by rw [hpa]; exact h.paused, by rw [hs]; exact h.level, by rw [hs]; exact h.stream, ?_, by simp [hp], ?_⟩
      · rw [buffer_old (by simp), ← h.buffer]
        unfold waiting
        rw [shownAt_last, if_pos hp', messageAt_last]
        rfl
      · rw [out_old (by simp), ← h.out]
        unfold writtenFor
        rw [shownAt_last, if_pos hp']
        simp
    | false =>
      have e1 : onLog l (.message a b c) = (l, logMessage l (.message a b c)) := by simp [onLog, hp]
      rw [e1]
      have hp' : pausedAfter es = false := by rw [← h.paused, hp]
      refine ⟨by rw [hpa]; exact h.paused, by rw [hs]; exact h.level, by rw [hs]; exact h.stream, ?_, h.empty, ?_⟩
      · rw [buffer_old (by simp), ← h.buffer]
        unfold waiting
        rw [shownAt_last, if_neg (by simp [hp'])]
        simp
      · rw [out_old (by simp), ← h.out]
        unfold writtenFor
        rw [shownAt_last, if_neg (by simp [hp']), messageAt_last]
        show _ = out ++ logMessage (stateOf first ((es ++ [LogEvent.message a b c]).take es.length)) (.message a b c)
        rw [take_snoc (Nat.le_refl _), List.take_length, ← logMessage_same h.level h.stream]
  | resume =>
    have hs := stateOf_same (first := first) (es := es) (e := .resume) (by simp) (by simp)
    have hl : (es ++ [LogEvent.resume]).length = es.length + 1 := by simp
    refine ⟨by rw [pausedAfter_snoc]; rfl, by rw [hs]; exact h.level, by rw [hs]; exact h.stream, ?_, fun _ => rfl, ?_⟩
    · rw [hl, List.range_succ, List.filterMap_append]
      symm
      show _ = []
      rw [List.append_eq_nil_iff, List.filterMap_eq_nil_iff, List.filterMap_eq_nil_iff]
      refine ⟨fun i hi => ?_, fun i hi => ?_⟩
      · unfold waiting
        rw [shownAt_snoc (List.mem_range.mp hi), if_pos rfl]
        cases shownAt es i <;> rfl
      · simp only [List.mem_singleton] at hi
        subst hi
        exact buffer_quiet rfl
    · rw [hl, List.range_succ, List.flatMap_append, List.flatMap_singleton, out_quiet rfl, List.append_nil, h.out]
      show _ ++ l.buffer.flatMap (logMessage l) = _
      have hnew : ∀ i ∈ List.range es.length, writtenFor first (es ++ [.resume]) i =
          if (waiting es i).isNone then writtenFor first es i
          else (waiting es i).toList.flatMap (logMessage l) :=
        fun i hi => written_resume h.level h.stream (List.mem_range.mp hi)
      rw [flatMap_same hnew, split_pred, h.buffer, filterMap_toList]
      · refine List.Pairwise.imp_of_mem ?_ List.pairwise_lt_range
        intro i k hi hk hik hw
        have hi := List.mem_range.mp hi
        have hk := List.mem_range.mp hk
        unfold waiting at hw
        cases hj : shownAt es i with
        | some j => simp [hj] at hw
        | none =>
          rw [hj] at hw
          simp only [Option.isNone_eq_false_iff, Option.isSome_iff_exists] at hw
          obtain ⟨m, hm⟩ := hw
          unfold messageAt at hm
          rw [Option.filter_eq_some_iff] at hm
          unfold writtenFor
          rw [waits hik hk hm.1 hm.2 hj]
          cases messageAt es k <;> rfl
      · intro i _ hw
        unfold waiting at hw
        unfold writtenFor
        cases hj : shownAt es i with
        | some j => simp [hj] at hw
        | none => cases messageAt es i <;> rfl
      · intro i _ hw
        rw [Option.isNone_iff_eq_none.mp hw]
        rfl

theorem inv_from (es2 : List LogEvent) : ∀ {es : List LogEvent} {l : Logger} {out : List Str}, LogInv first es l out →
    LogInv first (es ++ es2) (runLog l es2).1 (out ++ (runLog l es2).2) := by
  induction es2 with
  | nil => intro es l out h; simpa [runLog] using h
  | cons e es2 ih =>
    intro es l out h
    have := ih (inv_step h e)
    simpa [runLog] using this

theorem inv_run (first : Option Bool) (es : List LogEvent) :
    LogInv first es (runLog (newLogger first) es).1 (runLog (newLogger first) es).2 := by
  have h0 : LogInv first [] (newLogger first) [] := ⟨rfl, rfl, rfl, rfl, fun _ => rfl, rfl⟩
  have := inv_from es h0
  simpa using this

end


/-! ### Levels -/

theorem levelIndex_iff (x : Str) (i : Nat) : levelIndex x = some i ↔ (levelTags.map Prod.fst)[i]? = some x := by
  have e : levelIndex x = (levelTags.map Prod.fst).findIdx? (· = x) := rfl
  have hnd : (levelTags.map Prod.fst).Nodup := by decide
  rw [e]
  constructor
  · intro h
    rw [List.findIdx?_eq_some_iff_getElem] at h
    obtain ⟨h1, h2, -⟩ := h
    rw [List.getElem?_eq_getElem h1, of_decide_eq_true h2]
  · intro h
    obtain ⟨h1, h2⟩ := List.getElem?_eq_some_iff.mp h
    cases hk : (levelTags.map Prod.fst).findIdx? (· = x) with
    | none =>
      rw [List.findIdx?_eq_none_iff] at hk
      have := hk x (h2 ▸ List.getElem_mem h1)
      simp at this
    | some k =>
      rw [List.findIdx?_eq_some_iff_getElem] at hk
      obtain ⟨h3, h4, -⟩ := hk
      have h5 : (levelTags.map Prod.fst)[k] = (levelTags.map Prod.fst)[i] := by rw [of_decide_eq_true h4, h2]
      have hp := List.pairwise_iff_getElem.mp hnd
      rcases Nat.lt_trichotomy k i with hlt | rfl | hlt
      · exact absurd h5 (hp k i h3 h1 hlt)
      · rfl
      · exact absurd h5.symm (hp i k h1 h3 hlt)

theorem visible_iff (first : Option Bool) (es : List LogEvent) (level : Str) :
    isVisible (stateOf first es) level = true ↔ showsLevel (levelAfter es) level := by
  unfold isVisible stateOf showsLevel
  simp only
  generalize levelAfter es = cur
  cases h1 : levelIndex cur with
  | none =>
    simp only [Option.isSome_none, Bool.false_eq_true, if_false, Option.bind_none]
    constructor
    · intro h; cases h
    · rintro ⟨i, j, hi, -, -⟩
      rw [← levelIndex_iff, h1] at hi
      cases hi
  | some a =>
    simp only [Option.isSome_some, if_true, Option.bind_some, h1]
    cases h2 : levelIndex level with
    | none =>
      constructor
      · intro h; cases h
      · rintro ⟨i, j, -, hj, -⟩
        rw [← levelIndex_iff, h2] at hj
        cases hj
    | some b =>
      simp only [decide_eq_true_eq]
      constructor
      · intro h
        exact ⟨a, b, (levelIndex_iff _ _).mp h1, (levelIndex_iff _ _).mp h2, h⟩
      · rintro ⟨i, j, hi, hj, hij⟩
        rw [← levelIndex_iff] at hi hj
        rw [h1] at hi
        rw [h2] at hj
        injection hi with hi
        injection hj with hj
        omega

theorem visible_known {l : Logger} {level : Str} (h : isVisible l level = true) :
    ∃ lv, logLevels.find? (·.id = level) = some lv := by
  unfold isVisible at h
  cases hb : levelIndex level with
  | none => rw [hb] at h; revert h; cases l.level.bind levelIndex <;> simp
  | some b =>
    cases hf : logLevels.find? (·.id = level) with
    | some lv => exact ⟨lv, rfl⟩
    | none =>
      rw [List.find?_eq_none] at hf
      unfold levelIndex at hb
      rw [List.findIdx?_eq_some_iff_getElem] at hb
      obtain ⟨h1, h2, -⟩ := hb
      exact absurd h2 (hf _ (List.getElem_mem h1))

theorem find_tag {level : Str} {lv : LogLevel} (h : logLevels.find? (·.id = level) = some lv) :
    (level, lv.display.getD lv.id) ∈ levelTags := by
  have h1 : lv.id = level := by simpa using List.find?_some h
  have h2 := List.mem_of_find?_eq_some h
  subst h1
  unfold logLevels at h2
  simp only [List.mem_cons, List.not_mem_nil, or_false] at h2
  rcases h2 with rfl | rfl | rfl | rfl | rfl | rfl | rfl <;> decide

/-! ### Text -/

theorem dropWhile_space (s : Str) : ∃ a, s = a ++ s.dropWhile jsSpace ∧ ∀ c ∈ a, jsSpace c = true :=
  ⟨s.takeWhile jsSpace, (List.takeWhile_append_dropWhile).symm, List.all_eq_true.mp List.all_takeWhile⟩

theorem trim_trimmed (s : Str) : Trimmed s (jsTrim s) := by
  obtain ⟨a, h1, h2⟩ := dropWhile_space s
  obtain ⟨b, h3, h4⟩ := dropWhile_space (s.dropWhile jsSpace).reverse
  have h5 : s.dropWhile jsSpace = jsTrim s ++ b.reverse := by
    have := congrArg List.reverse h3
    rw [List.reverse_reverse, List.reverse_append] at this
    exact this
  refine ⟨⟨a, b.reverse, ?_, ?_⟩, ?_, ?_⟩
  · rw [List.append_assoc, ← h5]
    exact h1
  · intro c hc
    rcases List.mem_append.mp hc with hc | hc
    · exact h2 c hc
    · exact h4 c (List.mem_reverse.mp hc)
  · intro c hc
    have hd : (s.dropWhile jsSpace).head? = some c := by
      rw [h5, List.head?_append, hc]
      rfl
    have := List.head?_dropWhile_not jsSpace s
    rw [hd] at this
    simpa using this
  · intro c hc
    unfold jsTrim at hc
    rw [List.getLast?_reverse] at hc
    have := List.head?_dropWhile_not jsSpace (s.dropWhile jsSpace).reverse
    rw [hc] at this
    simpa using this

theorem trimmed_return {r t : Str} (h : Trimmed r t) : Trimmed (r ++ ['\r']) t := by
  obtain ⟨⟨a, b, h1, h2⟩, h3⟩ := h
  refine ⟨⟨a, b ++ ['\r'], by simp [h1], ?_⟩, h3⟩
  intro c hc
  rw [← List.append_assoc] at hc
  rcases List.mem_append.mp hc with hc | hc
  · exact h2 c hc
  · simp at hc
    subst hc
    decide

theorem trim_id {s : Str} (h1 : ∀ c, s.head? = some c → jsSpace c = false) (h2 : ∀ c, s.getLast? = some c → jsSpace c = false) :
    jsTrim s = s := by
  have hd : ∀ t : Str, (∀ c, t.head? = some c → jsSpace c = false) → t.dropWhile jsSpace = t := by
    intro t ht
    cases t with
    | nil => rfl
    | cons c t => rw [List.dropWhile_cons, if_neg (by simp [ht c rfl])]
  unfold jsTrim
  rw [hd s h1, hd s.reverse (fun c hc => h2 c (by rwa [List.head?_reverse] at hc)), List.reverse_reverse]

theorem splitOn_ne (c : Char) (s : Str) : splitOn c s ≠ [] := by
  cases s with
  | nil => simp [splitOn]
  | cons d s =>
    unfold splitOn
    split
    · simp
    · split <;> simp

theorem splitReturns_ne (s : Str) : splitReturns s ≠ [] := by
  unfold splitReturns
  split
  · simp
  · simp
  · simp
  · split <;> simp

theorem splitReturns_lines (s : Str) :
    List.Forall₂ (fun l r => l = r ∨ l = r ++ ['\r']) (splitOn '\n' s) (splitReturns s) := by
  induction s using splitReturns.induct with
  | case1 => exact .cons (.inl rfl) .nil
  | case2 s ih =>
    have : splitOn '\n' ('\r' :: '\n' :: s) = ['\r'] :: splitOn '\n' s := by simp [splitOn]
    rw [this, splitReturns]
    exact .cons (.inr rfl) ih
  | case3 s ih =>
    have : splitOn '\n' ('\n' :: s) = [] :: splitOn '\n' s := by simp [splitOn]
    rw [this, splitReturns]
    exact .cons (.inl rfl) ih
  | case4 c s h1 h2 h3 ih =>
    exact absurd h3 (splitReturns_ne s)
  | case5 c s h1 h2 l ls h3 ih =>
    have hc : c ≠ '\n' := fun e => h2 e
    have e1 : splitReturns (c :: s) = (c :: l) :: ls := by
      rw [splitReturns]
      · rw [h3]
      · exact h1
      · exact h2
    rw [h3] at ih
    rw [e1]
    cases hs : splitOn '\n' s with
    | nil => exact absurd hs (splitOn_ne _ _)
    | cons w ws =>
      have e2 : splitOn '\n' (c :: s) = (c :: w) :: ws := by simp [splitOn, hc, hs]
      rw [hs] at ih
      rw [e2]
      cases ih with
      | cons hw hws =>
        refine .cons ?_ hws
        rcases hw with rfl | rfl
        · exact .inl rfl
        · exact .inr rfl

theorem forall₂_mapped {α β γ : Type} {R : α → β → Prop} {S : α → γ → Prop} {f : β → γ} (hf : ∀ a b, R a b → S a (f b))
    {l : List α} {l' : List β} (h : List.Forall₂ R l l') : List.Forall₂ S l (l'.map f) := by
  induction h with
  | nil => exact .nil
  | cons h1 _ ih => exact .cons (hf _ _ h1) ih

theorem trimmed_lines (text : Str) : List.Forall₂ Trimmed (textLines text) ((splitReturns text).map jsTrim) := by
  refine forall₂_mapped (R := fun l r => l = r ∨ l = r ++ ['\r']) ?_ (splitReturns_lines text)
  rintro a b (rfl | rfl)
  · exact trim_trimmed _
  · exact trimmed_return (trim_trimmed _)

theorem tag_last {level tag : Str} (h : (level, tag) ∈ levelTags) :
    tag ≠ [] ∧ ∀ c, tag.getLast? = some c → jsSpace c = false := by
  unfold levelTags at h
  simp only [List.mem_cons, List.not_mem_nil, or_false, Prod.mk.injEq] at h
  rcases h with h | h | h | h | h | h | h <;> (obtain ⟨-, rfl⟩ := h; exact ⟨by decide, by rintro c ⟨⟩; decide⟩)

theorem plain_prefix {lv : LogLevel} {p : Str} (ht : (lv.id, lv.display.getD lv.id) ∈ levelTags)
    (hp : ∀ c, p.getLast? = some c → jsSpace c = false) :
    logPrefix false lv p = c!"gyp " ++ lv.display.getD lv.id ++ (if p = [] then [] else c!" " ++ p) ++ c!" " := by
  unfold logPrefix
  simp only [logColor, Bool.false_eq_true, if_false]
  obtain ⟨h1, h2⟩ := tag_last ht
  generalize lv.display.getD lv.id = tag at *
  have hid : jsTrim (c!"gyp " ++ tag ++ (if p = [] then [] else c!" " ++ p)) =
      c!"gyp " ++ tag ++ (if p = [] then [] else c!" " ++ p) := by
    apply trim_id
    · rintro c ⟨⟩
      decide
    · intro c hc
      by_cases hpn : p = []
      · rw [if_pos hpn, List.append_nil, List.getLast?_append] at hc
        obtain ⟨d, hd⟩ : ∃ d, tag.getLast? = some d := ⟨_, List.getLast?_eq_some_getLast h1⟩
        rw [hd] at hc
        exact h2 c (by rw [hd]; exact hc)
      · rw [if_neg hpn, List.getLast?_append, List.getLast?_append (l' := p)] at hc
        obtain ⟨d, hd⟩ : ∃ d, p.getLast? = some d := ⟨_, List.getLast?_eq_some_getLast hpn⟩
        rw [hd] at hc
        exact hp c (by rw [hd]; exact hc)
  by_cases hpn : p = []
  · rw [if_pos hpn] at hid ⊢
    simp only [joinWith, List.append_nil, List.cons_append, List.nil_append] at hid ⊢
    rw [hid]
    simp [hpn]
  · rw [if_neg hpn] at hid ⊢
    simp only [joinWith, List.append_nil, List.cons_append, List.nil_append, List.append_assoc] at hid ⊢
    rw [hid]
    simp [hpn]

theorem joinWith_lines {ls : List Str} (h : ls ≠ []) : joinWith ['\n'] ls ++ ['\n'] = ls.flatMap fun l => l ++ ['\n'] := by
  induction ls with
  | nil => cases h rfl
  | cons l ls ih =>
    cases ls with
    | nil => simp [joinWith]
    | cons m ls =>
      rw [List.flatMap_cons, ← ih (by simp)]
      simp [joinWith]

theorem plain_text {lv : LogLevel} {p text : Str} (ht : (lv.id, lv.display.getD lv.id) ∈ levelTags)
    (hp : ∀ c, p.getLast? = some c → jsSpace c = false) :
    ShownAs lv.id p text (logText false lv p text) := by
  refine ⟨_, ht, _, trimmed_lines text, ?_⟩
  unfold logText
  rw [joinWith_lines (by simpa using splitReturns_ne text), plain_prefix ht hp]
  simp [List.flatMap_map]

/-! ### Colours -/

theorem plain_append {s : Str} (h : '\x1b' ∉ s) (t : Str) : plainText false (s ++ t) = s ++ plainText false t := by
  induction s with
  | nil => rfl
  | cons c s ih =>
    rw [List.cons_append, plainText, if_neg, ih fun hc => h (by simp [hc])]
    · rfl
    · rintro rfl
      simp at h

theorem plain_code {s : Str} (h : 'm' ∉ s) (t : Str) : plainText true (s ++ 'm' :: t) = plainText false t := by
  induction s with
  | nil => simp [plainText]
  | cons c s ih =>
    have hc : c ≠ 'm' := by rintro rfl; simp at h
    rw [List.cons_append, plainText]
    simp [hc]
    exact ih fun hm => h (by simp [hm])

theorem plain_wrap {s : Str} {codes : List (Option Nat)} (h : '\x1b' ∉ s)
    (hc : 'm' ∉ joinWith c!";" ((codes.filterMap id).map natStr)) (t : Str) :
    plainText false (wrapColors s codes ++ t) = s ++ plainText false t := by
  unfold wrapColors
  have e : c!"\x1b[" ++ joinWith c!";" ((codes.filterMap id).map natStr) ++ c!"m" ++ s ++ c!"\x1b[0m" ++ t =
      '\x1b' :: (('[' :: joinWith c!";" ((codes.filterMap id).map natStr)) ++ 'm' :: (s ++ ('\x1b' :: (c!"[0" ++ 'm' :: t)))) := by
    simp
  rw [e, plainText, if_pos rfl, plain_code (by simpa using hc), plain_append h, plainText, if_pos rfl, plain_code (by decide)]

theorem wrap_last (s : Str) (codes : List (Option Nat)) : (wrapColors s codes).getLast? = some 'm' := by
  unfold wrapColors
  rw [List.getLast?_append]
  rfl

theorem level_codes {lv : LogLevel} (h : lv ∈ logLevels) :
    'm' ∉ joinWith c!";" (([lv.style.fg, lv.style.bg, lv.style.inverse].filterMap id).map natStr) ∧
      '\x1b' ∉ lv.display.getD lv.id := by
  unfold logLevels at h
  simp only [List.mem_cons, List.not_mem_nil, or_false] at h
  rcases h with rfl | rfl | rfl | rfl | rfl | rfl | rfl <;> exact ⟨by decide +kernel, by decide⟩

theorem color_prefix {lv : LogLevel} {p : Str} (hlv : lv ∈ logLevels) (he : '\x1b' ∉ p)
    (ht : (lv.id, lv.display.getD lv.id) ∈ levelTags) (hp : ∀ c, p.getLast? = some c → jsSpace c = false) (t : Str) :
    plainText false (logPrefix true lv p ++ t) = logPrefix false lv p ++ plainText false t := by
  obtain ⟨h1, h2⟩ := level_codes hlv
  rw [plain_prefix ht hp]
  unfold logPrefix
  simp only [logColor, if_true]
  generalize lv.display.getD lv.id = tag at *
  have c1 : 'm' ∉ joinWith c!";" (([some 37, some 40, none].filterMap id).map natStr) := by decide +kernel
  have c2 : 'm' ∉ joinWith c!";" (([some 35, none, none].filterMap id).map natStr) := by decide +kernel
  have hh : ∀ (s : Str) codes (r : Str) c, (wrapColors s codes ++ r).head? = some c → jsSpace c = false := by
    rintro s codes r c ⟨⟩
    decide
  have hm : jsSpace 'm' = false := by decide
  by_cases hpn : p = []
  · rw [if_pos hpn, if_pos hpn]
    simp only [List.append_nil, joinWith]
    rw [trim_id]
    · simp only [List.append_assoc]
      rw [plain_wrap (by decide) c1, List.singleton_append, plainText, if_neg (by decide), plain_wrap h2 h1,
        List.singleton_append, plainText, if_neg (by decide)]
      simp
    · intro c hc
      rw [List.append_assoc] at hc
      exact hh _ _ _ c hc
    · intro c hc
      rw [List.getLast?_append, wrap_last] at hc
      injection hc with hc
      exact hc ▸ hm
  · rw [if_neg hpn, if_neg hpn]
    simp only [List.cons_append, List.nil_append, joinWith]
    rw [trim_id]
    · simp only [List.append_assoc]
      rw [plain_wrap (by decide) c1, List.singleton_append, plainText, if_neg (by decide), plain_wrap h2 h1,
        List.singleton_append, plainText, if_neg (by decide), plain_wrap he c2, List.singleton_append, plainText,
        if_neg (by decide)]
      simp
    · intro c hc
      rw [List.append_assoc] at hc
      exact hh _ _ _ c hc
    · intro c hc
      rw [List.getLast?_append, List.getLast?_append, wrap_last] at hc
      injection hc with hc
      exact hc ▸ hm

theorem splitReturns_mem {s l : Str} (hl : l ∈ splitReturns s) {c : Char} (hc : c ∈ l) : c ∈ s := by
  induction s using splitReturns.induct generalizing l with
  | case1 => simp [splitReturns] at hl; subst hl; cases hc
  | case2 s ih =>
    rw [splitReturns] at hl
    rcases List.mem_cons.mp hl with rfl | hl
    · cases hc
    · simp [ih hl hc]
  | case3 s ih =>
    rw [splitReturns] at hl
    rcases List.mem_cons.mp hl with rfl | hl
    · cases hc
    · simp [ih hl hc]
  | case4 c s h1 h2 h3 ih =>
    exact absurd h3 (splitReturns_ne s)
  | case5 d s h1 h2 l' ls h3 ih =>
    have e1 : splitReturns (d :: s) = (d :: l') :: ls := by
      rw [splitReturns]
      · rw [h3]
      · exact h1
      · exact h2
    rw [e1] at hl
    rcases List.mem_cons.mp hl with rfl | hl
    · rcases List.mem_cons.mp hc with rfl | hc
      · simp
      · simp [ih (by rw [h3]; simp) hc]
    · simp [ih (by rw [h3]; simp [hl]) hc]

theorem trim_mem {s : Str} {c : Char} (h : c ∈ jsTrim s) : c ∈ s := by
  obtain ⟨⟨a, b, e, -⟩, -⟩ := trim_trimmed s
  rw [e]
  simp [h]

theorem color_text {lv : LogLevel} {p text : Str} (hlv : lv ∈ logLevels) (he : '\x1b' ∉ p) (hx : '\x1b' ∉ text)
    (ht : (lv.id, lv.display.getD lv.id) ∈ levelTags) (hp : ∀ c, p.getLast? = some c → jsSpace c = false) :
    plainText false (logText true lv p text) = logText false lv p text := by
  unfold logText
  rw [joinWith_lines (by simpa using splitReturns_ne text), joinWith_lines (by simpa using splitReturns_ne text),
    List.flatMap_map, List.flatMap_map]
  have hls : ∀ l ∈ splitReturns text, '\x1b' ∉ jsTrim l := fun l hl hc => hx (splitReturns_mem hl (trim_mem hc))
  generalize splitReturns text = ls at hls
  induction ls with
  | nil => rfl
  | cons l ls ih =>
    rw [List.flatMap_cons, List.flatMap_cons, List.append_assoc, List.append_assoc, color_prefix hlv he ht hp,
      plain_append (hls l (by simp)), plain_append (by decide), ih fun x hxm => hls x (by simp [hxm])]
    simp

theorem plain_noEsc (b : Bool) (s : Str) : '\x1b' ∉ plainText b s := by
  induction s generalizing b with
  | nil => cases b <;> simp [plainText]
  | cons c s ih =>
    cases b with
    | true => rw [plainText]; exact ih _
    | false =>
      rw [plainText]
      split
      · exact ih _
      · rename_i h
        simp only [List.mem_cons, not_or]
        exact ⟨fun e => h e.symm, ih _⟩

theorem plain_again (s : Str) : plainText false (plainText false s) = plainText false s := by
  have := plain_append (plain_noEsc false s) []
  simpa [plainText] using this

/-! ### What is shown -/

theorem forall₂_written {α β : Type} {R : α → β → Prop} {P : α → Prop} [DecidablePred P] {f : α → List β} {l : List α}
    (h1 : ∀ a ∈ l, P a → ∃ b, f a = [b] ∧ R a b) (h2 : ∀ a ∈ l, ¬ P a → f a = []) :
    List.Forall₂ R (l.filter fun a => decide (P a)) (l.flatMap f) := by
  induction l with
  | nil => exact .nil
  | cons a l ih =>
    have ih := ih (fun x hx => h1 x (by simp [hx])) (fun x hx => h2 x (by simp [hx]))
    rw [List.flatMap_cons]
    by_cases hp : P a
    · obtain ⟨b, e, hr⟩ := h1 a (by simp) hp
      rw [List.filter_cons_of_pos (by simpa using hp), e]
      exact .cons hr ih
    · rw [List.filter_cons_of_neg (by simpa using hp), h2 a (by simp) hp]
      exact ih

theorem written_shown {first : Option Bool} {es : List LogEvent} {i : Nat} (h : GetsShown first es i) :
    ∃ level p text lv tty, es[i]? = some (.message level p text) ∧ logLevels.find? (·.id = level) = some lv ∧
      (∃ k ≤ es.length, streamAfter first (es.take k) = some tty) ∧
      writtenFor first es i = [logText tty lv p text] := by
  obtain ⟨level, p, text, j, h1, h2, h3, h4⟩ := h
  obtain ⟨tty, h5⟩ := Option.ne_none_iff_exists'.mp h4
  rw [← visible_iff first] at h3
  obtain ⟨lv, hlv⟩ := visible_known h3
  have hi : i < es.length := (List.getElem?_eq_some_iff.mp h1).1
  refine ⟨level, p, text, lv, tty, h1, hlv, ⟨j, Nat.le_of_lt (shownAt_lt hi h2), h5⟩, ?_⟩
  unfold writtenFor messageAt
  rw [h1, h2]
  show logMessage (stateOf first (es.take j)) (.message level p text) = _
  simp only [logMessage]
  rw [if_pos h3, hlv]
  have : (stateOf first (es.take j)).stream = some tty := h5
  rw [this]

theorem written_hidden {first : Option Bool} {es : List LogEvent} {i : Nat} (h : ¬ GetsShown first es i) :
    writtenFor first es i = [] := by
  unfold writtenFor messageAt
  cases h1 : es[i]? with
  | none => rfl
  | some e =>
    cases e with
    | message level p text =>
      cases h2 : shownAt es i with
      | none => rfl
      | some j =>
        show logMessage (stateOf first (es.take j)) (.message level p text) = _
        simp only [logMessage]
        by_cases h3 : isVisible (stateOf first (es.take j)) level = true
        · rw [if_pos h3]
          have : (stateOf first (es.take j)).stream = none := by
            by_contra hc
            exact h ⟨level, p, text, j, h1, h2, (visible_iff _ _ _).mp h3, hc⟩
          rw [this]
        · rw [if_neg h3]
    | _ => rfl

section
variable {first : Option Bool} {es : List LogEvent}

open Classical in
/-- C77: whatever happens to the logger, exactly the messages that are due and not hidden by the
level in force at that time are written, each once and in the order in which they came, every line
with the word `gyp`, the level and the prefix before it (streams that are not terminals). -/
theorem C77_messages (hs : first ≠ some true) (hes : ∀ s, .setStream s ∈ es → s ≠ some true)
    (hp : ∀ level p text, .message level p text ∈ es → ∀ c, p.getLast? = some c → jsSpace c = false) :
    List.Forall₂ (fun i shown => ∃ level p text, es[i]? = some (.message level p text) ∧ ShownAs level p text shown)
      ((List.range es.length).filter fun i => GetsShown first es i) (runLog (newLogger first) es).2 := by
  rw [(inv_run first es).out]
  apply forall₂_written
  · intro i _ h
    obtain ⟨level, p, text, lv, tty, h1, h2, ⟨k, -, h3⟩, h4⟩ := written_shown h
    have htty : tty = false := by
      have : streamAfter first (es.take k) ≠ some true := by
        unfold streamAfter
        rw [List.getLastD_eq_getLast?]
        cases hg : ((es.take k).filterMap fun | .setStream s => some s | _ => none).getLast? with
        | none => exact hs
        | some s =>
          have := List.mem_of_getLast? hg
          rw [List.mem_filterMap] at this
          obtain ⟨e, he, hes'⟩ := this
          cases e <;> simp at hes'
          subst hes'
          exact hes _ (List.mem_of_mem_take he)
      rw [h3] at this
      cases tty
      · rfl
      · exact absurd rfl this
    subst htty
    refine ⟨_, h4, level, p, text, h1, ?_⟩
    have ht := find_tag h2
    have hid : lv.id = level := by simpa using List.find?_some h2
    rw [← hid] at ht ⊢
    exact plain_text ht (hp level p text (List.mem_of_getElem? h1))
  · exact fun i _ h => written_hidden h

open Classical in
/-- C77: on a terminal the same is written, with colours. -/
theorem C77_colors
    (hp : ∀ level p text, .message level p text ∈ es → ∀ c, p.getLast? = some c → jsSpace c = false)
    (he : ∀ level p text, .message level p text ∈ es → '\x1b' ∉ p ∧ '\x1b' ∉ text) :
    List.Forall₂ (fun i shown => ∃ level p text, es[i]? = some (.message level p text) ∧ ShownAs level p text shown)
      ((List.range es.length).filter fun i => GetsShown first es i)
      ((runLog (newLogger first) es).2.map (plainText false)) := by
  rw [(inv_run first es).out, List.map_flatMap]
  apply forall₂_written
  · intro i _ h
    obtain ⟨level, p, text, lv, tty, h1, h2, -, h4⟩ := written_shown h
    have hm := List.mem_of_getElem? h1
    have ht := find_tag h2
    have hid : lv.id = level := by simpa using List.find?_some h2
    rw [← hid] at ht
    have hpl := plain_text (text := text) ht (hp level p text hm)
    have hc := color_text (List.mem_of_find?_eq_some h2) (he level p text hm).1 (he level p text hm).2 ht (hp level p text hm)
    refine ⟨logText false lv p text, ?_, level, p, text, h1, hid ▸ hpl⟩
    rw [h4]
    cases tty with
    | true => simp [hc]
    | false =>
      rw [List.map_singleton, ← hc, plain_again]
  · intro i _ h
    rw [written_hidden h]
    rfl

end

/-! ### Examples -/

/-- Messages before the level is known wait for it. -/
example : (runLog (newLogger (some false))
    [.message c!"verbose" c!"cli" c!"a\r\n b ", .message c!"info" [] c!"c", .setLevel c!"verbose", .resume,
     .message c!"silly" [] c!"d", .message c!"error" c!"x" c!"e"]).2 =
    [c!"gyp verb cli a\ngyp verb cli b\n", c!"gyp info c\n", c!"gyp ERR! x e\n"] := by decide +kernel

example : GetsShown (some false)
    [.message c!"verbose" c!"cli" c!"a", .message c!"info" [] c!"c", .setLevel c!"verbose", .resume] 0 :=
  ⟨c!"verbose", c!"cli", c!"a", 3, rfl, by decide, ⟨1, 1, rfl, rfl, by decide⟩, by decide⟩

/-- A level that does not exist hides everything. -/
example : (runLog (newLogger (some true)) [.setLevel c!"loud", .resume, .message c!"error" c!"x" c!"e"]).2 = [] := by
  decide +kernel

end Gyp
