import Verif.Proofs.MsvsEscape
/-
Proofs about lists of definitions in Visual Studio 2008 projects (C78).
-/
namespace Gyp
open Spec

/-- The loop over segments as one pass: `q` says that the text is quoted for Visual
Studio. -/
def vcScan : Bool → Bool → Nat → Str → Str
  | q, run, n, [] => if q then [] else delimSub run n []
  | q, run, n, c :: cs =>
    if c = '"' then (if q then [] else delimSub run n []) ++ '"' :: vcScan (!q) false 0 cs
    else if q then c :: vcScan true false 0 cs
    else if isDelim c then
      if run then c :: vcScan false true 0 cs
      else List.replicate (2 * n) '\\' ++ '"' :: c :: vcScan false true 0 cs
    else
      (if run then ['"'] else []) ++
        if c = '\\' then vcScan false false ((if run then 0 else n) + 1) cs
        else List.replicate (if run then 0 else n) '\\' ++ c :: vcScan false false 0 cs

theorem joinWith_front (sep x a : Str) (rest : List Str) :
    joinWith sep ((x ++ a) :: rest) = x ++ joinWith sep (a :: rest) := by
  cases rest <;> simp [joinWith]

theorem splitOn_cons_ne (c : Char) (s : Str) : ∃ w ws, splitOn c s = w :: ws := by
  induction s with
  | nil => exact ⟨_, _, rfl⟩
  | cons x xs ih =>
    obtain ⟨w, ws, h⟩ := ih
    rw [splitOn]
    split
    · exact ⟨_, _, rfl⟩
    · rw [h]; exact ⟨_, _, rfl⟩

theorem scan_split (s : Str) (q run : Bool) (n : Nat) (w : Str) (ws : List Str)
    (h : splitOn '"' s = w :: ws) :
    joinWith ['"'] ((if q then w else delimSub run n w) :: subEven q ws) = vcScan q run n s := by
  induction s generalizing q run n w ws with
  | nil =>
    rw [splitOn] at h
    cases h
    cases q <;> simp [subEven, joinWith, vcScan]
  | cons c cs ih =>
    obtain ⟨w', ws', h'⟩ := splitOn_cons_ne '"' cs
    rw [splitOn] at h
    by_cases hc : c = '"'
    · subst hc
      rw [if_pos rfl] at h
      cases h
      have := ih (!q) false 0 w' ws' h'
      rw [vcScan, if_pos rfl, ← this, h']
      have hj : ∀ (a : Str) (l : List Str), joinWith ['"'] (a :: subEven q (w' :: l)) =
          a ++ '"' :: joinWith ['"'] ((if q then delimSub false 0 w' else w') ::
            subEven (!q) l) := by
        intro a l; simp [subEven, joinWith]
      rw [hj]
      cases q <;> simp
    · rw [if_neg hc, h'] at h
      cases h
      rw [vcScan, if_neg hc]
      cases q with
      | true =>
        have := ih true false 0 w' ws h'
        simp only [if_true] at this ⊢
        rw [← this, show c :: w' = [c] ++ w' from rfl, joinWith_front]
        rfl
      | false =>
        simp only [Bool.false_eq_true, if_false]
        rw [delimSub]
        by_cases hd : isDelim c = true
        · rw [if_pos hd, if_pos hd]
          have := ih false true 0 w' ws h'
          simp only [Bool.false_eq_true, if_false] at this
          cases run with
          | true =>
            simp only [if_true]
            rw [← this, show c :: delimSub true 0 w' = [c] ++ delimSub true 0 w' from rfl,
              joinWith_front]
            rfl
          | false =>
            simp only [Bool.false_eq_true, if_false]
            rw [← this, show List.replicate (2 * n) '\\' ++ '"' :: c :: delimSub true 0 w' =
              (List.replicate (2 * n) '\\' ++ ['"', c]) ++ delimSub true 0 w' by simp,
              joinWith_front]
            simp
        · rw [if_neg hd, if_neg hd, joinWith_front]
          congr 1
          by_cases hb : c = '\\'
          · rw [if_pos hb, if_pos hb]
            have := ih false false ((if run then 0 else n) + 1) w' ws h'
            simpa using this
          · rw [if_neg hb, if_neg hb]
            have := ih false false 0 w' ws h'
            simp only [Bool.false_eq_true, if_false] at this
            rw [← this, show List.replicate (if run = true then 0 else n) '\\' ++
              c :: delimSub false 0 w' = (List.replicate (if run = true then 0 else n) '\\' ++ [c])
                ++ delimSub false 0 w' by simp, joinWith_front]
            simp

theorem item_scan (s : Str) : EscapeVCProjCommandLineArgListItem s = vcScan false false 0 s := by
  obtain ⟨w, ws, h⟩ := splitOn_cons_ne '"' s
  rw [← scan_split s false false 0 w ws h]
  unfold EscapeVCProjCommandLineArgListItem
  rw [h]
  simp [subEven]

/-! The number sign -/

theorem replicate_cl (n : Nat) :
    (List.replicate n '\\').flatMap clChar = List.replicate n '\\' := by
  induction n with
  | zero => rfl
  | succ n ih => rw [List.replicate_succ, List.flatMap_cons, ih]; rfl

theorem winQuote_cl (n : Nat) (t : Str) :
    (winQuote n t).flatMap clChar = winQuote n (t.flatMap clChar) := by
  induction t generalizing n with
  | nil => simp [winQuote, replicate_cl]
  | cons c cs ih =>
    rw [List.flatMap_cons]
    by_cases h0 : c = '#'
    · subst h0
      have e : clChar '#' = c!"\\043" := rfl
      rw [e]
      simp only [List.cons_append, List.nil_append, winQuote]
      simp only [show ¬ ('#' = '\\') by decide, show ¬ ('#' = '"') by decide,
        show ¬ ('0' = '\\') by decide, show ¬ ('0' = '"') by decide,
        show ¬ ('4' = '\\') by decide, show ¬ ('4' = '"') by decide,
        show ¬ ('3' = '\\') by decide, show ¬ ('3' = '"') by decide, if_false, if_true]
      rw [List.flatMap_append, replicate_cl, List.flatMap_cons, ih, e, List.replicate_succ']
      simp
    · have e : clChar c = [c] := by simp [clChar, h0]
      rw [e]
      simp only [List.cons_append, List.nil_append, winQuote]
      split
      · exact ih _
      · split
        · rw [List.flatMap_append, List.flatMap_append, replicate_cl, ih]; rfl
        · rw [List.flatMap_append, replicate_cl, List.flatMap_cons, ih, e]; rfl

theorem delimSub_nil_cl (run : Bool) (n : Nat) :
    (delimSub run n []).flatMap clChar = delimSub run n [] := by
  cases run
  · simp [delimSub, replicate_cl]
  · rfl

theorem vcScan_cl (q run : Bool) (n : Nat) (t : Str) :
    (vcScan q run n t).flatMap clChar = vcScan q run n (t.flatMap clChar) := by
  induction t generalizing q run n with
  | nil => cases q <;> simp [vcScan, delimSub_nil_cl]
  | cons c cs ih =>
    rw [List.flatMap_cons]
    by_cases h0 : c = '#'
    · subst h0
      have e : clChar '#' = c!"\\043" := rfl
      rw [e]
      simp only [List.cons_append, List.nil_append, vcScan]
      simp only [show ¬ ('#' = '\\') by decide, show ¬ ('#' = '"') by decide,
        show ¬ ('\\' = '"') by decide,
        show ¬ ('0' = '\\') by decide, show ¬ ('0' = '"') by decide,
        show ¬ ('4' = '\\') by decide, show ¬ ('4' = '"') by decide,
        show ¬ ('3' = '\\') by decide, show ¬ ('3' = '"') by decide,
        show isDelim '#' = false by decide, show isDelim '\\' = false by decide,
        show isDelim '0' = false by decide, show isDelim '4' = false by decide,
        show isDelim '3' = false by decide, if_false, if_true, Bool.false_eq_true]
      cases q
      · simp only [Bool.false_eq_true, if_false, List.flatMap_append, List.flatMap_cons, e,
          replicate_cl, ih]
        cases run
        · simp [List.replicate_succ']
        · simp [clChar]
      · simp only [if_true, List.flatMap_cons, ih, e]
        rfl
    · have e : clChar c = [c] := by simp [clChar, h0]
      rw [e]
      simp only [List.cons_append, List.nil_append, vcScan]
      have e2 : clChar '"' = ['"'] := rfl
      have hif : ∀ b : Bool, (if b then [] else delimSub run n [] : Str).flatMap clChar =
          if b then [] else delimSub run n [] := by
        intro b; cases b <;> simp [delimSub_nil_cl]
      have hif2 : (if run then ['"'] else [] : Str).flatMap clChar =
          if run then ['"'] else [] := by
        cases run <;> rfl
      repeat' split
      all_goals simp_all [List.flatMap_append, replicate_cl]

/-! Reading the item back as an argument -/

theorem argv_bs (k p : Nat) (b : Bool) (w : Str) (done : List Str) :
    (List.replicate k '\\').foldl argvStep ⟨b, p, some w, done⟩ = ⟨b, p + k, some w, done⟩ := by
  induction k generalizing p with
  | zero => rfl
  | succ k ih =>
    rw [List.replicate_succ, List.foldl_cons]
    have : argvStep ⟨b, p, some w, done⟩ '\\' = ⟨b, p + 1, some w, done⟩ := by simp [argvStep]
    rw [this, ih]
    congr 1; omega

theorem argv_even (b : Bool) (n : Nat) (w : Str) (done : List Str) :
    argvStep ⟨b, 2 * n, some w, done⟩ '"' =
      ⟨!b, 0, some (w ++ List.replicate n '\\'), done⟩ := by
  have e1 : 2 * n / 2 = n := by omega
  have e2 : 2 * n % 2 = 0 := by omega
  simp [argvStep, e1, e2, ArgvSt.push]

theorem argv_odd (b : Bool) (n : Nat) (w : Str) (done : List Str) :
    argvStep ⟨b, 2 * n + 1, some w, done⟩ '"' =
      ⟨b, 0, some (w ++ List.replicate n '\\' ++ ['"']), done⟩ := by
  have e1 : (2 * n + 1) / 2 = n := by omega
  have e2 : (2 * n + 1) % 2 = 1 := by omega
  simp [argvStep, e1, e2, ArgvSt.push]

theorem argv_char (b : Bool) (p : Nat) (w : Str) (done : List Str) (c : Char)
    (h1 : c ≠ '\\') (h2 : c ≠ '"') (h3 : b = true ∨ isDelim c = true) :
    argvStep ⟨b, p, some w, done⟩ c =
      ⟨b, 0, some (w ++ List.replicate p '\\' ++ [c]), done⟩ := by
  have h4 : ¬ ((c = ' ' ∨ c = '\t') ∧ b = false) := by
    rintro ⟨h, hb⟩
    rcases h3 with h3 | h3
    · simp [hb] at h3
    · rcases h with rfl | rfl <;> simp [isDelim] at h3
  simp only [argvStep, h1, h2, if_false, ArgvSt.push]
  rw [if_neg h4]
  simp

/-- Scanning a run of backslashes that is not quoted. -/
theorem scan_bs (k m : Nat) (t : Str) :
    vcScan false false m (List.replicate k '\\' ++ t) = vcScan false false (m + k) t := by
  induction k generalizing m with
  | zero => rfl
  | succ k ih =>
    rw [List.replicate_succ, List.cons_append, vcScan]
    simp only [show ¬ ('\\' = '"') by decide, show isDelim '\\' = false by decide, if_false,
      Bool.false_eq_true, List.nil_append, if_true]
    rw [ih]; congr 1; omega

theorem scan_bs_run (k : Nat) (t : Str) :
    vcScan false true 0 (List.replicate (k + 1) '\\' ++ t) =
      '"' :: vcScan false false (k + 1) t := by
  rw [List.replicate_succ, List.cons_append, vcScan]
  simp only [show ¬ ('\\' = '"') by decide, show isDelim '\\' = false by decide, if_false,
    Bool.false_eq_true, if_true]
  rw [scan_bs, List.singleton_append]
  congr 2; omega

theorem scan_bs_quoted (k : Nat) (t : Str) :
    vcScan true false 0 (List.replicate k '\\' ++ t) =
      List.replicate k '\\' ++ vcScan true false 0 t := by
  induction k with
  | zero => rfl
  | succ k ih =>
    rw [List.replicate_succ, List.cons_append, vcScan]
    simp only [show ¬ ('\\' = '"') by decide, if_false, if_true]
    rw [ih]; rfl

/-- The closing quote of a run. -/
theorem argv_close_run (w : Str) (done : List Str) :
    argvStep ⟨false, 0, some w, done⟩ '"' = ⟨true, 0, some w, done⟩ := by
  simp [argvStep, ArgvSt.push]

theorem argv_scan (t : Str) (n : Nat) (q run : Bool) (w : Str) (done : List Str)
    (hr : run = true → q = false) (hq : q = decide (t.count '"' % 2 = 0))
    (hl : t.getLast? ≠ some '\\') (hn : t = [] → n = 0) :
    (vcScan q run 0 (winQuote n t ++ ['"'])).foldl argvStep ⟨!run, 0, some w, done⟩ =
      ⟨false, 0, some (w ++ List.replicate n '\\' ++ t), done⟩ := by
  induction t generalizing n q run w with
  | nil =>
    obtain rfl := hn rfl
    simp at hq
    subst hq
    have : run = false := by cases run <;> simp_all
    subst this
    simp [winQuote, vcScan, argvStep, ArgvSt.push, delimSub]
  | cons c cs ih =>
    have hl' : cs.getLast? ≠ some '\\' := by
      cases cs with
      | nil => simp
      | cons x xs => simpa [List.getLast?_cons_cons] using hl
    rw [winQuote]
    by_cases h1 : c = '\\'
    · subst h1
      rw [if_pos rfl]
      have hcs : cs ≠ [] := by rintro rfl; simp at hl
      rw [ih (n + 1) q run w hr (by rw [hq]; simp) hl' (fun h => absurd h hcs)]
      rw [List.replicate_succ']; simp
    rw [if_neg h1]
    by_cases h2 : c = '"'
    · subst h2
      rw [if_pos rfl]
      have e : List.replicate (2 * n) '\\' ++ c!"\\\"" ++ winQuote 0 cs ++ ['"'] =
          List.replicate (2 * n + 1) '\\' ++ ('"' :: (winQuote 0 cs ++ ['"'])) := by
        rw [List.replicate_succ']; simp
      rw [e]
      have hq' : (!q) = decide (cs.count '"' % 2 = 0) := by
        rw [hq, List.count_cons_self]
        by_cases h : cs.count '"' % 2 = 0
        · have : ¬ (cs.count '"' + 1) % 2 = 0 := by omega
          simp [h, this]
        · have : (cs.count '"' + 1) % 2 = 0 := by omega
          simp [h, this]
      have hrec := ih 0 (!q) false (w ++ List.replicate n '\\' ++ ['"']) (by simp) hq' hl'
        (fun _ => rfl)
      have hgoal : w ++ List.replicate n '\\' ++ ['"'] ++ List.replicate 0 '\\' ++ cs =
          w ++ List.replicate n '\\' ++ '"' :: cs := by simp
      rw [hgoal] at hrec
      cases q with
      | true =>
        have : run = false := by cases run <;> simp_all
        subst this
        rw [scan_bs_quoted, List.foldl_append]
        simp only [Bool.not_false]
        rw [argv_bs, vcScan]
        simp only [if_true, List.nil_append, List.foldl_cons]
        rw [Nat.zero_add, argv_odd]
        exact hrec
      | false =>
        have hmid : (vcScan false false (2 * n + 1) ('"' :: (winQuote 0 cs ++ ['"']))).foldl
            argvStep ⟨true, 0, some w, done⟩ =
            ⟨false, 0, some (w ++ List.replicate n '\\' ++ '"' :: cs), done⟩ := by
          rw [vcScan]
          simp only [if_true, Bool.false_eq_true, if_false, delimSub]
          rw [List.foldl_append, argv_bs, List.foldl_cons, Nat.zero_add, argv_odd]
          exact hrec
        cases run with
        | true =>
          rw [scan_bs_run, List.foldl_cons]
          simp only [Bool.not_true]
          rw [argv_close_run]
          exact hmid
        | false =>
          rw [scan_bs, Nat.zero_add]
          exact hmid
    rw [if_neg h2]
    have e : List.replicate n '\\' ++ c :: winQuote 0 cs ++ ['"'] =
        List.replicate n '\\' ++ (c :: (winQuote 0 cs ++ ['"'])) := by simp
    rw [e]
    have hq' : q = decide (cs.count '"' % 2 = 0) := by
      rw [hq, List.count_cons_of_ne h2]
    have hgoal : ∀ w : Str, w ++ [c] ++ List.replicate 0 '\\' ++ cs = w ++ c :: cs := by
      intro w; simp
    cases q with
    | true =>
      have : run = false := by cases run <;> simp_all
      subst this
      rw [scan_bs_quoted, List.foldl_append]
      simp only [Bool.not_false]
      rw [argv_bs, vcScan, if_neg h2]
      simp only [if_true, List.foldl_cons]
      rw [Nat.zero_add, argv_char _ _ _ _ _ h1 h2 (.inl rfl)]
      have hrec := ih 0 true false (w ++ List.replicate n '\\' ++ [c]) (by simp) hq' hl'
        (fun _ => rfl)
      rw [hgoal] at hrec
      exact hrec
    | false =>
      by_cases hd : isDelim c = true
      · have hrec := ih 0 false true (w ++ List.replicate n '\\' ++ [c]) (by simp) hq' hl'
          (fun _ => rfl)
        rw [hgoal] at hrec
        have hmid : (vcScan false false n (c :: (winQuote 0 cs ++ ['"']))).foldl
            argvStep ⟨true, 0, some w, done⟩ =
            ⟨false, 0, some (w ++ List.replicate n '\\' ++ c :: cs), done⟩ := by
          rw [vcScan, if_neg h2]
          simp only [Bool.false_eq_true, if_false]
          rw [if_pos hd, List.foldl_append, argv_bs, List.foldl_cons, Nat.zero_add, argv_even,
            List.foldl_cons]
          simp only [Bool.not_true]
          rw [argv_char _ _ _ _ _ h1 h2 (.inr hd)]
          simpa using hrec
        cases run with
        | true =>
          cases n with
          | zero =>
            simp only [List.replicate_zero, List.nil_append, List.append_nil] at hrec ⊢
            rw [vcScan, if_neg h2]
            simp only [Bool.false_eq_true, if_false, if_true]
            rw [if_pos hd, List.foldl_cons]
            simp only [Bool.not_true]
            rw [argv_char _ _ _ _ _ h1 h2 (.inr hd)]
            simpa using hrec
          | succ n =>
            rw [scan_bs_run, List.foldl_cons]
            simp only [Bool.not_true]
            rw [argv_close_run]
            exact hmid
        | false =>
          rw [scan_bs, Nat.zero_add]
          exact hmid
      · have hrec := ih 0 false false (w ++ List.replicate n '\\' ++ [c]) (by simp) hq' hl'
          (fun _ => rfl)
        rw [hgoal] at hrec
        have hmid : (vcScan false false n (c :: (winQuote 0 cs ++ ['"']))).foldl
            argvStep ⟨true, 0, some w, done⟩ =
            ⟨false, 0, some (w ++ List.replicate n '\\' ++ c :: cs), done⟩ := by
          rw [vcScan, if_neg h2]
          simp only [Bool.false_eq_true, if_false]
          rw [if_neg hd, if_neg h1, List.nil_append, List.foldl_append, argv_bs, List.foldl_cons,
            Nat.zero_add, argv_char _ _ _ _ _ h1 h2 (.inl rfl)]
          exact hrec
        cases run with
        | true =>
          cases n with
          | zero =>
            simp only [List.replicate_zero, List.nil_append, List.append_nil] at hrec ⊢
            rw [vcScan, if_neg h2]
            simp only [Bool.false_eq_true, if_false, if_true]
            rw [if_neg hd, if_neg h1]
            simp only [List.replicate_zero, List.nil_append, List.cons_append, List.foldl_cons,
              Bool.not_true]
            rw [argv_close_run, argv_char _ _ _ _ _ h1 h2 (.inl rfl)]
            simpa using hrec
          | succ n =>
            rw [scan_bs_run, List.foldl_cons]
            simp only [Bool.not_true]
            rw [argv_close_run]
            exact hmid
        | false =>
          rw [scan_bs, Nat.zero_add]
          exact hmid

/-! Reading the list back -/

/-- No delimiter of the text is outside of quotes. -/
def vcQuiet : Bool → Str → Bool
  | _, [] => true
  | v, c :: cs => if isDelim c then v && vcQuiet v cs else vcQuiet (if c = '"' then !v else v) cs

/-- Whether quotes are open after a text. -/
def vcEnd (v : Bool) (s : Str) : Bool := s.foldl (fun v c => if c = '"' then !v else v) v

theorem vcList_quiet (s rest : Str) (v : Bool) (h : vcQuiet v s = true)
    (x : Str) (xs : List Str) (hx : vcprojList (vcEnd v s) rest = x :: xs) :
    vcprojList v (s ++ rest) = (s ++ x) :: xs := by
  induction s generalizing v with
  | nil => exact hx
  | cons c cs ih =>
    rw [vcQuiet] at h
    rw [List.cons_append, vcprojList]
    by_cases hd : isDelim c = true
    · rw [if_pos hd, Bool.and_eq_true] at h
      have hc : ¬ c = '"' := by rintro rfl; simp [isDelim] at hd
      rw [if_neg (by simp [h.1]), if_neg hc, ih v h.2 (by simpa [vcEnd, hc] using hx)]
      rfl
    · rw [if_neg hd] at h
      have : ¬ ((c = ',' ∨ c = ';') ∧ v = false) := by
        rintro ⟨h', _⟩
        apply hd
        rcases h' with rfl | rfl <;> rfl
      rw [if_neg this, ih _ h hx]
      rfl

theorem vcQuiet_append (a b : Str) (v : Bool) :
    vcQuiet v (a ++ b) = (vcQuiet v a && vcQuiet (vcEnd v a) b) := by
  induction a generalizing v with
  | nil => simp [vcQuiet, vcEnd]
  | cons c cs ih =>
    rw [List.cons_append, vcQuiet, vcQuiet]
    by_cases hd : isDelim c = true
    · have hc : ¬ c = '"' := by rintro rfl; simp [isDelim] at hd
      rw [if_pos hd, if_pos hd, ih]
      have : vcEnd v (c :: cs) = vcEnd v cs := by simp [vcEnd, hc]
      rw [this, Bool.and_assoc]
    · rw [if_neg hd, if_neg hd, ih]
      rfl

theorem vcEnd_append (a b : Str) (v : Bool) : vcEnd v (a ++ b) = vcEnd (vcEnd v a) b := by
  simp [vcEnd, List.foldl_append]

theorem vcQuiet_bs (n : Nat) (v : Bool) : vcQuiet v (List.replicate n '\\') = true := by
  induction n with
  | zero => rfl
  | succ n ih =>
    rw [List.replicate_succ, vcQuiet]
    simpa [isDelim] using ih

theorem vcEnd_bs (n : Nat) (v : Bool) : vcEnd v (List.replicate n '\\') = v := by
  induction n with
  | zero => rfl
  | succ n ih => rw [List.replicate_succ]; simpa [vcEnd] using ih

/-- The items written are quiet, and end as their quotes are counted. -/
theorem scan_quiet (s : Str) (q run : Bool) (n : Nat) (hr : run = true → q = false) :
    vcQuiet (q || run) (vcScan q run n s) = true ∧
      vcEnd (q || run) (vcScan q run n s) = (q ^^ decide (s.count '"' % 2 = 1)) := by
  have hend : ∀ q run : Bool, ∀ n, (run = true → q = false) →
      vcQuiet (q || run) (if q then [] else delimSub run n []) = true ∧
      vcEnd (q || run) (if q then [] else delimSub run n []) = q := by
    intro q run n hr
    cases q with
    | true => simp [vcQuiet, vcEnd]
    | false =>
      cases run with
      | true => exact ⟨rfl, rfl⟩
      | false => simp [delimSub, vcQuiet_bs, vcEnd_bs]
  induction s generalizing q run n with
  | nil =>
    have := hend q run n hr
    rw [vcScan]
    simpa using this
  | cons c cs ih =>
    rw [vcScan]
    by_cases hc : c = '"'
    · subst hc
      rw [if_pos rfl, vcQuiet_append, vcEnd_append, (hend q run n hr).1, (hend q run n hr).2]
      obtain ⟨i1, i2⟩ := ih (!q) false 0 (by simp)
      rw [Bool.or_false] at i1 i2
      rw [vcQuiet, if_neg (by decide), if_pos rfl]
      refine ⟨by simpa using i1, ?_⟩
      have : vcEnd q ('"' :: vcScan (!q) false 0 cs) = vcEnd (!q) (vcScan (!q) false 0 cs) := by
        simp [vcEnd]
      rw [this, i2, List.count_cons_self]
      by_cases h : cs.count '"' % 2 = 1
      · have : ¬ (cs.count '"' + 1) % 2 = 1 := by omega
        simp [h, this]
      · have : (cs.count '"' + 1) % 2 = 1 := by omega
        simp [h, this]
    rw [if_neg hc, List.count_cons_of_ne hc]
    cases q with
    | true =>
      have : run = false := by cases run <;> simp_all
      subst this
      obtain ⟨i1, i2⟩ := ih true false 0 (by simp)
      simp only [Bool.or_false, if_true] at i1 i2 ⊢
      refine ⟨?_, ?_⟩
      · rw [vcQuiet, if_neg hc]; split
        · simpa using i1
        · exact i1
      · rw [← i2]; simp [vcEnd, hc]
    | false =>
      simp only [Bool.false_eq_true, if_false, Bool.false_or]
      by_cases hd : isDelim c = true
      · obtain ⟨i1, i2⟩ := ih false true 0 (by simp)
        rw [Bool.false_or] at i1 i2
        rw [if_pos hd]
        have hcons : vcQuiet true (c :: vcScan false true 0 cs) = true ∧
            vcEnd true (c :: vcScan false true 0 cs) =
              (false ^^ decide (cs.count '"' % 2 = 1)) := by
          refine ⟨by rw [vcQuiet, if_pos hd]; simpa using i1, ?_⟩
          rw [← i2]; simp [vcEnd, hc]
        cases run with
        | true => exact hcons
        | false =>
          simp only [Bool.false_eq_true, if_false]
          rw [vcQuiet_append, vcEnd_append, vcQuiet_bs, vcEnd_bs, vcQuiet,
            if_neg (by decide), if_pos rfl]
          refine ⟨by simpa using hcons.1, ?_⟩
          have : vcEnd false ('"' :: c :: vcScan false true 0 cs) =
              vcEnd true (c :: vcScan false true 0 cs) := by simp [vcEnd]
          rw [this]; exact hcons.2
      · rw [if_neg hd]
        have hpre : vcQuiet run (if run then ['"'] else []) = true ∧
            vcEnd run (if run then ['"'] else []) = false := by
          cases run <;> decide
        rw [vcQuiet_append, vcEnd_append, hpre.1, hpre.2]
        by_cases hb : c = '\\'
        · rw [if_pos hb]
          have := ih false false ((if run then 0 else n) + 1) (by simp)
          simpa using this
        · rw [if_neg hb]
          obtain ⟨i1, i2⟩ := ih false false 0 (by simp)
          rw [Bool.false_or] at i1 i2
          rw [vcQuiet_append, vcEnd_append, vcQuiet_bs, vcEnd_bs, vcQuiet, if_neg hd, if_neg hc]
          refine ⟨by simpa using i1, ?_⟩
          rw [← i2]; simp [vcEnd, hc]

theorem winQuote_count (n : Nat) (t : Str) : (winQuote n t).count '"' = t.count '"' := by
  induction t generalizing n with
  | nil => simp [winQuote, List.count_replicate]
  | cons c cs ih =>
    rw [winQuote]
    by_cases h1 : c = '\\'
    · rw [if_pos h1, ih]; simp [h1]
    · rw [if_neg h1]
      by_cases h2 : c = '"'
      · rw [if_pos h2]
        simp [ih, h2, List.count_replicate]
      · rw [if_neg h2]
        simp [ih, h2, List.count_replicate]

end Gyp
