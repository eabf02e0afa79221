import Verif.Spec.Registry
import Mathlib.Data.List.Forall2
import Mathlib.Tactic.ByContra
/-
C96: values of the registry.
-/
namespace Gyp
open Spec

theorem plusThen_stop {α : Type} (p : Char → Bool) (k : Str → Option α) (r : Str) (hr : ∀ c, r.head? = some c → p c = false) :
    plusThen p k true r = k r := by
  cases r with
  | nil => rfl
  | cons c r =>
    unfold plusThen
    rw [hr c rfl]
    simp

theorem plusThen_here {α : Type} (p : Char → Bool) (k : Str → Option α) (r : Str) (a : α)
    (hr : ∀ c, r.head? = some c → p c = false) (hk : k r = some a) : ∀ (w : Str) (b : Bool), (∀ c ∈ w, p c = true) →
    (b = true ∨ w ≠ []) → plusThen p k b (w ++ r) = some a
  | [], b, _, hb => by
    have hb : b = true := by simpa using hb
    subst hb
    rw [List.nil_append, plusThen_stop p k r hr, hk]
  | c :: w, b, hw, _ => by
    have ih := plusThen_here p k r a hr hk w true (fun c hc => hw c (List.mem_cons_of_mem _ hc)) (Or.inl rfl)
    rw [List.cons_append]
    unfold plusThen
    rw [hw c (List.mem_cons_self ..), if_pos rfl, ih]

/-- Nothing is found when nothing is found after each of the beginnings. -/
theorem plusThen_none {α : Type} (p : Char → Bool) (k : Str → Option α) (r : Str)
    (hr : ∀ c, r.head? = some c → p c = false) : ∀ (w : Str) (b : Bool),
    (∀ a c, w = a ++ c → (b = true ∨ a ≠ []) → k (c ++ r) = none) → plusThen p k b (w ++ r) = none
  | [], b, h => by
    rw [List.nil_append]
    cases b with
    | true => rw [plusThen_stop p k r hr]; exact h [] [] rfl (Or.inl rfl)
    | false =>
      cases r with
      | nil => rfl
      | cons c r => unfold plusThen; rw [hr c rfl]; simp
  | c :: w, b, h => by
    have ih := plusThen_none p k r hr w true (fun a d e _ => h (c :: a) d (by rw [e]; rfl) (Or.inr (by simp)))
    rw [List.cons_append]
    unfold plusThen
    rw [ih]
    have : (if p c = true then (none : Option α) else none) = none := by split <;> rfl
    rw [this]
    cases b with
    | false => rfl
    | true => exact h [] (c :: w) rfl (Or.inl rfl)

theorem valueThen_here {α : Type} (k : Str → Option α) : ∀ (name t r : Str),
    List.Forall₂ (fun v c => if reWord v then sameButCase v c = true else lineEnd c = false) name t →
    valueThen k name (t ++ r) = k r
  | [], [], r, _ => rfl
  | v :: vs, c :: t, r, h => by
    obtain ⟨h1, h2⟩ := List.forall₂_cons.1 h
    rw [List.cons_append]
    unfold valueThen
    rw [if_pos, valueThen_here k vs t r h2]
    split at h1
    · rename_i hv; rw [if_pos hv]; exact h1
    · rename_i hv; rw [if_neg hv, h1]; rfl
  | [], _ :: _, _, h => by cases h
  | _ :: _, [], _, h => by cases h

theorem valueThen_none {α : Type} (k : Str → Option α) : ∀ (name s : Str), ¬ BeginsLike name s → valueThen k name s = none
  | [], s, h => absurd ⟨[], s, rfl, .nil⟩ h
  | v :: vs, [], _ => rfl
  | v :: vs, c :: s, h => by
    unfold valueThen
    by_cases hc : (if reWord v then sameButCase v c else !lineEnd c) = true
    · rw [if_pos hc]
      apply valueThen_none
      rintro ⟨t, r, e, hf⟩
      apply h
      refine ⟨c :: t, r, by rw [e]; rfl, .cons ?_ hf⟩
      by_cases hv : reWord v = true
      · rw [if_pos hv] at hc ⊢; exact hc
      · rw [if_neg hv] at hc ⊢; simpa using hc
    · rw [if_neg hc]

theorem beginsLike_self (name r : Str) (h : OneLine name) : BeginsLike name (name ++ r) := by
  refine ⟨name, r, rfl, ?_⟩
  unfold OneLine at h
  induction name with
  | nil => exact .nil
  | cons c name ih =>
    refine .cons ?_ (ih fun c hc => h c (List.mem_cons_of_mem _ hc))
    split
    · simp [sameButCase]
    · exact h c (List.mem_cons_self ..)

theorem forall₂_self (name : Str) (h : OneLine name) :
    List.Forall₂ (fun v c => if reWord v then sameButCase v c = true else lineEnd c = false) name name := by
  unfold OneLine at h
  induction name with
  | nil => exact .nil
  | cons c name ih =>
    refine .cons ?_ (ih fun c hc => h c (List.mem_cons_of_mem _ hc))
    split
    · simp [sameButCase]
    · exact h c (List.mem_cons_self ..)

theorem restOfLine_here (data rest : Str) (hv : Visible data) (ho : OneLine data)
    (hr : ∀ c, rest.head? = some c → lineEnd c = true) : restOfLine (data ++ rest) = some data := by
  obtain ⟨c, r, rfl, hc⟩ := hv
  rw [List.cons_append]
  simp only [restOfLine, hc, Bool.false_eq_true, if_false, Option.some.injEq, List.cons.injEq, true_and]
  have ho' : ∀ c ∈ r, lineEnd c = false := fun d hd => ho d (List.mem_cons_of_mem _ hd)
  clear ho
  induction r with
  | nil =>
    cases rest with
    | nil => rfl
    | cons d rest => simp [hr d rfl]
  | cons d r ih =>
    rw [List.cons_append, List.takeWhile_cons, ho' d (List.mem_cons_self ..)]
    simp only [Bool.not_false, if_true, List.cons.injEq, true_and]
    exact ih fun c hc => ho' c (List.mem_cons_of_mem _ hc)

/-- The line of a value: its data is found, whatever goes before it of white space. -/
theorem regLine_here (space name type data rest : Str) (hs : ∀ c ∈ space, reSpace c = true) (hs0 : space ≠ [])
    (hn : Visible name) (hno : OneLine name) (ht : type ≠ []) (htw : ∀ c ∈ type, reWord c = true)
    (hd : Visible data) (hdo : OneLine data) (hr : ∀ c, rest.head? = some c → lineEnd c = true) :
    regLine name (space ++ (name ++ (c!"    " ++ (c!"REG_" ++ (type ++ (c!"    " ++ (data ++ rest))))))) = some data := by
  unfold regLine
  have h1 : restOfLine (data ++ rest) = some data := restOfLine_here data rest hd hdo hr
  have h2 : plusThen reSpace restOfLine false (c!"    " ++ (data ++ rest)) = some data := by
    apply plusThen_here reSpace restOfLine (data ++ rest) data _ h1 _ _ (by decide) (Or.inr (by decide))
    obtain ⟨c, r, rfl, hc⟩ := hd
    intro d hd; simp only [List.cons_append, List.head?_cons, Option.some.injEq] at hd; rw [← hd]; exact hc
  have h3 : plusThen reWord (plusThen reSpace restOfLine false) false (type ++ (c!"    " ++ (data ++ rest))) = some data := by
    apply plusThen_here reWord _ _ data _ h2 _ _ htw (Or.inr ht)
    intro d hd; simp only [List.cons_append, List.head?_cons, Option.some.injEq] at hd; rw [← hd]; decide
  have h4 : valueThen (plusThen reWord (plusThen reSpace restOfLine false) false) c!"REG_"
      (c!"REG_" ++ (type ++ (c!"    " ++ (data ++ rest)))) = some data := by
    rw [valueThen_here _ _ _ _ (forall₂_self _ (by unfold OneLine; decide)), h3]
  have h5 : plusThen reSpace (valueThen (plusThen reWord (plusThen reSpace restOfLine false) false) c!"REG_") false
      (c!"    " ++ (c!"REG_" ++ (type ++ (c!"    " ++ (data ++ rest))))) = some data := by
    apply plusThen_here reSpace _ _ data _ h4 _ _ (by decide) (Or.inr (by decide))
    intro d hd; simp only [List.cons_append, List.head?_cons, Option.some.injEq] at hd; rw [← hd]; decide
  apply plusThen_here reSpace _ _ data _ _ _ _ hs (Or.inr hs0)
  · obtain ⟨c, r, rfl, hc⟩ := hn
    intro d hd; simp only [List.cons_append, List.head?_cons, Option.some.injEq] at hd; rw [← hd]; exact hc
  · rw [valueThen_here _ _ _ _ (forall₂_self _ hno), h5]

theorem regExec_skip (value : Str) (r : Str) : ∀ (l : Str), OneLine l → regExec value false (l ++ r) = regExec value false r
  | [], _ => rfl
  | c :: l, h => by
    rw [List.cons_append]
    have hc := h c (List.mem_cons_self ..)
    have ih := regExec_skip value r l fun c hc => h c (List.mem_cons_of_mem _ hc)
    conv => lhs; unfold regExec
    rw [hc]
    simp only [Bool.false_eq_true, if_false]
    exact ih

theorem regExec_next (value : Str) (c : Char) (s : Str) (b : Bool) (h : b = true → regLine value (c :: s) = none) :
    regExec value b (c :: s) = regExec value (lineEnd c) s := by
  conv => lhs; unfold regExec
  cases b with
  | false => rfl
  | true => rw [if_pos rfl, h rfl]

theorem regExec_found (value : Str) (s v : Str) (h : regLine value s = some v) : regExec value true s = some v := by
  cases s with
  | nil => unfold regExec; rw [if_pos rfl, h]
  | cons c s => unfold regExec; rw [if_pos rfl, h]

theorem word_not_end (v c : Char) (hv : reWord v = true) (h : sameButCase v c = true) : lineEnd c = false := by
  have key : ∀ n < 128, reWord (Char.ofNat n) = true →
      ∀ c ∈ ['\n', '\r', '\u2028', '\u2029'], sameButCase (Char.ofNat n) c = false := by decide +kernel
  have hn : v.toNat < 128 := by
    simp only [reWord, Bool.or_eq_true, Bool.and_eq_true, decide_eq_true_eq, Char.le_def] at hv
    have h1 : v.toNat = v.val.toNat := rfl
    rcases hv with ((⟨_, hv⟩ | ⟨_, hv⟩) | ⟨_, hv⟩) | hv
    · have := UInt32.le_iff_toNat_le.1 hv; have e : ('z' : Char).val.toNat = 122 := rfl; omega
    · have := UInt32.le_iff_toNat_le.1 hv; have e : ('Z' : Char).val.toNat = 90 := rfl; omega
    · have := UInt32.le_iff_toNat_le.1 hv; have e : ('9' : Char).val.toNat = 57 := rfl; omega
    · subst hv; decide
  have hv' : Char.ofNat v.toNat = v := Char.ofNat_toNat v
  rw [Bool.eq_false_iff]
  intro hc
  have hc : c ∈ ['\n', '\r', '\u2028', '\u2029'] := by
    simp only [lineEnd, Bool.or_eq_true, decide_eq_true_eq] at hc
    simp only [List.mem_cons, List.not_mem_nil, or_false]
    rcases hc with ((hc | hc) | hc) | hc <;> simp [hc]
  have := key v.toNat hn (by rw [hv']; exact hv) c hc
  rw [hv', h] at this
  cases this

theorem like_oneLine : ∀ (name t : Str),
    List.Forall₂ (fun v c => if reWord v then sameButCase v c = true else lineEnd c = false) name t → OneLine t
  | [], [], _ => by intro c hc; cases hc
  | v :: vs, c :: t, h => by
    obtain ⟨h1, h2⟩ := List.forall₂_cons.1 h
    intro d hd
    rcases List.mem_cons.1 hd with rfl | hd
    · split at h1
      · rename_i hv; exact word_not_end _ _ hv h1
      · exact h1
    · exact like_oneLine vs t h2 d hd
  | [], _ :: _, h => by cases h
  | _ :: _, [], h => by cases h

theorem notLike_append (name shown r : Str) (c : Char) (hc : lineEnd c = true) (h : ¬ BeginsLike name shown) :
    ¬ BeginsLike name (shown ++ c :: r) := by
  rintro ⟨t, r', e, hf⟩
  have ho := like_oneLine _ _ hf
  rcases List.append_eq_append_iff.1 e with ⟨w, e1, e2⟩ | ⟨w, e1, e2⟩
  · cases w with
    | nil => exact h ⟨t, [], by simpa using e1.symm, hf⟩
    | cons d w =>
      simp only [List.cons_append, List.cons.injEq] at e2
      have := ho d (by rw [e1]; simp)
      rw [← e2.1, hc] at this
      cases this
  · exact h ⟨t, w, e1, hf⟩

/-- The data of a value is what is printed for it, for all keys, names, types and data. -/
theorem C96_value (run : Str → Str → RegRun) (key name type data : Str) (shown : Str)
    (hrun : run key name = ⟨false, regOutput shown name type data, []⟩)
    (hk : Visible shown) (hko : OneLine shown) (hkn : ¬ BeginsLike name shown) (hn : Visible name) (hno : OneLine name)
    (ht : type ≠ []) (htw : ∀ c ∈ type, reWord c = true) (hd : Visible data) (hdo : OneLine data) :
    regGetValue run key name = some data := by
  unfold regGetValue
  rw [hrun]
  simp only
  rw [if_neg (by simp)]
  have eout : regOutput shown name type data =
      '\r' :: '\n' :: (shown ++ '\r' :: (c!"\n    " ++ (name ++ (c!"    " ++ (c!"REG_" ++ (type ++ (c!"    " ++ (data ++ c!"\r\n\r\n")))))))) := by
    unfold regOutput; simp
  rw [eout]
  have hfound := regLine_here c!"\n    " name type data c!"\r\n\r\n" (by decide) (by decide) hn hno ht htw hd hdo
    (by intro c hc; simp only [List.head?_cons, Option.some.injEq] at hc; rw [← hc]; decide)
  generalize hL : (c!"\n    " ++ (name ++ (c!"    " ++ (c!"REG_" ++ (type ++ (c!"    " ++ (data ++ c!"\r\n\r\n"))))))) = L at hfound ⊢
  have hvis : ∀ (r : Str) (c : Char), (shown ++ r).head? = some c → reSpace c = false := by
    obtain ⟨c, r, rfl, hc⟩ := hk
    intro r' d hd; simp only [List.cons_append, List.head?_cons, Option.some.injEq] at hd; rw [← hd]; exact hc
  have hnl : ∀ (c : Char) (s : Str), lineEnd c = true → ¬ BeginsLike name (c :: s) := by
    intro c s hc
    refine notLike_append name [] s c hc ?_
    rintro ⟨t, r, e, hf⟩
    obtain ⟨n0, ns, rfl, _⟩ := hn
    cases hf
    simp at e
  have hkn' : ∀ r : Str, ¬ BeginsLike name (shown ++ '\r' :: r) := fun r => notLike_append name shown r '\r' (by decide) hkn
  have hfail : ∀ (w : Str), (∀ c ∈ w, lineEnd c = true) → regLine name (w ++ (shown ++ '\r' :: L)) = none := by
    intro w hw
    unfold regLine
    apply plusThen_none reSpace _ _ (hvis _)
    intro a c e ha
    apply valueThen_none
    cases c with
    | nil => exact hkn' L
    | cons d c => exact hnl d _ (hw d (by rw [e]; simp))
  have f1 := hfail c!"\r\n" (by decide)
  have f2 := hfail c!"\n" (by decide)
  have f3 := hfail [] (by simp)
  simp only [List.cons_append, List.nil_append] at f1 f2 f3
  rw [regExec_next _ _ _ _ (fun _ => f1), show lineEnd '\r' = true by decide, regExec_next _ _ _ _ (fun _ => f2),
    show lineEnd '\n' = true by decide]
  obtain ⟨k0, ks, rfl, hk0⟩ := hk
  rw [List.cons_append] at f3 ⊢
  rw [regExec_next _ _ _ _ (fun _ => f3), hko k0 (List.mem_cons_self ..),
    regExec_skip _ _ _ (fun c hc => hko c (List.mem_cons_of_mem _ hc)), regExec_next _ _ _ _ (fun h => by cases h),
    show lineEnd '\r' = true by decide]
  exact regExec_found _ _ _ hfound

theorem plusThen_some {α : Type} (p : Char → Bool) (k : Str → Option α) : ∀ (s : Str) (b : Bool) (a : α),
    plusThen p k b s = some a → ∃ w r, s = w ++ r ∧ (∀ c ∈ w, p c = true) ∧ (b = true ∨ w ≠ []) ∧ k r = some a
  | [], b, a, h => by
    unfold plusThen at h
    split at h
    · rename_i hb; exact ⟨[], [], rfl, by simp, Or.inl hb, h⟩
    · cases h
  | c :: s, b, a, h => by
    unfold plusThen at h
    split at h
    · rename_i x hx
      cases h
      split at hx
      · rename_i hc
        obtain ⟨w, r, e, hw, _, hk⟩ := plusThen_some p k s true a hx
        refine ⟨c :: w, r, by rw [e]; rfl, ?_, Or.inr (by simp), hk⟩
        intro d hd
        rcases List.mem_cons.1 hd with rfl | hd
        · exact hc
        · exact hw d hd
      · cases hx
    · split at h
      · rename_i hb; exact ⟨[], c :: s, rfl, by simp, Or.inl hb, h⟩
      · cases h

theorem valueThen_some {α : Type} (k : Str → Option α) : ∀ (name s : Str) (a : α), valueThen k name s = some a →
    ∃ t r, s = t ++ r ∧
      List.Forall₂ (fun v c => if reWord v then sameButCase v c = true else lineEnd c = false) name t ∧ k r = some a
  | [], s, a, h => ⟨[], s, rfl, .nil, h⟩
  | v :: vs, [], a, h => by cases h
  | v :: vs, c :: s, a, h => by
    unfold valueThen at h
    by_cases hc : (if reWord v then sameButCase v c else !lineEnd c) = true
    · rw [if_pos hc] at h
      obtain ⟨t, r, e, hf, hk⟩ := valueThen_some k vs s a h
      refine ⟨c :: t, r, by rw [e]; rfl, .cons ?_ hf, hk⟩
      by_cases hv : reWord v = true
      · rw [if_pos hv] at hc ⊢; exact hc
      · rw [if_neg hv] at hc ⊢; simpa using hc
    · rw [if_neg hc] at h; cases h

theorem takeWhile_all (p : Char → Bool) : ∀ (l : Str) (c : Char), c ∈ l.takeWhile p → p c = true
  | d :: l, c, h => by
    rw [List.takeWhile_cons] at h
    split at h
    · rename_i hd
      rcases List.mem_cons.1 h with rfl | h
      · exact hd
      · exact takeWhile_all p l c h
    · cases h

theorem restOfLine_some (s v : Str) (h : restOfLine s = some v) :
    Visible v ∧ OneLine v ∧ ∃ r, s = v ++ r ∧ ∀ c, r.head? = some c → lineEnd c = true := by
  cases s with
  | nil => cases h
  | cons c s =>
    simp only [restOfLine] at h
    split at h
    · cases h
    · rename_i hc
      simp only [Option.some.injEq] at h
      subst h
      have hc : reSpace c = false := by simpa using hc
      refine ⟨⟨c, _, rfl, hc⟩, ?_, s.dropWhile (fun d => !lineEnd d), ?_, ?_⟩
      · intro d hd
        rcases List.mem_cons.1 hd with rfl | hd
        · rw [Bool.eq_false_iff]; intro hd; rw [reSpace, hd] at hc; simp at hc
        · have := takeWhile_all _ _ _ hd; simpa using this
      · rw [List.cons_append, List.takeWhile_append_dropWhile]
      · intro d hd
        have := List.head?_dropWhile_not (fun d => !lineEnd d) s
        rw [hd] at this
        simpa using this

theorem regExec_some (value : Str) : ∀ (s : Str) (b : Bool) (v : Str), regExec value b s = some v →
    ∃ pre rest, s = pre ++ rest ∧ regLine value rest = some v ∧
      (∀ c, pre.getLast? = some c → lineEnd c = true) ∧ (b = true ∨ pre ≠ [])
  | [], b, v, h => by
    unfold regExec at h
    split at h
    · rename_i hb; exact ⟨[], [], rfl, h, by simp, Or.inl hb⟩
    · cases h
  | c :: s, b, v, h => by
    unfold regExec at h
    split at h
    · rename_i x hx
      cases h
      split at hx
      · rename_i hb; exact ⟨[], c :: s, rfl, hx, by simp, Or.inl hb⟩
      · cases hx
    · obtain ⟨pre, rest, e, hl, hp, hb⟩ := regExec_some value s _ v h
      refine ⟨c :: pre, rest, by rw [e]; rfl, hl, ?_, Or.inr (by simp)⟩
      intro d hd
      cases pre with
      | nil =>
        simp at hd
        subst hd
        simpa using hb
      | cons p pre => rw [List.getLast?_cons_cons] at hd; exact hp d hd

theorem forall₂_word : ∀ (name t : Str), (∀ c ∈ name, reWord c = true) →
    List.Forall₂ (fun v c => if reWord v then sameButCase v c = true else lineEnd c = false) name t →
    List.Forall₂ (fun a c => sameButCase a c = true) name t
  | [], [], _, _ => .nil
  | v :: vs, c :: t, hw, h => by
    obtain ⟨h1, h2⟩ := List.forall₂_cons.1 h
    rw [if_pos (hw v (List.mem_cons_self ..))] at h1
    exact .cons h1 (forall₂_word vs t (fun c hc => hw c (List.mem_cons_of_mem _ hc)) h2)
  | [], _ :: _, _, h => by cases h
  | _ :: _, [], _, h => by cases h

/-- A value that is found is the end of a line that has the name at its beginning, a type after the name, and
white space around both. -/
theorem C96_found (run : Str → Str → RegRun) (key name v : Str) (h : regGetValue run key name = some v) :
    (run key name).failed = false ∧ (∀ c ∈ (run key name).stderr, reSpace c = true) ∧ Visible v ∧ OneLine v ∧
      ∃ before s1 like s2 reg type s3 after,
        (run key name).stdout = before ++ (s1 ++ (like ++ (s2 ++ (reg ++ (type ++ (s3 ++ (v ++ after))))))) ∧
        (∀ c, before.getLast? = some c → lineEnd c = true) ∧ (∀ c, after.head? = some c → lineEnd c = true) ∧
        (∀ c ∈ s1 ++ s2 ++ s3, reSpace c = true) ∧ s1 ≠ [] ∧ s2 ≠ [] ∧ s3 ≠ [] ∧
        List.Forall₂ (fun a c => if reWord a then sameButCase a c = true else lineEnd c = false) name like ∧
        List.Forall₂ (fun a c => sameButCase a c = true) c!"REG_" reg ∧ type ≠ [] ∧ ∀ c ∈ type, reWord c = true := by
  unfold regGetValue at h
  dsimp only at h
  split at h
  · cases h
  · rename_i hc
    have hf : (run key name).failed = false := by
      rw [Bool.eq_false_iff]; exact fun hb => hc (Or.inl hb)
    have he : ∀ c ∈ (run key name).stderr, reSpace c = true := by
      intro c hm
      by_contra hs
      exact hc (Or.inr (List.any_eq_true.2 ⟨c, hm, by simpa using hs⟩))
    obtain ⟨pre, rest, e, hl, hp, _⟩ := regExec_some _ _ _ _ h
    unfold regLine at hl
    obtain ⟨s1, r1, e1, h1, n1, hl⟩ := plusThen_some _ _ _ _ _ hl
    obtain ⟨like, r2, e2, h2, hl⟩ := valueThen_some _ _ _ _ hl
    obtain ⟨s2, r3, e3, h3, n3, hl⟩ := plusThen_some _ _ _ _ _ hl
    obtain ⟨reg, r4, e4, h4, hl⟩ := valueThen_some _ _ _ _ hl
    obtain ⟨type, r5, e5, h5, n5, hl⟩ := plusThen_some _ _ _ _ _ hl
    obtain ⟨s3, r6, e6, h6, n6, hl⟩ := plusThen_some _ _ _ _ _ hl
    obtain ⟨hv, ho, after, e7, h7⟩ := restOfLine_some _ _ hl
    refine ⟨hf, he, hv, ho, pre, s1, like, s2, reg, type, s3, after, ?_, hp, h7, ?_, by simpa using n1, by simpa using n3,
      by simpa using n6, h2, ?_, by simpa using n5, h5⟩
    · rw [e, e1, e2, e3, e4, e5, e6, e7]
    · intro c hm
      rcases List.mem_append.1 hm with hm | hm
      · rcases List.mem_append.1 hm with hm | hm
        · exact h1 c hm
        · exact h3 c hm
      · exact h6 c hm
    · exact forall₂_word _ _ (by decide) h4

/-- The first key that has the value is the one that counts; a key for which `reg.exe` fails is passed over. -/
theorem C96_search (run : Str → Str → RegRun) (name : Str) (keys : List Str) (v : Str) :
    regSearchKeys run name keys = some v ↔
      ∃ before key after, keys = before ++ key :: after ∧ regGetValue run key name = some v ∧
        ∀ k ∈ before, regGetValue run k name = none := by
  induction keys with
  | nil => simp [regSearchKeys]
  | cons k keys ih =>
    unfold regSearchKeys
    cases hk : regGetValue run k name with
    | some x =>
      simp only [Option.some.injEq]
      constructor
      · rintro rfl; exact ⟨[], k, keys, rfl, hk, by simp⟩
      · rintro ⟨before, key, after, e, h1, h2⟩
        cases before with
        | nil =>
          simp only [List.nil_append, List.cons.injEq] at e
          rw [← e.1, hk] at h1
          exact Option.some.inj h1
        | cons b before =>
          simp only [List.cons_append, List.cons.injEq] at e
          have := h2 b (List.mem_cons_self ..)
          rw [← e.1, hk] at this
          cases this
    | none =>
      simp only
      rw [ih]
      constructor
      · rintro ⟨before, key, after, rfl, h1, h2⟩
        refine ⟨k :: before, key, after, rfl, h1, ?_⟩
        intro x hx
        rcases List.mem_cons.1 hx with rfl | hx
        · exact hk
        · exact h2 x hx
      · rintro ⟨before, key, after, e, h1, h2⟩
        cases before with
        | nil =>
          simp only [List.nil_append, List.cons.injEq] at e
          rw [← e.1, hk] at h1
          cases h1
        | cons b before =>
          simp only [List.cons_append, List.cons.injEq] at e
          exact ⟨before, key, after, e.2, h1, fun x hx => h2 x (List.mem_cons_of_mem _ hx)⟩

/-- When `reg.exe` fails, or prints an error, there is no value, whatever else it prints. -/
theorem C96_failed (run : Str → Str → RegRun) (key name : Str)
    (h : (run key name).failed = true ∨ ∃ c ∈ (run key name).stderr, reSpace c = false) :
    regGetValue run key name = none := by
  unfold regGetValue
  dsimp only
  rw [if_pos]
  rcases h with h | ⟨c, hm, hc⟩
  · exact Or.inl h
  · exact Or.inr (List.any_eq_true.2 ⟨c, hm, by simp [hc]⟩)

/-- A value without data takes the next line that has something on it for its data. -/
theorem C96_empty_witness :
    regGetValue (fun _ _ => ⟨false, regOutput c!"HKEY_LOCAL_MACHINE\\SOFTWARE" c!"14.0" c!"SZ" [] ++ c!"End of search", []⟩)
      c!"HKLM\\SOFTWARE" c!"14.0" = some c!"End of search" := by
  decide +kernel

/-- Characters that are not letters or digits stand for any character: another value of the same shape is taken. -/
theorem C96_like_witness :
    regGetValue (fun _ _ => ⟨false, regOutput c!"HKEY_LOCAL_MACHINE\\SOFTWARE" c!"14_0" c!"SZ" c!"C:\\VC", []⟩)
      c!"HKLM\\SOFTWARE" c!"14.0" = some c!"C:\\VC" := by
  decide +kernel

/-- The directory of the compiler, as `reg.exe` prints it. -/
example : regGetValue
    (fun _ _ => ⟨false, regOutput c!"HKEY_LOCAL_MACHINE\\Software" c!"14.0" c!"SZ" c!"C:\\Program Files\\VC\\", []⟩)
    c!"HKLM\\Software" c!"14.0" = some c!"C:\\Program Files\\VC\\" := by
  refine C96_value _ _ c!"14.0" c!"SZ" c!"C:\\Program Files\\VC\\" c!"HKEY_LOCAL_MACHINE\\Software" rfl
    ⟨_, _, rfl, by decide⟩ (by unfold OneLine; decide) ?_ ⟨_, _, rfl, by decide⟩ (by unfold OneLine; decide)
    (by decide) (by decide) ⟨_, _, rfl, by decide⟩ (by unfold OneLine; decide)
  rintro ⟨t, r, e, hf⟩
  obtain ⟨a, t', h1, _, rfl⟩ := List.forall₂_cons_left_iff.1 hf
  simp only [List.cons_append, List.cons.injEq] at e
  rw [← e.1] at h1
  revert h1
  decide

example : regSearchKeys (fun k _ => if k = c!"HKLM\\A" then ⟨true, [], []⟩
      else ⟨false, regOutput c!"HKEY_LOCAL_MACHINE\\B" c!"14.0" c!"SZ" c!"C:\\VC", []⟩) c!"14.0" [c!"HKLM\\A", c!"HKLM\\B"]
    = some c!"C:\\VC" := by decide +kernel

end Gyp
