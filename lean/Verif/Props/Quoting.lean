import Verif.Model.Quoting
import Verif.Spec.CString
import Verif.Spec.Argv
import Mathlib.Data.List.Basic
/-
C39 (C strings), C42 (response files), C43 (environment blocks).
-/
namespace Gyp
open Spec

/-! ## C39 -/

theorem cRun_append (s : CMode × List Nat) (a b : Str) :
    cRun s (a ++ b) = (cRun s a).bind fun s' => cRun s' b := by
  induction a generalizing s with
  | nil => rfl
  | cons c cs ih =>
    simp only [List.cons_append, cRun]
    cases cStep s c with
    | none => rfl
    | some s' => exact ih s'

/-- The state after an item: its byte is complete. -/
def CSettled (s : CMode × List Nat) (out : List Nat) : Prop :=
  s = (.normal, out) ∨ ∃ v out', s = (.oct 3 v, out') ∧ out = out' ++ [v]

theorem settled_run {s : CMode × List Nat} {out : List Nat} (h : CSettled s out) (c : Char)
    (t : Str) : cRun s (c :: t) = cRun (.normal, out) (c :: t) := by
  rcases h with rfl | ⟨v, out', rfl, rfl⟩
  · rfl
  · have : cStep (.oct 3 v, out') c = cPlain (out' ++ [v]) c := by
      simp only [cStep]
      cases octDigit c <;> simp
    simp only [cRun, this]
    rfl

theorem byte_block (b : UInt8) (out : List Nat) :
    ∃ s, cRun (.normal, out)
      (if b = 92 ∨ b = 34 ∨ ¬ (32 ≤ b.toNat ∧ b.toNat < 127) then octalEscape b
        else [Char.ofNat b.toNat]) = some s ∧ CSettled s (out ++ [b.toNat]) := by
  have hb : b.toNat < 256 := b.toNat_lt
  by_cases h : b = 92 ∨ b = 34 ∨ ¬ (32 ≤ b.toNat ∧ b.toNat < 127)
  · rw [if_pos h]
    have hd : ∀ d, d < 8 → octDigit (Char.ofNat (48 + d)) = some d := by decide
    have hp : cStep (.normal, out) '\\' = some (.esc, out) := by simp [cStep, cPlain]
    have d1 := hd (b.toNat / 64) (by omega)
    have d2 := hd (b.toNat / 8 % 8) (by omega)
    have d3 := hd (b.toNat % 8) (by omega)
    refine ⟨(.oct 3 b.toNat, out), ?_, Or.inr ⟨_, _, rfl, rfl⟩⟩
    unfold octalEscape
    have s1 : cStep (.esc, out) (Char.ofNat (48 + b.toNat / 64)) =
        some (.oct 1 (b.toNat / 64), out) := by simp only [cStep, d1]
    have s2 : cStep (.oct 1 (b.toNat / 64), out) (Char.ofNat (48 + b.toNat / 8 % 8)) =
        some (.oct 2 (8 * (b.toNat / 64) + b.toNat / 8 % 8), out) := by
      simp only [cStep, d2]; simp
    have s3 : cStep (.oct 2 (8 * (b.toNat / 64) + b.toNat / 8 % 8), out)
        (Char.ofNat (48 + b.toNat % 8)) = some (.oct 3 b.toNat, out) := by
      simp only [cStep, d3]; simp; omega
    rw [cRun, hp, Option.bind_some, cRun, s1, Option.bind_some, cRun, s2, Option.bind_some,
      cRun, s3]
    rfl
  · rw [if_neg h]
    simp only [not_or, Decidable.not_not] at h
    obtain ⟨h1, h2, h3, h4⟩ := h
    refine ⟨(.normal, out ++ [b.toNat]), ?_, Or.inl rfl⟩
    have hn : (Char.ofNat b.toNat).toNat = b.toNat := by
      have : ∀ n, n < 128 → (Char.ofNat n).toNat = n := by decide
      exact this _ (by omega)
    have hne : ∀ c : Char, c.toNat ≠ b.toNat → Char.ofNat b.toNat ≠ c := by
      intro c hc e
      apply hc
      rw [← e, hn]
    have e1 : Char.ofNat b.toNat ≠ '"' := hne _ (fun e => h2 (UInt8.toNat_inj.mp e.symm))
    have e2 : Char.ofNat b.toNat ≠ '\\' := hne _ (fun e => h1 (UInt8.toNat_inj.mp e.symm))
    have e3 : Char.ofNat b.toNat ≠ '\n' := hne _ (by
      have : '\n'.toNat = 10 := rfl
      omega)
    simp only [cRun, cStep, cPlain, e1, e2, e3, hn, or_self, if_false]
    rw [if_pos (by omega)]
    rfl

theorem escape_run (bs : List UInt8) (s : CMode × List Nat) (out : List Nat)
    (h : CSettled s out) :
    ∃ s', cRun s (EscapeForCString bs) = some s' ∧ CSettled s' (out ++ bs.map (·.toNat)) := by
  induction bs generalizing s out with
  | nil => exact ⟨s, rfl, by simpa using h⟩
  | cons b bs ih =>
    have hcons : ∃ c t, EscapeForCString (b :: bs) = c :: t := by
      unfold EscapeForCString
      rw [List.flatMap_cons]
      by_cases hh : b = 92 ∨ b = 34 ∨ ¬ (32 ≤ b.toNat ∧ b.toNat < 127)
      · rw [if_pos hh]; exact ⟨_, _, rfl⟩
      · rw [if_neg hh]; exact ⟨_, _, rfl⟩
    obtain ⟨c, t, hct⟩ := hcons
    rw [hct, settled_run h, ← hct]
    unfold EscapeForCString
    rw [List.flatMap_cons, cRun_append]
    obtain ⟨s1, e1, e2⟩ := byte_block b out
    rw [e1, Option.bind_some]
    obtain ⟨s2, e3, e4⟩ := ih s1 _ e2
    exact ⟨s2, e3, by simpa using e4⟩

/-- C39: the escaped text is the inside of a C string literal that denotes exactly
the given bytes; in particular it never closes the literal. -/
theorem C39_cstring (bs : List UInt8) :
    cLiteral (EscapeForCString bs) = some (bs.map (·.toNat)) := by
  obtain ⟨s, h1, h2⟩ := escape_run bs (.normal, []) [] (Or.inl rfl)
  unfold cLiteral
  rw [h1]
  rcases h2 with rfl | ⟨v, out', rfl, h⟩
  · rfl
  · simpa using h.symm

/-- C39: no two byte strings are escaped to the same text. -/
theorem C39_cstring_injective (a b : List UInt8) (h : EscapeForCString a = EscapeForCString b) :
    a = b := by
  have h1 := C39_cstring a
  rw [h, C39_cstring b] at h1
  have := Option.some.inj h1
  exact (List.map_injective_iff.mpr (fun x y e => UInt8.toNat_inj.mp e) this).symm

example : EscapeForCString [34, 49, 200, 65] = c!"\\0421\\310A" := by decide

/-! ## C42 -/

def ArgvSt.result (s : ArgvSt) : List Str :=
  s.done ++ (s.cur.map (· ++ List.replicate s.pend '\\')).toList

/-- Inside quotes: reading the quoted form of a text. -/
theorem argv_winQuote (t : Str) (n : Nat) (w : Str) (done : List Str) :
    ∃ p w', (winQuote n t).foldl argvStep ⟨true, 0, some w, done⟩ = ⟨true, p, some w', done⟩ ∧
      w' ++ List.replicate p '\\' = w ++ List.replicate n '\\' ++ t ∧
      ((∀ c, t.getLast? = some c → c ≠ '\\') → (t = [] → n = 0) → p = 0) := by
  have hbs : ∀ (k p : Nat) (w : Str), (List.replicate k '\\').foldl argvStep
      ⟨true, p, some w, done⟩ = ⟨true, p + k, some w, done⟩ := by
    intro k
    induction k with
    | zero => intros; rfl
    | succ k ih =>
      intro p w
      rw [List.replicate_succ, List.foldl_cons]
      have : argvStep ⟨true, p, some w, done⟩ '\\' = ⟨true, p + 1, some w, done⟩ := by
        simp [argvStep]
      rw [this, ih]
      congr 1; omega
  induction t generalizing n w with
  | nil =>
    refine ⟨n, w, by simp [winQuote, hbs], by simp, fun _ h => h rfl⟩
  | cons c cs ih =>
    rw [winQuote]
    by_cases h1 : c = '\\'
    · subst h1
      rw [if_pos rfl]
      obtain ⟨p, w', e1, e2, e3⟩ := ih (n + 1) w
      refine ⟨p, w', e1, by rw [e2, List.replicate_succ']; simp, ?_⟩
      intro hl _
      cases cs with
      | nil => exact absurd rfl (hl '\\' rfl)
      | cons x xs =>
        exact e3 (fun d hd => hl d (by simpa [List.getLast?_cons_cons] using hd)) (by simp)
    · rw [if_neg h1]
      by_cases h2 : c = '"'
      · subst h2
        rw [if_pos rfl, List.foldl_append, List.foldl_append, hbs]
        have : (c!"\\\"").foldl argvStep ⟨true, 0 + 2 * n, some w, done⟩ =
            ⟨true, 0, some (w ++ List.replicate n '\\' ++ ['"']), done⟩ := by
          have e1 : (2 * n + 1) / 2 = n := by omega
          have e2 : (2 * n + 1) % 2 = 1 := by omega
          simp [argvStep, e1, e2, ArgvSt.push]
        rw [this]
        obtain ⟨p, w', e1, e2, e3⟩ := ih 0 (w ++ List.replicate n '\\' ++ ['"'])
        refine ⟨p, w', e1, by rw [e2]; simp, ?_⟩
        intro hl _
        refine e3 (fun d hd => ?_) (fun _ => rfl)
        cases cs with
        | nil => simp at hd
        | cons x xs => exact hl d (by simpa [List.getLast?_cons_cons] using hd)
      · rw [if_neg h2, List.foldl_append, hbs, List.foldl_cons]
        have : argvStep ⟨true, 0 + n, some w, done⟩ c =
            ⟨true, 0, some (w ++ List.replicate n '\\' ++ [c]), done⟩ := by
          simp [argvStep, h1, h2, ArgvSt.push]
        rw [this]
        obtain ⟨p, w', e1, e2, e3⟩ := ih 0 (w ++ List.replicate n '\\' ++ [c])
        refine ⟨p, w', e1, by rw [e2]; simp, ?_⟩
        intro hl _
        refine e3 (fun d hd => ?_) (fun _ => rfl)
        cases cs with
        | nil => simp at hd
        | cons x xs => exact hl d (by simpa [List.getLast?_cons_cons] using hd)

theorem percent_cons (c : Char) (t : Str) (h : c ≠ '%') :
    batchPercent (c :: t) = (batchPercent t).map (c :: ·) := by
  rw [batchPercent]
  · intro t' e; exact absurd e h
  · intro e; exact absurd e h

theorem percent_doubled (s t : Str) :
    batchPercent (replaceChar '%' c!"%%" s ++ t) = (batchPercent t).map (s ++ ·) := by
  unfold replaceChar
  induction s with
  | nil => simp
  | cons c cs ih =>
    rw [List.flatMap_cons]
    by_cases h : c = '%'
    · subst h
      rw [if_pos rfl, List.append_assoc]
      simp only [List.cons_append, List.nil_append]
      rw [batchPercent, ih]
      cases batchPercent t <;> rfl
    · rw [if_neg h, List.append_assoc]
      simp only [List.cons_append, List.nil_append]
      rw [percent_cons c _ h, ih]
      cases batchPercent t <;> rfl

/-- The quoted argument before `%` doubling. -/
def rspText (a : Str) : Str := ['"'] ++ winQuote 0 a ++ ['"']

theorem argv_rspText (a : Str) (done : List Str) (h : a.getLast? ≠ some '\\') :
    (rspText a).foldl argvStep ⟨false, 0, none, done⟩ = ⟨false, 0, some a, done⟩ := by
  unfold rspText
  rw [List.foldl_append, List.foldl_append]
  have h1 : ['"'].foldl argvStep ⟨false, 0, none, done⟩ = ⟨true, 0, some [], done⟩ := by
    simp [argvStep, ArgvSt.push]
  rw [h1]
  obtain ⟨p, w', e1, e2, e3⟩ := argv_winQuote a 0 [] done
  have hp := e3 (fun c hc e => h (e ▸ hc)) (fun _ => rfl)
  subst hp
  simp at e2
  subst e2
  rw [e1]
  simp [argvStep, ArgvSt.push]

/-- C42: every argument that does not end in a backslash (after the path
normalisation the function applies) reaches the program as one argument, after
batch processing and argument splitting. -/
theorem C42_rsp_argument_partial (normpath : Str → Str) (arg : Str)
    (h : (rspNormalise normpath arg).getLast? ≠ some '\\') :
    (batchPercent (QuoteForRspFile normpath arg true)).map argvWords =
      some [rspNormalise normpath arg] := by
  have hb : batchPercent (QuoteForRspFile normpath arg true) =
      some (rspText (rspNormalise normpath arg)) := by
    unfold QuoteForRspFile rspText
    simp only [if_true, List.append_assoc, List.cons_append, List.nil_append]
    rw [percent_cons _ _ (by decide), percent_doubled]
    rfl
  rw [hb]
  simp only [Option.map_some]
  unfold argvWords
  simp [argv_rspText _ [] h]

example : (batchPercent (QuoteForRspFile id c!"say \"50%\\\" a\\b" true)).map argvWords =
    some [c!"say \"50%\\\" a\\b"] := C42_rsp_argument_partial id _ (by decide)

theorem argv_join (as : List Str) (done : List Str)
    (h : ∀ a ∈ as, a.getLast? ≠ some '\\') :
    let s := (joinWith [' '] (as.map rspText)).foldl argvStep ⟨false, 0, none, done⟩
    s.done ++ (s.cur.map (· ++ List.replicate s.pend '\\')).toList = done ++ as := by
  induction as generalizing done with
  | nil => simp [joinWith]
  | cons a as ih =>
    have ha := argv_rspText a done (h a (by simp))
    have has := ih (done ++ [a]) (fun b hb => h b (by simp [hb]))
    cases as with
    | nil => simp [joinWith, ha]
    | cons b bs =>
      simp only [List.map_cons, joinWith, List.foldl_append] at has ⊢
      rw [ha]
      have h1 : [' '].foldl argvStep ⟨false, 0, some a, done⟩ = ⟨false, 0, none, done ++ [a]⟩ := by
        simp [argvStep]
      rw [h1]
      simpa using has

/-- C42 for a whole command line: after the program, the arguments are read back one
for one. -/
theorem C42_rsp_list_partial (normpath : Str → Str) (cmd : Str) (args : List Str)
    (h : ∀ a ∈ args, (rspNormalise normpath a).getLast? ≠ some '\\') :
    ∃ program tail, EncodeRspFileList normpath (cmd :: args) true = program ++ [' '] ++ tail ∧
      (¬ startsWith cmd c!"call " = true → program = normpath cmd) ∧
      (∀ p, cmd = c!"call " ++ p → program = c!"call " ++ normpath p) ∧
      (batchPercent tail).map argvWords = some (args.map (rspNormalise normpath)) := by
  refine ⟨_, joinWith [' '] (args.map fun x => QuoteForRspFile normpath x true), rfl, ?_, ?_, ?_⟩
  · intro hc; rw [if_neg hc]
  · rintro p rfl
    simp [startsWith, List.isPrefixOf, split1]
  · have hpj : batchPercent (joinWith [' '] (args.map fun x => QuoteForRspFile normpath x true)) =
        some (joinWith [' '] ((args.map (rspNormalise normpath)).map rspText)) := by
      have hone : ∀ a t, batchPercent (QuoteForRspFile normpath a true ++ t) =
          (batchPercent t).map (rspText (rspNormalise normpath a) ++ ·) := by
        intro a t
        unfold QuoteForRspFile rspText
        simp only [if_true, List.append_assoc, List.nil_append, List.cons_append]
        rw [percent_cons _ _ (by decide), percent_doubled, percent_cons _ _ (by decide)]
        cases batchPercent t <;> simp
      clear h
      induction args with
      | nil => rfl
      | cons a as ih =>
        cases as with
        | nil =>
          have := hone a []
          simpa [joinWith, batchPercent] using this
        | cons b bs =>
          simp only [List.map_cons, joinWith, List.append_assoc] at ih ⊢
          rw [hone, List.singleton_append, percent_cons _ _ (by decide), ih]
          simp
    rw [hpj]
    simp only [Option.map_some]
    have := argv_join (args.map (rspNormalise normpath)) [] (by
      intro a ha
      obtain ⟨b, hb, rfl⟩ := List.mem_map.mp ha
      exact h b hb)
    unfold argvWords
    simpa using this

example : ∃ program tail, EncodeRspFileList id [c!"cl.exe", c!"a b", c!"\"", c!""] true =
      program ++ [' '] ++ tail ∧ (batchPercent tail).map argvWords = some [c!"a b", c!"\"", c!""] := by
  obtain ⟨p, t, h1, _, _, h2⟩ := C42_rsp_list_partial id c!"cl.exe" [c!"a b", c!"\"", c!""]
    (by decide)
  exact ⟨p, t, h1, by simpa [rspNormalise] using h2⟩

/-- The full claim is false: a trailing backslash swallows the closing quote, the
argument changes and runs into the next one. -/
theorem C42_trailing_backslash :
    (batchPercent (joinWith [' '] [QuoteForRspFile id c!"a\\" true,
      QuoteForRspFile id c!"b" true])).map argvWords = some [c!"a\" b"] := by decide

/-! ## C43 -/

/-- C43: the environment read back from the saved block is the saved environment,
variable for variable, in order. -/
theorem C43_environment_block (env : List (Str × Str)) (hne : env ≠ [])
    (hk : ∀ kv ∈ env, '=' ∉ kv.1 ∧ '\x00' ∉ kv.1) (hv : ∀ kv ∈ env, '\x00' ∉ kv.2) :
    GetEnv (FormatAsEnvironmentBlock env) = some env := by
  have hfold : ∀ (e : List (Str × Str)) (b : Str),
      e.foldl (fun block kv => block ++ (kv.1 ++ c!"=" ++ kv.2 ++ c!"\x00")) b =
      b ++ e.flatMap (fun kv => kv.1 ++ c!"=" ++ kv.2 ++ c!"\x00") := by
    intro e
    induction e with
    | nil => simp
    | cons x xs ih => intro b; rw [List.foldl_cons, ih]; simp
  have hjoin : ∀ (e : List (Str × Str)), e ≠ [] →
      e.flatMap (fun kv => kv.1 ++ c!"=" ++ kv.2 ++ c!"\x00") =
      joinWith ['\x00'] (e.map fun kv => kv.1 ++ c!"=" ++ kv.2) ++ ['\x00'] := by
    intro e
    induction e with
    | nil => intro h; exact absurd rfl h
    | cons x xs ih =>
      intro _
      cases xs with
      | nil => simp [joinWith]
      | cons y ys =>
        have := ih (by simp)
        rw [List.flatMap_cons, this]
        simp [joinWith]
  have hblock : FormatAsEnvironmentBlock env =
      joinWith ['\x00'] (env.map fun kv => kv.1 ++ c!"=" ++ kv.2) ++ c!"\x00\x00" := by
    unfold FormatAsEnvironmentBlock
    rw [hfold, hjoin env hne]
    simp
  unfold GetEnv
  rw [hblock]
  have htake : ∀ x : Str, (x ++ c!"\x00\x00").take ((x ++ c!"\x00\x00").length - 2) = x := by
    intro x
    simp
  rw [htake, splitOn_joinWith]
  · have hmap : ∀ e : List (Str × Str), (∀ kv ∈ e, '=' ∉ kv.1) →
        (e.map fun kv => kv.1 ++ c!"=" ++ kv.2).mapM (fun item => split1 '=' item) = some e := by
      intro e
      induction e with
      | nil => intro _; rfl
      | cons x xs ih =>
        intro h
        have h1 : split1 '=' (x.1 ++ c!"=" ++ x.2) = some (x.1, x.2) := by
          have := split1_append (b := x.2) (h x (by simp))
          simpa using this
        rw [List.map_cons, List.mapM_cons, h1, ih (fun kv hkv => h kv (by simp [hkv]))]
        rfl
    exact hmap env (fun kv hkv => (hk kv hkv).1)
  · simpa using hne
  · intro w hw
    obtain ⟨kv, hkv, rfl⟩ := List.mem_map.mp hw
    simp only [List.mem_append, List.mem_singleton, not_or]
    exact ⟨⟨(hk kv hkv).2, by decide⟩, hv kv hkv⟩

example : GetEnv (FormatAsEnvironmentBlock [(c!"PATH", c!"C:\\x;=y"), (c!"TMP", c!"")]) =
    some [(c!"PATH", c!"C:\\x;=y"), (c!"TMP", c!"")] :=
  C43_environment_block _ (by decide) (by decide) (by decide)

end Gyp
