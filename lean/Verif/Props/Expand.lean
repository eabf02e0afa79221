import Verif.Proofs.Expand
import Verif.Props.Conditions
/-
C33: variable expansion.
-/
namespace Gyp
open Spec

/-! ### Texts made of literals and references -/

/-- C33: a text is expanded completely.  If the references of the text can be followed
`depth` deep in the table of variables (which is always so for some depth unless a variable
refers to itself), the result is the text with every reference replaced by what the variable
stands for, and a number if that is the text of a number. -/
theorem C33_text (env : ExpEnv) (vars : Dict) (tbl : Str → Option Template)
    (hsym : env.sym = '<' ∨ env.sym = '>' ∨ env.sym = '^')
    (hgood : ∀ n t, tbl n = some t → GoodTemplate env.space env.sym t)
    (hvars : WritesTable env.sym vars tbl)
    (ps : List TextPiece) (hps : ∀ p ∈ ps, GoodPiece env.space env.sym p) (depth : Nat) (w : Str)
    (hw : textMeaning EncodePOSIXShellList (varMeaning EncodePOSIXShellList tbl depth) ps = some w)
    (fuel : Nat) (hf : 2 * depth + 1 ≤ fuel) :
    ∃ v, ReadsAs w v ∧ ExpandVariables env fuel (.str (render env.sym ps)) vars = .ok v := by
  obtain ⟨f, rfl⟩ : ∃ f, fuel = f + 1 := ⟨fuel - 1, by omega⟩
  exact ⟨_, toInt_reads w, (all_done ⟨hsym, hgood, hvars⟩ depth).1 f (by omega) ps w hps hw⟩

/-- C33: the items of a list are expanded in their order; `<@(name)` as a whole item is
replaced by the expanded items of that list. -/
theorem C33_list (env : ExpEnv) (vars : Dict) (tbl : Str → Option Template)
    (hsym : env.sym = '<' ∨ env.sym = '>' ∨ env.sym = '^')
    (hgood : ∀ n t, tbl n = some t → GoodTemplate env.space env.sym t)
    (hvars : WritesTable env.sym vars tbl)
    (items : List Item) (hitems : ∀ i ∈ items, GoodItem env.space env.sym i) (vs : List Val)
    (hvs : List.Forall₂ (WritesItem env.sym) vs items) (depth : Nat) (l : List Str)
    (hl : itemsMeaning EncodePOSIXShellList (varMeaning EncodePOSIXShellList tbl depth) items = some l)
    (fuel : Nat) (hf : 2 * depth + 2 ≤ fuel) :
    ∃ vs', List.Forall₂ ReadsAs l vs' ∧
      ProcessVariablesAndConditionsInList env fuel vs vars = .ok vs' := by
  obtain ⟨f, rfl⟩ : ∃ f, fuel = f + 2 := ⟨fuel - 2, by omega⟩
  refine ⟨_, ?_, (all_done ⟨hsym, hgood, hvars⟩ depth).2 f (by omega) items vs l hitems hvs hl⟩
  rw [List.forall₂_map_right_iff, List.forall₂_same]
  exact fun s _ => toInt_reads s

/-- A table with a chain, a list with a splice and a number. -/
def sampleTable : Str → Option Template := fun n =>
  if n = c!"a" then some (.scalar [.text c!"x", .ref c!"b"])
  else if n = c!"b" then some (.scalar [.text c!"7"])
  else if n = c!"l" then some (.list [.str [.text c!"p ", .ref c!"a"], .splice c!"m"])
  else if n = c!"m" then some (.list [.str [.text c!"q"], .str [.text c!"7"]])
  else none

def sampleVars : Dict :=
  [(c!"a", .str c!"x<(b)"), (c!"b", .int 7), (c!"l", .list [.str c!"p <(a)", .str c!"<@(m)"]),
   (c!"m", .list [.str c!"q", .int 7])]

example : textMeaning EncodePOSIXShellList (varMeaning EncodePOSIXShellList sampleTable 3)
    [.text c!"[", .ref c!"l", .text c!"]"] = some c!"[\"p x7\" q 7]" := rfl
example : ExpandVariables sampleEnv 7 (.str c!"[<(l)]") sampleVars = .ok (.str c!"[\"p x7\" q 7]") := rfl
example : ProcessVariablesAndConditionsInList sampleEnv 8 [.str c!"<@(l)", .str c!"<(b)", .int 3]
    sampleVars = .ok [.str c!"p x7", .str c!"q", .int 7, .int 7, .int 3] := rfl

theorem sample_name (n : Str) (hn : n ∈ [c!"a", c!"b", c!"l", c!"m"]) :
    GoodName sampleEnv.space sampleEnv.sym n := by
  have key : ∀ n ∈ [c!"a", c!"b", c!"l", c!"m"], n ≠ [] ∧ IsStrCanonicalInt asciiDigit n = false ∧
      ∀ c ∈ n, c ∉ ['(', ')', '[', ']', '{', '}'] ∧ c ≠ '\n' ∧ c ≠ '<' ∧ (decide (c = ' ')) = false := by
    decide
  obtain ⟨h1, h2, h3⟩ := key n hn
  refine ⟨h1, fun h => ?_, h3⟩
  rw [(canonical_iff n).mpr h] at h2
  cases h2

/-- The sample meets the hypotheses of the theorems. -/
example : (∀ n t, sampleTable n = some t → GoodTemplate sampleEnv.space sampleEnv.sym t) ∧
    WritesTable sampleEnv.sym sampleVars sampleTable := by
  constructor
  · intro n t h
    unfold sampleTable at h
    split at h
    · cases h
      intro p hp
      rcases List.mem_cons.mp hp with rfl | hp
      · simp [GoodPiece, sampleEnv]
      · rw [List.mem_singleton.mp hp]; exact sample_name _ (by simp)
    split at h
    · cases h
      intro p hp
      rw [List.mem_singleton.mp hp]; simp [GoodPiece, sampleEnv]
    split at h
    · cases h
      intro i hi
      rcases List.mem_cons.mp hi with rfl | hi
      · intro p hp
        rcases List.mem_cons.mp hp with rfl | hp
        · simp [GoodPiece, sampleEnv]
        · rw [List.mem_singleton.mp hp]; exact sample_name _ (by simp)
      · rw [List.mem_singleton.mp hi]; exact sample_name _ (by simp)
    split at h
    · cases h
      intro i hi
      rcases List.mem_cons.mp hi with rfl | hi
      · intro p hp; rw [List.mem_singleton.mp hp]; simp [GoodPiece, sampleEnv]
      · rw [List.mem_singleton.mp hi]; intro p hp; rw [List.mem_singleton.mp hp]
        simp [GoodPiece, sampleEnv]
    · cases h
  · intro n t h
    unfold sampleTable at h
    split at h
    · rename_i hn; cases h; subst hn
      exact ⟨_, rfl, .inl rfl⟩
    split at h
    · rename_i hn; cases h; subst hn
      exact ⟨_, rfl, .inr ⟨7, rfl, rfl⟩⟩
    split at h
    · rename_i hn; cases h; subst hn
      exact ⟨_, rfl, _, rfl, .cons (.inl rfl) (.cons rfl .nil)⟩
    split at h
    · rename_i hn; cases h; subst hn
      exact ⟨_, rfl, _, rfl, .cons (.inl rfl) (.cons (.inr ⟨7, rfl, rfl⟩) .nil)⟩
    · cases h

/-! ### Any text -/

theorem eat_true {c : Char} {s r : Str} (h : eat c s = (true, r)) : s = c :: r := by
  unfold eat at h
  split at h
  · cases h
  · rename_i x r'
    by_cases hx : x = c
    · rw [if_pos hx] at h; cases h; rw [hx]
    · rw [if_neg hx] at h; cases h

theorem eat_false {c : Char} {s r : Str} (h : eat c s = (false, r)) : r = s := by
  unfold eat at h
  split at h
  · cases h; rfl
  · rename_i x r'
    by_cases hx : x = c
    · rw [if_pos hx] at h; cases h
    · rw [if_neg hx] at h; cases h; rfl

theorem eat_ne {c x : Char} {r : Str} (h : x ≠ c) : eat c (x :: r) = (false, x :: r) := by
  simp [eat, h]

theorem eat_self (c : Char) (r : Str) : eat c (c :: r) = (true, r) := by simp [eat]

/-- Characters of the word in front of the parenthesis. -/
theorem cmdChar_iff {c : Char} : cmdChar c = true ↔ ('a' ≤ c ∧ c ≤ 'z') ∨ ('A' ≤ c ∧ c ≤ 'Z') ∨
    ('0' ≤ c ∧ c ≤ '9') ∨ c = '-' ∨ c = '_' ∨ c = '.' := by
  simp [cmdChar]
  tauto

theorem mem_takeWhile {p : Char → Bool} : ∀ {s : Str} {c : Char}, c ∈ s.takeWhile p → p c = true
  | [], _, h => by cases h
  | x :: s, c, h => by
    rw [List.takeWhile_cons] at h
    split at h
    · rename_i hx
      rcases List.mem_cons.mp h with rfl | h
      · exact hx
      · exact mem_takeWhile h
    · cases h

theorem match_reference {env : ExpEnv} {pos : Nat} {s : Str} {m : RefMatch}
    (h : matchHere env pos s = some m) :
    ∃ kind word white body after : Str,
      s = env.sym :: (kind ++ word ++ '(' :: (white ++ body ++ ')' :: after)) ∧
      kind ∈ [[], ['!'], ['@'], ['!', '@'], ['|']] ∧
      (∀ c ∈ word, ('a' ≤ c ∧ c ≤ 'z') ∨ ('A' ≤ c ∧ c ≤ 'Z') ∨ ('0' ≤ c ∧ c ≤ '9') ∨
        c = '-' ∨ c = '_' ∨ c = '.') ∧
      (∀ c ∈ white, env.space c = true) ∧ (∀ c ∈ body, c ≠ '\n') := by
  unfold matchHere at h
  cases s with
  | nil => cases h
  | cons c r =>
    simp only at h
    by_cases hc : c ≠ env.sym
    · rw [if_pos hc] at h; cases h
    rw [if_neg hc] at h
    have hc : c = env.sym := by simpa using hc
    subst hc
    rcases h1 : eat '!' r with ⟨bang, r1⟩
    rcases h2 : eat '@' r1 with ⟨at_, r2⟩
    rcases h3 : (if bang || at_ then (false, r2) else eat '|' r2) with ⟨bar, r3⟩
    rcases h4 : eat '(' (r3.dropWhile cmdChar) with ⟨paren, r4⟩
    rcases h5 : eat '[' (r4.dropWhile env.space) with ⟨bracket, r5⟩
    rcases h6 : eat ')' (r5.dropWhile fun c => c ≠ ')' && c ≠ '\n') with ⟨close, r6⟩
    rw [h1] at h
    simp only at h
    rw [h2] at h
    simp only at h
    rw [h3] at h
    simp only at h
    rw [h4] at h
    simp only at h
    cases paren with
    | false => simp at h
    | true =>
      simp only [Bool.not_true, Bool.false_eq_true, if_false] at h
      rw [h5] at h
      simp only at h
      rw [h6] at h
      cases close with
      | false => simp at h
      | true =>
        have e4 := eat_true h4
        have e6 := eat_true h6
        have ek : ∃ kind, kind ∈ [[], ['!'], ['@'], ['!', '@'], ['|']] ∧ r = kind ++ r3 := by
          cases bang with
          | true =>
            have e1 := eat_true h1
            cases at_ with
            | true =>
              have e2 := eat_true h2
              have : r2 = r3 := by simpa using congrArg Prod.snd h3
              exact ⟨['!', '@'], by simp, by rw [e1, e2, this]; rfl⟩
            | false =>
              have e2 := eat_false h2
              have : r2 = r3 := by simpa using congrArg Prod.snd h3
              exact ⟨['!'], by simp, by rw [e1, ← e2, this]; rfl⟩
          | false =>
            have e1 := eat_false h1
            cases at_ with
            | true =>
              have e2 := eat_true h2
              have : r2 = r3 := by simpa using congrArg Prod.snd h3
              exact ⟨['@'], by simp, by rw [← e1, e2, this]; rfl⟩
            | false =>
              have e2 := eat_false h2
              simp only [Bool.or_self, Bool.false_eq_true, if_false] at h3
              cases bar with
              | true => exact ⟨['|'], by simp, by rw [← e1, ← e2, eat_true h3]; rfl⟩
              | false => exact ⟨[], by simp, by rw [← e1, ← e2, ← eat_false h3]; rfl⟩
        obtain ⟨kind, hk, ek⟩ := ek
        have eb : ∃ br : Str, r4.dropWhile env.space = br ++ r5 ∧ ∀ c ∈ br, c ≠ '\n' := by
          cases bracket with
          | true => exact ⟨['['], eat_true h5, by simp⟩
          | false => exact ⟨[], (eat_false h5).symm, by simp⟩
        obtain ⟨br, hbr, hbn⟩ := eb
        refine ⟨kind, r3.takeWhile cmdChar, r4.takeWhile env.space,
          br ++ r5.takeWhile (fun c => c ≠ ')' && c ≠ '\n'), r6, ?_, hk, ?_, ?_, ?_⟩
        · have x3 : r3 = r3.takeWhile cmdChar ++ '(' :: r4 := by
            rw [← e4]; exact (List.takeWhile_append_dropWhile ..).symm
          have x4 : r4 = r4.takeWhile env.space ++ (br ++ r5) := by
            rw [← hbr]; exact (List.takeWhile_append_dropWhile ..).symm
          have x5 : r5 = r5.takeWhile (fun c => c ≠ ')' && c ≠ '\n') ++ ')' :: r6 := by
            rw [← e6]; exact (List.takeWhile_append_dropWhile ..).symm
          rw [ek]
          conv => lhs; rw [x3, x4, x5]
          simp
        · intro c hc
          exact cmdChar_iff.mp (mem_takeWhile hc)
        · intro c hc
          exact mem_takeWhile hc
        · intro c hc
          rcases List.mem_append.mp hc with hc | hc
          · exact hbn c hc
          · have := mem_takeWhile hc
            simp at this
            exact this.2

theorem close_found : ∀ (body after : Str), (∀ c ∈ body, c ≠ '\n') →
    ∃ x, (body ++ ')' :: after).dropWhile (fun c => c ≠ ')' && c ≠ '\n') = ')' :: x
  | [], after, _ => ⟨after, by simp⟩
  | c :: body, after, h => by
    by_cases hc : c = ')'
    · exact ⟨body ++ ')' :: after, by simp [hc]⟩
    · obtain ⟨x, hx⟩ := close_found body after fun c hc => h c (by simp [hc])
      exact ⟨x, by rw [List.cons_append, List.dropWhile_cons_of_pos (by simp [hc, h c (by simp)]), hx]⟩

theorem drop_white {space : Char → Bool} (hs : space ')' = false) : ∀ (body after : Str),
    (∀ c ∈ body, c ≠ '\n') → ∃ b, (body ++ ')' :: after).dropWhile space = b ++ ')' :: after ∧
      ∀ c ∈ b, c ≠ '\n'
  | [], after, _ => ⟨[], by simp [hs], by simp⟩
  | c :: body, after, h => by
    by_cases hc : space c = true
    · rw [List.cons_append, List.dropWhile_cons_of_pos hc]
      exact drop_white hs body after fun c hc => h c (by simp [hc])
    · exact ⟨c :: body, by simp [hc], h⟩

theorem drop_all {p : Char → Bool} : ∀ {a : Str} (b : Str), (∀ c ∈ a, p c = true) →
    (a ++ b).dropWhile p = b.dropWhile p
  | [], _, _ => rfl
  | c :: a, b, h => by
    rw [List.cons_append, List.dropWhile_cons_of_pos (h c (by simp))]
    exact drop_all b fun c hc => h c (by simp [hc])

theorem take_word {p : Char → Bool} : ∀ {a : Str} (c : Char) (b : Str), (∀ c ∈ a, p c = true) →
    p c = false → (a ++ c :: b).takeWhile p = a
  | [], c, b, _, hc => by simp [hc]
  | x :: a, c, b, h, hc => by
    rw [List.cons_append, List.takeWhile_cons_of_pos (h x (by simp)),
      take_word c b (fun c hc => h c (by simp [hc])) hc]

theorem reference_match {env : ExpEnv} (hs : env.space ')' = false) (pos : Nat)
    {kind word white body after : Str}
    (hk : kind ∈ [[], ['!'], ['@'], ['!', '@'], ['|']])
    (hword : ∀ c ∈ word, ('a' ≤ c ∧ c ≤ 'z') ∨ ('A' ≤ c ∧ c ≤ 'Z') ∨ ('0' ≤ c ∧ c ≤ '9') ∨
        c = '-' ∨ c = '_' ∨ c = '.')
    (hwhite : ∀ c ∈ white, env.space c = true) (hbody : ∀ c ∈ body, c ≠ '\n') :
    matchHere env pos (env.sym :: (kind ++ word ++ '(' :: (white ++ body ++ ')' :: after))) ≠ none := by
  have hword' : ∀ c ∈ word, cmdChar c = true := fun c hc => cmdChar_iff.mpr (hword c hc)
  have e1 : ∀ t : Str, (word ++ '(' :: t).takeWhile cmdChar = word := fun t =>
    take_word '(' t hword' (by decide)
  have e2 : ∀ t : Str, (word ++ '(' :: t).dropWhile cmdChar = '(' :: t := by
    intro t
    rw [drop_all _ hword', List.dropWhile_cons_of_neg (by decide)]
  have e3 : ∀ (t : Str) (c : Char), cmdChar c = false → c ≠ '(' →
      eat c (word ++ '(' :: t) = (false, word ++ '(' :: t) := by
    intro t c hc hp
    cases word with
    | nil => exact eat_ne hp.symm
    | cons x w =>
      refine eat_ne ?_
      rintro rfl
      rw [hword' x (by simp)] at hc
      cases hc
  obtain ⟨b, hb1, hb2⟩ := drop_white hs body after hbody
  have hb0 : (white ++ body ++ ')' :: after).dropWhile env.space = b ++ ')' :: after := by
    rw [List.append_assoc, drop_all _ hwhite, hb1]
  have hbr : ∃ br b', eat '[' (b ++ ')' :: after) = (br, b' ++ ')' :: after) ∧ ∀ c ∈ b', c ≠ '\n' := by
    cases b with
    | nil => exact ⟨false, [], eat_ne (by decide), by simp⟩
    | cons x b =>
      by_cases hx : x = '['
      · exact ⟨true, b, by rw [hx]; exact eat_self _ _, fun c hc => hb2 c (by simp [hc])⟩
      · exact ⟨false, x :: b, eat_ne hx, hb2⟩
  obtain ⟨br, b', hbr1, hbr2⟩ := hbr
  obtain ⟨x, hx⟩ := close_found b' after hbr2
  have e4 : ∀ t : Str, eat '!' (word ++ '(' :: t) = (false, word ++ '(' :: t) :=
    fun t => e3 t '!' (by decide) (by decide)
  have e5 : ∀ t : Str, eat '@' (word ++ '(' :: t) = (false, word ++ '(' :: t) :=
    fun t => e3 t '@' (by decide) (by decide)
  have e6 : ∀ t : Str, eat '|' (word ++ '(' :: t) = (false, word ++ '(' :: t) :=
    fun t => e3 t '|' (by decide) (by decide)
  have e7 : ∀ t : Str, eat '!' ('@' :: t) = (false, '@' :: t) := fun t => eat_ne (by decide)
  have e8 : ∀ t : Str, eat '!' ('|' :: t) = (false, '|' :: t) := fun t => eat_ne (by decide)
  have e9 : ∀ t : Str, eat '@' ('|' :: t) = (false, '|' :: t) := fun t => eat_ne (by decide)
  unfold matchHere
  simp only [List.mem_cons, List.not_mem_nil, or_false] at hk
  rcases hk with rfl | rfl | rfl | rfl | rfl <;>
    simp [e1, e2, e4, e5, e6, e7, e8, e9, eat_self, -List.append_assoc, hb0, hbr1] <;>
    (simp at hx; simp [hx, eat_self])

theorem findRefs_none {env : ExpEnv} : ∀ {s : Str} {pos : Nat}, findRefs env 0 pos s = [] ↔
    ∀ before rest, s = before ++ rest → matchHere env (pos + before.length) rest = none
  | [], pos => by
    simp only [findRefs, true_iff]
    intro before rest h
    have : rest = [] := by
      have := congrArg List.length h
      simp at this
      exact List.length_eq_zero_iff.mp (by omega)
    subst this
    rfl
  | c :: s, pos => by
    rw [findRefs]
    constructor
    · intro h
      split at h
      · cases h
      · rename_i hm
        rw [findRefs_none] at h
        intro before rest e
        cases before with
        | nil => rw [List.nil_append] at e; rw [← e]; exact hm
        | cons b before =>
          have e' := (List.cons.inj e).2
          have := h before rest e'
          rw [← this]
          congr 1
          simp; omega
    · intro h
      have hm := h [] (c :: s) rfl
      rw [List.length_nil, Nat.add_zero] at hm
      rw [hm]
      simp only
      rw [findRefs_none]
      intro before rest e
      have := h (c :: before) rest (by rw [e]; rfl)
      rw [← this]
      congr 1
      simp; omega

/-- The search for references finds one exactly when there is one. -/
theorem findRefs_iff {env : ExpEnv} (hs : env.space ')' = false) {s : Str} :
    findRefs env 0 0 s = [] ↔ ¬ HasReference env.space env.sym s := by
  rw [findRefs_none]
  constructor
  · rintro h ⟨before, kind, word, white, body, after, e, hk, hw, hwh, hb⟩
    exact reference_match hs _ hk hw hwh hb (h before _ e)
  · intro h before rest e
    cases hm : matchHere env (0 + before.length) rest with
    | none => rfl
    | some m =>
      obtain ⟨kind, word, white, body, after, e', hk, hw, hwh, hb⟩ := match_reference hm
      exact absurd ⟨before, kind, word, white, body, after, by rw [e, e'], hk, hw, hwh, hb⟩ h

/-- C33: a text without references is returned as it is (as a number if it is the text of
a number). -/
theorem C33_unchanged (env : ExpEnv) (hs : env.space ')' = false) (vars : Dict) (s : Str)
    (h : ¬ HasReference env.space env.sym s) (fuel : Nat) (hf : 1 ≤ fuel) :
    ∃ v, ReadsAs s v ∧ ExpandVariables env fuel (.str s) vars = .ok v := by
  obtain ⟨f, rfl⟩ : ∃ f, fuel = f + 1 := ⟨fuel - 1, by omega⟩
  refine ⟨_, toInt_reads s, ?_⟩
  change expandStep env (recs env f) (.str s) vars = _
  rw [expandStep_str, toInt_str]
  by_cases hc : IsStrCanonicalInt asciiDigit s = true
  · simp [hc]
  · simp [hc, (findRefs_iff hs).mpr h]

theorem forall₂_right {α β : Type} {R : α → β → Prop} : ∀ {l : List α} {r : List β},
    List.Forall₂ R l r → ∀ {b : β}, b ∈ r → ∃ a, a ∈ l ∧ R a b
  | _, _, .nil, _, h => by cases h
  | _, _, .cons h t, b, hb => by
    rcases List.mem_cons.mp hb with rfl | hb
    · exact ⟨_, by simp, h⟩
    · obtain ⟨a, ha, hr⟩ := forall₂_right t hb
      exact ⟨a, by simp [ha], hr⟩

theorem expandMatches_kind {env : ExpEnv} {r : Rec} {vars : Dict} : ∀ {ms : List RefMatch} {v out : Val},
    ((∃ s, v = .str s) ∨ ∃ l, v = .list l) → expandMatches env r vars ms v = .ok out →
    (∃ s, out = .str s) ∨ ∃ l, out = .list l
  | [], v, out, hv, h => by cases h; exact hv
  | m :: ms, v, out, hv, h => by
    rcases hv with ⟨s, rfl⟩ | ⟨l, rfl⟩
    · simp only [expandMatches] at h
      cases h1 : expandMatch env r vars m s with
      | error e => rw [h1] at h; cases h
      | ok v' =>
        rw [h1] at h
        refine expandMatches_kind ?_ h
        unfold expandMatch at h1
        simp only at h1
        split at h1
        · cases h1
        · split at h1
          · cases h1
          · split at h1
            · split at h1
              · cases h1; exact .inr ⟨_, rfl⟩
              · split at h1
                · cases h1
                · cases h1; exact .inr ⟨_, rfl⟩
            · cases h1; exact .inl ⟨_, rfl⟩
    · simp [expandMatches] at h

/-- The references of `t` are replaced by themselves. -/
def SelfReferring (env : ExpEnv) (vars : Dict) (t : Str) : Prop :=
  ∃ f, expandMatches env (recs env f) vars (findRefs env 0 0 t).reverse (.str t) = .ok (.str t)

theorem toInt_eq_str {v : Val} {t : Str} (h : toInt v = .str t) : v = .str t := by
  cases v with
  | str w =>
    rw [toInt_str] at h
    split at h
    · cases h
    · exact h
  | _ => exact h

theorem finish_eq_str {v : Val} {t : Str} (h : finish v = .str t) : v = .str t := by
  cases v with
  | list l => cases h
  | str w => exact toInt_eq_str h
  | int i => exact toInt_eq_str h
  | dict d => exact toInt_eq_str h
  | other => exact toInt_eq_str h

/-- C33: whatever the text and the variables are, if expansion ends with a text, then no
reference of the phase is left in it, unless all its references stand for themselves. -/
theorem C33_complete (env : ExpEnv) (hs : env.space ')' = false) (vars : Dict) : ∀ (fuel : Nat)
    (v : Val) (t : Str), ExpandVariables env fuel v vars = .ok (.str t) →
    ¬ HasReference env.space env.sym t ∨ SelfReferring env vars t := by
  intro fuel
  induction fuel with
  | zero => intro v t h; cases h
  | succ f ih =>
    intro v t h
    have h : expandStep env (recs env f) v vars = .ok (.str t) := h
    unfold expandStep at h
    simp only at h
    split at h
    · cases h
    split at h
    · rename_i hsym
      cases h
      left
      rintro ⟨before, kind, word, white, body, after, e, _⟩
      apply hsym
      rw [e]
      simp
    split at h
    · rename_i hm
      cases h
      exact .inl ((findRefs_iff hs).mp hm)
    split at h
    · cases h
    · rename_i out hout
      split at h
      · cases h
      · rename_i w hagain
        have hw := finish_eq_str (Except.ok.inj h)
        subst hw
        rcases expandMatches_kind (.inl ⟨_, rfl⟩) hout with ⟨s', rfl⟩ | ⟨l, rfl⟩
        · simp only [expandAgain] at hagain
          split at hagain
          · rename_i heq
            cases hagain
            right
            cases v with
            | str s =>
              have : s = t := by simpa [Val.scalarEq] using heq
              subst this
              exact ⟨f, hout⟩
            | _ => simp [Val.scalarEq] at heq
          · exact ih _ _ hagain
        · simp only [expandAgain] at hagain
          split at hagain
          · cases hagain
          · split at hagain <;> cases hagain

/-- C33: the same for the items when expansion ends with a list of texts. -/
theorem C33_complete_list (env : ExpEnv) (hs : env.space ')' = false) (vars : Dict) (fuel : Nat)
    (v : Val) (l : List Val) (h : ExpandVariables env fuel v vars = .ok (.list l))
    (hl : ∀ x ∈ l, x.isScalar = true) (t : Str) (ht : .str t ∈ l) :
    ¬ HasReference env.space env.sym t ∨ SelfReferring env vars t := by
  induction fuel generalizing v l with
  | zero => cases h
  | succ f ih =>
    have h : expandStep env (recs env f) v vars = .ok (.list l) := h
    unfold expandStep at h
    simp only at h
    split at h
    · cases h
    split at h
    · cases h
    split at h
    · cases h
    split at h
    · cases h
    · rename_i out hout
      split at h
      · cases h
      · rename_i w hagain
        have hfin : ∃ l', w = .list l' ∧ l = l'.map toInt := by
          have hh := Except.ok.inj h
          cases w with
          | list l' => exact ⟨l', rfl, by simpa [finish] using hh.symm⟩
          | str s =>
            have h2 : toInt (.str s) = .list l := hh
            rw [toInt_str] at h2
            split at h2 <;> cases h2
          | _ => cases hh
        obtain ⟨l', rfl, rfl⟩ := hfin
        obtain ⟨x, hx, hxt⟩ := List.mem_map.mp ht
        have hxt := toInt_eq_str hxt
        subst hxt
        rcases expandMatches_kind (.inl ⟨_, rfl⟩) hout with ⟨s', rfl⟩ | ⟨l2, rfl⟩
        · simp only [expandAgain] at hagain
          split at hagain
          · cases hagain
          · refine ih _ l' hagain ?_ hx
            intro y hy
            have := hl (toInt y) (List.mem_map_of_mem hy)
            cases y with
            | str s => rfl
            | int i => rfl
            | _ => exact this
        · simp only [expandAgain] at hagain
          split at hagain
          · rename_i hfl
            have h2 : l2 = l' := by cases hagain; rfl
            subst h2
            exfalso
            cases l2 with
            | nil => simp [firstIsList] at hfl
            | cons a b =>
              cases a with
              | list a => have := hl (toInt (.list a)) (by simp); simp [toInt, Val.isScalar] at this
              | _ => simp [firstIsList] at hfl
          · split at hagain
            · cases hagain
            · rename_i l3 hmap
              have h3 : l3 = l' := by cases hagain; rfl
              subst h3
              have := mapM_ok hmap
              obtain ⟨y, _, hyt⟩ := forall₂_right this hx
              exact C33_complete env hs vars f y t hyt

/-- A variable that refers to itself: the exception is real. -/
theorem C33_self_reference :
    ExpandVariables sampleEnv 3 (.str c!"<(x)") [(c!"x", .str c!"<(x)")] = .ok (.str c!"<(x)") ∧
    HasReference sampleEnv.space sampleEnv.sym c!"<(x)" :=
  ⟨rfl, [], [], [], [], ['x'], [], rfl, by simp, by simp, by simp, by simp⟩

example : ¬ HasReference sampleEnv.space sampleEnv.sym c!"a < (b) >(c)" := by
  rw [← findRefs_iff (by decide)]; decide
example : HasReference sampleEnv.space sampleEnv.sym c!"a<!@python( [b)" :=
  ⟨['a'], c!"!@", c!"python", [' '], c!"[b", [], rfl, by simp,
    by intro c hc; exact cmdChar_iff.mp (by revert c; decide), by decide, by decide⟩

/-! ### Undefined variables -/

theorem lookup_undefined {n : Str} {vars : Dict} (hn : n ≠ []) (h : Dict.get? vars n = none)
    (h1 : n.getLast? ≠ some '!') (h2 : n.getLast? ≠ some '/') :
    lookupVar n vars = .error (.undefined n) := by
  unfold lookupVar
  rw [h]
  simp only
  cases hl : n.getLast? with
  | none => exact absurd (List.getLast?_eq_none_iff.mp hl) hn
  | some c =>
    simp only
    rw [if_neg]
    rintro (rfl | rfl)
    · exact h1 hl
    · exact h2 hl

theorem expandMatch_undefined {env : ExpEnv} {vars : Dict} {f : Nat} {n : Str}
    (hsym : PhaseSymbol env.sym) (hg : GoodName env.space env.sym n) (hf : f ≠ 0)
    (h : Dict.get? vars n = none) (h1 : n.getLast? ≠ some '!') (h2 : n.getLast? ≠ some '/')
    (before tail : Str) :
    expandMatch env (recs env f) vars (refMatch false before.length n)
      (before ++ (TextPiece.render env.sym (.ref n) ++ tail)) = .error (.undefined n) := by
  have hspan := refSpan_ref hsym (at_ := false) (n := n) (fun c hc => (hg.2.2 c hc).1) before tail
  rw [← render_ref] at hspan
  unfold expandMatch
  rw [hspan]
  simp only
  rw [refValue_name hg hf, lookup_undefined hg.1 h h1 h2]

/-- Where a replacement at a reference goes. -/
theorem expandMatch_shape {env : ExpEnv} {vars : Dict} {r : Rec} {n : Str} {out : Val}
    (hsym : PhaseSymbol env.sym) (hg : GoodName env.space env.sym n) (before tail : Str)
    (h : expandMatch env r vars (refMatch false before.length n)
      (before ++ (TextPiece.render env.sym (.ref n) ++ tail)) = .ok out) :
    ∃ x, out = .str (before ++ x) := by
  have hspan := refSpan_ref hsym (at_ := false) (n := n) (fun c hc => (hg.2.2 c hc).1) before tail
  rw [← render_ref] at hspan
  unfold expandMatch at h
  rw [hspan] at h
  simp only at h
  split at h
  · cases h
  · split at h
    · cases h
    · have hat : (refMatch false before.length n).at_ = false := rfl
      have hst : (refMatch false before.length n).start = before.length := rfl
      rw [hat, hst, List.take_left] at h
      simp only [Bool.false_and, Bool.false_eq_true, if_false, List.append_assoc] at h
      exact ⟨_, (Except.ok.inj h).symm⟩

theorem pass_undefined {env : ExpEnv} {vars : Dict} {f : Nat} {n : Str}
    (hsym : PhaseSymbol env.sym)
    (h : Dict.get? vars n = none) (h1 : n.getLast? ≠ some '!') (h2 : n.getLast? ≠ some '/')
    (ps : List TextPiece) : ∀ (tail : Str), (∀ p ∈ ps, GoodPiece env.space env.sym p) → .ref n ∈ ps →
    ∃ e, expandMatches env (recs env f) vars (matchesOf 0 ps).reverse
      (.str (render env.sym ps ++ tail)) = .error e := by
  induction ps using List.reverseRecOn with
  | nil => intro _ _ hm; cases hm
  | append_singleton ps p ih =>
    intro tail hg hm
    have hgp := hg p (by simp)
    cases p with
    | text t =>
      have hm' : TextPiece.ref n ∈ ps := by simpa using hm
      rw [matchesOf_append 0 env.sym, render_append]
      have e : matchesOf (0 + (render env.sym ps).length) [.text t] = [] := rfl
      have e2 : render env.sym [.text t] = t := by simp [render, TextPiece.render]
      rw [e, e2, List.append_nil, List.append_assoc]
      exact ih _ (fun p hp => hg p (by simp [hp])) hm'
    | ref k =>
      rw [matchesOf_append 0 env.sym, render_append, Nat.zero_add]
      have e : matchesOf (render env.sym ps).length [.ref k] =
        [refMatch false (render env.sym ps).length k] := rfl
      have e2 : render env.sym [.ref k] = TextPiece.render env.sym (.ref k) := by simp [render]
      rw [e, e2, List.reverse_append, List.append_assoc]
      simp only [List.reverse_cons, List.reverse_nil, List.nil_append, List.singleton_append,
        expandMatches]
      cases hx : expandMatch env (recs env f) vars (refMatch false (render env.sym ps).length k)
          (render env.sym ps ++ (TextPiece.render env.sym (.ref k) ++ tail)) with
      | error e => exact ⟨e, rfl⟩
      | ok out =>
        simp only
        obtain ⟨x, rfl⟩ := expandMatch_shape hsym hgp _ _ hx
        have hne : k ≠ n := by
          rintro rfl
          by_cases hf : f = 0
          · subst hf
            have hspan := refSpan_ref hsym (at_ := false) (n := k)
              (fun c hc => (hgp.2.2 c hc).1) (render env.sym ps) tail
            rw [← render_ref] at hspan
            unfold expandMatch at hx
            rw [hspan] at hx
            simp [refValue, refMatch, recs] at hx
          · rw [expandMatch_undefined hsym hgp hf h h1 h2] at hx
            cases hx
        refine ih x (fun p hp => hg p (by simp [hp])) ?_
        rcases List.mem_append.mp hm with hm | hm
        · exact hm
        · exact absurd (by simpa using hm) hne.symm

/-- C33: a text that refers to a variable that is not defined is never expanded: there is
an error, whatever else is in the text. -/
theorem C33_undefined (env : ExpEnv) (vars : Dict)
    (hsym : env.sym = '<' ∨ env.sym = '>' ∨ env.sym = '^') (ps : List TextPiece)
    (hps : ∀ p ∈ ps, GoodPiece env.space env.sym p) (n : Str) (hn : .ref n ∈ ps)
    (h : Dict.get? vars n = none) (h1 : n.getLast? ≠ some '!') (h2 : n.getLast? ≠ some '/')
    (fuel : Nat) : ∃ e, ExpandVariables env fuel (.str (render env.sym ps)) vars = .error e := by
  cases fuel with
  | zero => exact ⟨_, rfl⟩
  | succ f =>
    have hr : refNames ps ≠ [] := by
      clear h h1 h2 hps
      induction ps with
      | nil => cases hn
      | cons p ps ih =>
        cases p with
        | text t => exact ih (by simpa using hn)
        | ref k => simp [refNames]
    have hs := refs_sym (sym := env.sym) hr
    obtain ⟨e, he⟩ := pass_undefined (f := f) hsym h h1 h2 ps [] hps hn
    rw [List.append_nil] at he
    refine ⟨e, ?_⟩
    change expandStep env (recs env f) (.str (render env.sym ps)) vars = _
    rw [expandStep_str, if_neg (by rw [sym_not_number hsym hs]; simp), if_neg (by simpa using hs),
      findRefs_render ps hps 0, if_neg (fun h => hr (matchesOf_nil.mp h)), he]

/-- C33: the error names the variable (for a text with this reference and no other after
it: references are looked up from the right). -/
theorem C33_undefined_named (env : ExpEnv) (vars : Dict)
    (hsym : env.sym = '<' ∨ env.sym = '>' ∨ env.sym = '^') (ps : List TextPiece)
    (hps : ∀ p ∈ ps, GoodPiece env.space env.sym p) (n t : Str)
    (hn : GoodName env.space env.sym n) (ht : env.sym ∉ t)
    (h : Dict.get? vars n = none) (h1 : n.getLast? ≠ some '!') (h2 : n.getLast? ≠ some '/')
    (fuel : Nat) (hf : 2 ≤ fuel) :
    ExpandVariables env fuel (.str (render env.sym (ps ++ [.ref n, .text t]))) vars =
      .error (.undefined n) := by
  obtain ⟨f, rfl⟩ : ∃ f, fuel = f + 2 := ⟨fuel - 2, by omega⟩
  have hg : ∀ p ∈ ps ++ [.ref n, .text t], GoodPiece env.space env.sym p := by
    intro p hp
    rcases List.mem_append.mp hp with hp | hp
    · exact hps p hp
    · rcases List.mem_cons.mp hp with rfl | hp
      · exact hn
      · rw [List.mem_singleton.mp hp]; exact ht
  have hm : matchesOf 0 (ps ++ [.ref n, .text t]) =
      matchesOf 0 ps ++ [refMatch false (render env.sym ps).length n] := by
    rw [matchesOf_append 0 env.sym, Nat.zero_add]; rfl
  have hs : env.sym ∈ render env.sym (ps ++ [.ref n, .text t]) := by
    rw [render_append, render_cons]; simp [TextPiece.render]
  have hr : render env.sym (ps ++ [.ref n, .text t]) =
      render env.sym ps ++ (TextPiece.render env.sym (.ref n) ++ t) := by
    rw [render_append]; simp [render, TextPiece.render]
  change expandStep env (recs env (f + 1)) _ vars = _
  rw [expandStep_str, if_neg (by rw [sym_not_number hsym hs]; simp), if_neg (by simpa using hs),
    findRefs_render _ hg 0, hm, if_neg (by simp), List.reverse_append]
  simp only [List.reverse_cons, List.reverse_nil, List.nil_append, List.singleton_append, expandMatches]
  rw [hr, expandMatch_undefined hsym hn (by omega) h h1 h2]

/-- C33: only the names of exclusion lists (ending in `!` or `/`) may be undefined: they
stand for the empty list. -/
theorem C33_exclusion_list (env : ExpEnv) (vars : Dict)
    (hsym : env.sym = '<' ∨ env.sym = '>' ∨ env.sym = '^') (n : Str)
    (hn : GoodName env.space env.sym n) (h : Dict.get? vars n = none)
    (hlast : n.getLast? = some '!' ∨ n.getLast? = some '/') (fuel : Nat) (hf : 3 ≤ fuel) :
    ExpandVariables env fuel (.str (renderSplice env.sym n)) vars = .ok (.list []) := by
  obtain ⟨f, rfl⟩ : ∃ f, fuel = f + 3 := ⟨fuel - 3, by omega⟩
  have hl : lookupVar n vars = .ok (.list []) := by
    unfold lookupVar
    rw [h]
    rcases hlast with hl | hl <;> rw [hl] <;> simp
  have hspan := refSpan_ref hsym (at_ := true) (n := n) (fun c hc => (hn.2.2 c hc).1) [] []
  rw [← splice_open] at hspan
  have htext : refOpen env.sym true ++ '(' :: (n ++ [')']) = renderSplice env.sym n := by
    simp [renderSplice, refOpen]
  rw [htext] at hspan
  have hs : env.sym ∈ renderSplice env.sym n := by simp [renderSplice]
  have hmatch : expandMatch env (recs env (f + 2)) vars (refMatch true 0 n) (renderSplice env.sym n) =
      .ok (.list []) := by
    unfold expandMatch
    have e0 : refMatch true 0 n = refMatch true ([] : Str).length n := rfl
    rw [e0, hspan]
    simp only
    rw [refValue_name hn (by omega), hl]
    simp only
    rw [check_list hn.1 (by simp) (show (recs env (f + 2)).procList [] vars = .ok [] from rfl)]
    have hat : (refMatch true ([] : Str).length n).at_ = true := rfl
    rw [hat]
    simp
  change expandStep env (recs env (f + 2)) _ vars = _
  rw [expandStep_str, if_neg (by rw [sym_not_number hsym hs]; simp), if_neg (by simpa using hs),
    findRefs_splice hn, if_neg (by simp)]
  simp only [List.reverse_cons, List.reverse_nil, List.nil_append, expandMatches]
  rw [hmatch]
  rfl

/-! ### Lists where no list may be -/

theorem expand_splice_list {env : ExpEnv} {vars : Dict} {r : Rec} {n : Str} {v : Val}
    (hsym : PhaseSymbol env.sym) (hn : GoodName env.space env.sym n)
    (h : expandStep env r (.str (renderSplice env.sym n)) vars = .ok v) : ∃ l, v = .list l := by
  have hspan := refSpan_ref hsym (at_ := true) (n := n) (fun c hc => (hn.2.2 c hc).1) [] []
  rw [← splice_open] at hspan
  have htext : refOpen env.sym true ++ '(' :: (n ++ [')']) = renderSplice env.sym n := by
    simp [renderSplice, refOpen]
  rw [htext] at hspan
  have hs : env.sym ∈ renderSplice env.sym n := by simp [renderSplice]
  have hmatch : ∀ out, expandMatch env r vars (refMatch true 0 n) (renderSplice env.sym n) = .ok out →
      ∃ l, out = .list l := by
    intro out ho
    unfold expandMatch at ho
    have e0 : refMatch true 0 n = refMatch true ([] : Str).length n := rfl
    rw [e0, hspan] at ho
    simp only at ho
    have hat : (refMatch true ([] : Str).length n).at_ = true := rfl
    rw [hat] at ho
    split at ho
    · cases ho
    · split at ho
      · cases ho
      · simp only [Bool.true_and, decide_true, if_true] at ho
        split at ho
        · exact ⟨_, (Except.ok.inj ho).symm⟩
        · split at ho
          · cases ho
          · exact ⟨_, (Except.ok.inj ho).symm⟩
  rw [expandStep_str, if_neg (by rw [sym_not_number hsym hs]; simp), if_neg (by simpa using hs),
    findRefs_splice hn, if_neg (by simp)] at h
  simp only [List.reverse_cons, List.reverse_nil, List.nil_append, expandMatches] at h
  split at h
  · cases h
  · rename_i out hout
    have : ∃ l, out = .list l := by
      cases hx : expandMatch env r vars (refMatch true 0 n) (renderSplice env.sym n) with
      | error e => rw [hx] at hout; cases hout
      | ok o =>
        rw [hx] at hout
        cases hout
        exact hmatch _ hx
    obtain ⟨l, rfl⟩ := this
    simp only [expandAgain] at h
    split at h
    · cases h
    · rename_i w hw
      split at hw
      · cases hw
        exact ⟨_, (Except.ok.inj h).symm⟩
      · split at hw
        · cases hw
        · cases hw
          exact ⟨_, (Except.ok.inj h).symm⟩

theorem procVariables_get {r : Rec} {vars d vars1 d1 : Dict}
    (h : procVariables r vars d = .ok (vars1, d1)) {k : Str} (hk : k ≠ c!"variables") :
    Dict.get? d1 k = Dict.get? d k := by
  unfold procVariables at h
  split at h
  · cases h; rfl
  · simp only at h
    split at h
    · cases h
    · cases h
      exact Dict.get?_set_ne _ _ hk
  · cases h

/-- C33: a setting that must be a single value cannot be `<@(name)`: there is an error
whatever the variable is. -/
theorem C33_list_in_scalar (env : ExpEnv) (vars d : Dict) (key : Option Str)
    (hsym : env.sym = '<' ∨ env.sym = '>' ∨ env.sym = '^') (k n : Str)
    (hn : GoodName env.space env.sym n) (hk : k ≠ c!"variables")
    (hd : Dict.get? d k = some (.str (renderSplice env.sym n))) (fuel : Nat) :
    ∃ e, ProcessVariablesAndConditionsInDict env fuel key vars d = .error e := by
  cases fuel with
  | zero => exact ⟨_, rfl⟩
  | succ f =>
    cases hx : ProcessVariablesAndConditionsInDict env (f + 1) key vars d with
    | error e => exact ⟨e, rfl⟩
    | ok d' =>
      exfalso
      have hx : procDictStep env (recs env f) key vars d = .ok d' := hx
      unfold procDictStep at hx
      split at hx
      · cases hx
      · rename_i vars1 d1 h1
        split at hx
        · cases hx
        · rename_i vars2 h2
          split at hx
          · cases hx
          · rename_i d2 h3
            have hm := Dict.get?_some_mem ((procVariables_get h1 hk).trans hd)
            obtain ⟨e, he⟩ : ∃ e, expandEntry (recs env f) vars2 (k, .str (renderSplice env.sym n)) = .ok e := by
              have := mapM_ok h3
              clear h3 hx h2 h1
              induction this with
              | nil => cases hm
              | cons h t ih =>
                rcases List.mem_cons.mp hm with rfl | hm
                · exact ⟨_, h⟩
                · exact ih hm
            unfold expandEntry at he
            simp only [hk, if_false] at he
            split at he
            · cases he
            · rename_i v hv
              cases f with
              | zero => cases hv
              | succ f =>
                obtain ⟨l, rfl⟩ := expand_splice_list hsym hn hv
                simp [Val.isScalar] at he

example : ProcessVariablesAndConditionsInDict sampleEnv 5 none sampleVars
    [(c!"type", .str c!"<@(m)")] = .error .notScalar := rfl
example : ProcessVariablesAndConditionsInDict sampleEnv 6 none sampleVars
    [(c!"type", .str c!"-<@(m)"), (c!"sources", .list [.str c!"<@(m)", .str c!"<(a)"])] =
    .ok [(c!"type", .str c!"-q 7"), (c!"sources", .list [.str c!"q", .int 7, .str c!"x7"])] := rfl
example : ExpandVariables sampleEnv 5 (.str c!"<(b)<(zz)") sampleVars = .error (.undefined c!"zz") := rfl
example : ExpandVariables sampleEnv 5 (.str c!"<@(zz!)") sampleVars = .ok (.list []) := rfl

/-! ### The variables of a dictionary in use -/

/-- A value in which there is nothing to expand. -/
def LiteralScalar (sym : Char) : Val → Prop
  | .int _ => True
  | .str s => sym ∉ s ∧ ¬ ∃ i : Int, s = intStr i
  | _ => False

theorem literal_expand {env : ExpEnv} {f : Nat} {vars : Dict} {s : Str}
    (h : LiteralScalar env.sym (.str s)) : (recs env (f + 1)).expand (.str s) vars = .ok (.str s) := by
  have := expandStep_plain (r := recs env f) (vars := vars) h.1
  rw [toInt_str, if_neg (fun h' => h.2 ((canonical_iff s).mp h'))] at this
  exact this

theorem mapM_id {α ε : Type} {f : α → Except ε α} : ∀ {l : List α}, (∀ a ∈ l, f a = .ok a) → l.mapM f = .ok l
  | [], _ => rfl
  | a :: l, h => by
    rw [List.mapM_cons, h a (by simp)]
    have ih : l.mapM f = .ok l := mapM_id fun b hb => h b (List.mem_cons_of_mem _ hb)
    simp only [bind, Except.bind, ih]
    rfl

/-- A section of literals is left as it is. -/
theorem literal_section {env : ExpEnv} {f : Nat} {key : Option Str} {vars vs : Dict}
    (hv : ∀ e ∈ vs, LiteralScalar env.sym e.2 ∧ e.1 ≠ c!"variables" ∧ env.condKey ≠ some e.1) :
    procDictStep env (recs env (f + 1)) key vars vs = .ok vs := by
  have hnv : Dict.get? vs c!"variables" = none := by
    rw [Dict.get?_eq_none]
    intro h
    obtain ⟨e, he, hk⟩ := List.mem_map.mp h
    exact (hv e he).2.1 hk
  have hload : ∀ vars, LoadVariablesFromVariablesDict vars vs key = .ok vars :=
    fun vars => C32_no_section vars vs key hnv
  have h1 : ∀ vars, vs.mapM (expandEntry (recs env (f + 1)) vars) = .ok vs := by
    intro vars
    apply mapM_id
    rintro ⟨k, v⟩ he
    obtain ⟨h1, h2, _⟩ := hv _ he
    cases v with
    | int i => rfl
    | str s =>
      simp only [expandEntry]
      rw [if_neg h2, literal_expand h1]
      rfl
    | _ => exact absurd h1 id
  have h2 : ∀ vars, vs.mapM (procEntry (recs env (f + 1)) vars) = .ok vs := by
    intro vars
    apply mapM_id
    rintro ⟨k, v⟩ he
    obtain ⟨h1, h2, _⟩ := hv _ he
    simp only at h2
    cases v with
    | int i => simp [procEntry, h2]
    | str s => simp [procEntry, h2]
    | _ => exact absurd h1 id
  have h3 : ∀ vars, ProcessConditionsInDict env (recs env (f + 1)) vars vs = .ok vs := by
    intro vars
    apply C31_no_section
    intro c hc
    rw [Dict.get?_eq_none]
    intro h
    obtain ⟨e, he, hk⟩ := List.mem_map.mp h
    exact (hv e he).2.2 (by rw [hc, hk])
  unfold procDictStep
  simp only [procVariables, hnv, scopeOf, hload, h1, h2, h3]

theorem mapM_get {f : Str × Val → Except ExpErr (Str × Val)} (hf : ∀ e e', f e = .ok e' → e'.1 = e.1) :
    ∀ {d d' : Dict}, d.mapM f = .ok d' → ∀ k,
    (Dict.get? d k = none → Dict.get? d' k = none) ∧
    ∀ v, Dict.get? d k = some v → ∃ v', f (k, v) = .ok (k, v') ∧ Dict.get? d' k = some v'
  | [], d', h, k => by
    cases h
    exact ⟨fun _ => rfl, fun v hv => by cases hv⟩
  | (k0, v0) :: d, d', h, k => by
    rw [List.mapM_cons] at h
    cases h1 : f (k0, v0) with
    | error e => rw [h1] at h; cases h
    | ok e' =>
      rw [h1] at h
      cases h2 : d.mapM f with
      | error e => simp [bind, Except.bind, h2] at h
      | ok ds =>
        have : d' = e' :: ds := by
          simp only [bind, Except.bind, h2] at h
          cases h; rfl
        subst this
        obtain ⟨k1, v1⟩ := e'
        have hk1 : k1 = k0 := hf _ _ h1
        subst hk1
        have ih := mapM_get hf h2 k
        by_cases hk : k1 = k
        · subst hk
          refine ⟨fun h => ?_, fun v hv => ?_⟩
          · simp [Dict.get?] at h
          · have : v0 = v := by simpa [Dict.get?] using hv
            subst this
            exact ⟨v1, h1, by simp [Dict.get?]⟩
        · simp only [Dict.get?, if_neg hk]
          exact ih

theorem expandEntry_key {r : Rec} {vars : Dict} : ∀ e e', expandEntry r vars e = .ok e' → e'.1 = e.1 := by
  rintro ⟨k, v⟩ e' h
  simp only [expandEntry] at h
  split at h
  · split at h
    · cases h; rfl
    · split at h
      · cases h
      · split at h
        · cases h; rfl
        · cases h
  · cases h; rfl

theorem procEntry_key {r : Rec} {vars : Dict} : ∀ e e', procEntry r vars e = .ok e' → e'.1 = e.1 := by
  rintro ⟨k, v⟩ e' h
  simp only [procEntry] at h
  split at h
  · cases h; rfl
  · split at h
    · cases h; rfl
    · cases h; rfl
    · split at h <;> cases h; rfl
    · split at h <;> cases h; rfl
    · cases h

theorem foldl_set_other {x : Str} : ∀ {vs vars : Dict}, x ∉ vs.keys →
    Dict.get? (vs.foldl (fun vars e => Dict.set vars e.1 e.2) vars) x = Dict.get? vars x
  | [], _, _ => rfl
  | e :: vs, vars, h => by
    rw [List.foldl_cons, foldl_set_other (fun h' => h (List.mem_cons_of_mem _ h'))]
    exact Dict.get?_set_ne _ _ (fun h' => h (by rw [h']; exact List.mem_cons_self))

/-- The value of a reference in a dictionary. -/
theorem dict_reference {env : ExpEnv} {vars d vs d' : Dict} {key : Option Str} {k x : Str} {v : Val}
    (hsym : PhaseSymbol env.sym) (hd : Dict.get? d c!"variables" = some (.dict vs))
    (hvs : ∀ e ∈ vs, LiteralScalar env.sym e.2 ∧ e.1 ≠ c!"variables" ∧ env.condKey ≠ some e.1)
    (hcond : ∀ c, env.condKey = some c → Dict.get? d c = none)
    (hk : Dict.get? d k = some (.str (env.sym :: '(' :: (x ++ [')'])))) (hkv : k ≠ c!"variables")
    (hx : GoodName env.space env.sym x) (hv : LiteralScalar env.sym v) {fuel : Nat} (hf : 5 ≤ fuel)
    (h : ProcessVariablesAndConditionsInDict env fuel key vars d = .ok d')
    (hscope : ∀ scope, LoadVariablesFromVariablesDict (vs.foldl (fun vars e => Dict.set vars e.1 e.2)
      (LoadAutomaticVariablesFromDict vars d)) d key = .ok scope → Dict.get? scope x = some v) :
    Dict.get? d' k = some v := by
  obtain ⟨f, rfl⟩ : ∃ f, fuel = f + 5 := ⟨fuel - 5, by omega⟩
  have h : procDictStep env (recs env (f + 4)) key vars d = .ok d' := h
  have hset : Dict.set d c!"variables" (.dict vs) = d := by
    have : ∀ (d : Dict) (k : Str) (v : Val), Dict.get? d k = some v → Dict.set d k v = d := by
      intro d k v
      induction d with
      | nil => intro h; cases h
      | cons e d ih =>
        obtain ⟨k', v'⟩ := e
        intro h
        unfold Dict.set
        unfold Dict.get? at h
        by_cases hk : k' = k
        · rw [if_pos hk] at h ⊢
          cases h; rw [hk]
        · rw [if_neg hk] at h ⊢
          rw [ih h]
    exact this d _ _ hd
  unfold procDictStep at h
  have hsec : (recs env (f + 4)).procDict (some c!"variables")
      (vs.foldl (fun vars e => Dict.set vars e.1 e.2) (LoadAutomaticVariablesFromDict vars d)) vs = .ok vs :=
    literal_section (f := f + 2) hvs
  simp only [procVariables, hd] at h
  rw [hsec] at h
  simp only [hset] at h
  split at h
  · cases h
  · rename_i scope hs
    have hsv := hscope scope hs
    split at h
    · cases h
    · rename_i d2 h2
      obtain ⟨v', he, hg2⟩ := (mapM_get expandEntry_key h2 k).2 _ hk
      have hexp : (recs env (f + 4)).expand (.str (env.sym :: '(' :: (x ++ [')']))) scope = .ok v := by
        let tbl : Str → Option Template := fun n =>
          if n = x then some (.scalar [.text (env.strOf v)]) else none
        have hnosym : env.sym ∉ env.strOf v := by
          cases v with
          | str s => exact hv.1
          | int i => exact intStr_no_sym hsym i
          | _ => exact absurd hv id
        obtain ⟨v2, hr, hE⟩ := C33_text env scope tbl hsym
          (by
            intro n t ht
            simp only [tbl] at ht
            split at ht
            · cases ht
              intro p hp
              rw [List.mem_singleton.mp hp]
              exact hnosym
            · cases ht)
          (by
            intro n t ht
            simp only [tbl] at ht
            split at ht
            · rename_i hn
              cases ht
              subst hn
              refine ⟨v, hsv, ?_⟩
              cases v with
              | str s => left; simp [render, TextPiece.render, ExpEnv.strOf]
              | int i => right; exact ⟨i, rfl, rfl⟩
              | _ => exact absurd hv id
            · cases ht)
          [.ref x] (by intro p hp; rw [List.mem_singleton.mp hp]; exact hx) 1 (env.strOf v)
          (by
            refine textMeaning_cons.mpr ⟨env.strOf v, [], ?_, rfl, by simp⟩
            simp only [TextPiece.meaning, varMeaning, tbl, if_true]
            rw [show textMeaning EncodePOSIXShellList (fun _ => none)
              [TextPiece.text (env.strOf v)] = some (env.strOf v) from
              textMeaning_cons.mpr ⟨env.strOf v, [], rfl, rfl, by simp⟩]
            rfl)
          (f + 4) (by omega)
        have e : render env.sym [.ref x] = env.sym :: '(' :: (x ++ [')']) := by simp [render, TextPiece.render]
        rw [e] at hE
        have : v2 = v := by
          rw [reads_toInt hr]
          cases v with
          | str s =>
            simp only [ExpEnv.strOf]
            rw [toInt_str, if_neg (fun h' => hv.2 ((canonical_iff s).mp h'))]
          | int i =>
            simp only [ExpEnv.strOf]
            rw [toInt_str, if_pos ((canonical_iff _).mpr ⟨i, rfl⟩), (C30_roundtrip _ i rfl).1]
          | _ => exact absurd hv id
        rw [← this]
        exact hE
      have hv' : v' = v := by
        simp only [expandEntry] at he
        rw [if_neg hkv, hexp] at he
        simp only at he
        split at he
        · cases he; rfl
        · cases he
      subst hv'
      split at h
      · cases h
      · rename_i vars3 _
        have hc : ProcessConditionsInDict env (recs env (f + 4)) vars3 d2 = .ok d2 := by
          apply C31_no_section
          intro c hc
          exact (mapM_get expandEntry_key h2 c).1 (hcond c hc)
        rw [hc] at h
        simp only at h
        split at h
        · cases h
        · obtain ⟨v2, h5, h6⟩ := (mapM_get procEntry_key h k).2 _ hg2
          have : v2 = v' := by
            simp only [procEntry, if_neg hkv] at h5
            cases v' with
            | str s => cases h5; rfl
            | int i => cases h5; rfl
            | _ => exact absurd hv id
          rw [h6, this]

/-- C32 in use: in a dictionary with a `variables` section of literals, the setting
`<(x)` becomes the value that the section gives to `x`, whatever `x` is outside and whatever
defaults there are. -/
theorem C32_setting_own (env : ExpEnv) (vars d vs d' : Dict) (key : Option Str) (k x : Str) (v : Val)
    (hsym : env.sym = '<' ∨ env.sym = '>' ∨ env.sym = '^')
    (hd : Dict.get? d c!"variables" = some (.dict vs)) (hn : vs.keys.Nodup)
    (hvs : ∀ e ∈ vs, LiteralScalar env.sym e.2 ∧ e.1 ≠ c!"variables" ∧ env.condKey ≠ some e.1)
    (hcond : ∀ c, env.condKey = some c → Dict.get? d c = none)
    (hk : Dict.get? d k = some (.str (env.sym :: '(' :: (x ++ [')'])))) (hkv : k ≠ c!"variables")
    (hx : GoodName env.space env.sym x) (hxp : ∀ n, x ≠ n ++ ['%'])
    (hown : Dict.get? vs x = some v) (fuel : Nat) (hf : 5 ≤ fuel)
    (h : ProcessVariablesAndConditionsInDict env fuel key vars d = .ok d') :
    Dict.get? d' k = some v := by
  have hv := (hvs _ (Dict.get?_some_mem hown)).1
  refine dict_reference hsym hd hvs hcond hk hkv hx hv hf h fun scope hs => ?_
  refine C32_own _ d vs scope key x v hd hn hxp ⟨hown, ?_⟩ hs
  cases v <;> first | trivial | exact absurd hv id

/-- C32 in use: without a value in the section, the setting becomes the value from the
enclosing scope; a default in the section does not count. -/
theorem C32_setting_enclosing (env : ExpEnv) (vars d vs d' : Dict) (key : Option Str) (k x : Str) (v : Val)
    (hsym : env.sym = '<' ∨ env.sym = '>' ∨ env.sym = '^')
    (hd : Dict.get? d c!"variables" = some (.dict vs)) (hn : vs.keys.Nodup) (hdn : d.keys.Nodup)
    (hvs : ∀ e ∈ vs, LiteralScalar env.sym e.2 ∧ e.1 ≠ c!"variables" ∧ env.condKey ≠ some e.1)
    (hcond : ∀ c, env.condKey = some c → Dict.get? d c = none)
    (hk : Dict.get? d k = some (.str (env.sym :: '(' :: (x ++ [')'])))) (hkv : k ≠ c!"variables")
    (hx : GoodName env.space env.sym x) (hauto : x.head? ≠ some '_')
    (hown : Dict.get? vs x = none) (hout : Dict.get? vars x = some v) (hv : LiteralScalar env.sym v)
    (fuel : Nat) (hf : 5 ≤ fuel)
    (h : ProcessVariablesAndConditionsInDict env fuel key vars d = .ok d') :
    Dict.get? d' k = some v := by
  refine dict_reference hsym hd hvs hcond hk hkv hx hv hf h fun scope hs => ?_
  refine C32_enclosing _ d vs scope key x v hd hn ?_ ?_ hs
  · rw [foldl_set_other ((Dict.get?_eq_none _ _).mp hown), C32_automatic_only _ _ hdn, hout]
    rintro k v _ rfl
    exact hauto rfl
  · rintro w ⟨hw, _⟩
    rw [hown] at hw
    cases hw

/-- C32 in use: with a value neither in the section nor outside, the setting becomes the
default. -/
theorem C32_setting_default (env : ExpEnv) (vars d vs d' : Dict) (key : Option Str) (k x : Str) (v : Val)
    (hsym : env.sym = '<' ∨ env.sym = '>' ∨ env.sym = '^')
    (hd : Dict.get? d c!"variables" = some (.dict vs)) (hn : vs.keys.Nodup) (hdn : d.keys.Nodup)
    (hvs : ∀ e ∈ vs, LiteralScalar env.sym e.2 ∧ e.1 ≠ c!"variables" ∧ env.condKey ≠ some e.1)
    (hcond : ∀ c, env.condKey = some c → Dict.get? d c = none)
    (hk : Dict.get? d k = some (.str (env.sym :: '(' :: (x ++ [')'])))) (hkv : k ≠ c!"variables")
    (hx : GoodName env.space env.sym x) (hauto : x.head? ≠ some '_') (hkey : key ≠ some c!"variables")
    (hown : Dict.get? vs x = none) (hout : Dict.get? vars x = none)
    (hdef : Dict.get? vs (x ++ ['%']) = some v) (fuel : Nat) (hf : 5 ≤ fuel)
    (h : ProcessVariablesAndConditionsInDict env fuel key vars d = .ok d') :
    Dict.get? d' k = some v := by
  have hv := (hvs _ (Dict.get?_some_mem hdef)).1
  refine dict_reference hsym hd hvs hcond hk hkv hx hv hf h fun scope hs => ?_
  have hvv : VariableValue v := by cases v <;> first | trivial | exact absurd hv id
  rw [C32_default _ d vs scope key x v hd hn ?_ ?_ ⟨hdef, hvv⟩ hs, if_neg (fun h => hkey h.1)]
  · rw [foldl_set_other ((Dict.get?_eq_none _ _).mp hown), C32_automatic_only _ _ hdn, hout]
    rintro k v _ rfl
    exact hauto rfl
  · rintro w ⟨hw, _⟩
    rw [hown] at hw
    cases hw

/-- All three at once; `a` has a value outside and a default, `b` only a default, `c` a
value and a default in the section. -/
example : ProcessVariablesAndConditionsInDict sampleEnv 5 none [(c!"a", .str c!"outer")]
    [(c!"variables", .dict [(c!"a%", .str c!"da"), (c!"b%", .str c!"db"), (c!"c%", .str c!"dc"),
       (c!"c", .int 3)]),
     (c!"x", .str c!"<(a)"), (c!"y", .str c!"<(b)"), (c!"z", .str c!"<(c)")] =
    .ok [(c!"variables", .dict [(c!"a%", .str c!"da"), (c!"b%", .str c!"db"), (c!"c%", .str c!"dc"),
       (c!"c", .int 3)]),
     (c!"x", .str c!"outer"), (c!"y", .str c!"db"), (c!"z", .int 3)] := rfl

/-- Conditions are evaluated after the strings are expanded and before the lists. -/
example : ProcessVariablesAndConditionsInDict sampleEnv 6 none [(c!"ans", .str c!"yes")]
    [(c!"sources", .list [.str c!"a"]),
     (c!"conditions", .list [.list [.str c!"<(ans)", .dict [(c!"sources", .list [.str c!"b"])],
       .dict [(c!"sources", .list [.str c!"c"])]]])] =
    .ok [(c!"sources", .list [.str c!"a", .str c!"b"])] := rfl

end Gyp
