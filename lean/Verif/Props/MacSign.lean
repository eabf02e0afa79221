import Verif.Model.MacSign
import Verif.Spec.MacSign
import Verif.Props.MsvsCygwin
/-
C120: property lists and signing.
-/
namespace Gyp
open Spec

theorem get_put (d : PDict) (k x : Str) (v : Plist) : (d.put k v).get x = if x = k then some v else d.get x := by
  match d with
  | .nil => rfl
  | .cons a w d =>
    unfold PDict.put
    by_cases h : k = a
    · subst h
      rw [if_pos rfl]
      by_cases hx : x = k <;> simp [PDict.get, hx]
    · rw [if_neg h]
      unfold PDict.get
      rw [get_put d k x v]
      by_cases hx : x = a
      · subst hx
        rw [if_pos rfl, if_pos rfl, if_neg (Ne.symm h)]
      · rw [if_neg hx, if_neg hx]

theorem get_merge : ∀ (p m : PDict), DictWellFormed p → ∀ x, (mergePlist m p).get x =
    match p.get x with
    | none => m.get x
    | some v => some (mergeValue (m.get x) v)
  | .nil, m, _, x => by simp [mergePlist, PDict.get]
  | .cons k v d, m, h, x => by
    unfold DictWellFormed at h
    obtain ⟨h1, -, h3⟩ := h
    unfold mergePlist
    rw [get_merge d _ h3 x, get_put]
    by_cases hx : x = k
    · subst hx
      rw [h1]
      simp [PDict.get]
    · rw [if_neg hx]
      have e : (PDict.cons k v d).get x = d.get x := by simp [PDict.get, hx]
      rw [e]

theorem wellFormed_get : ∀ {p : PDict} {k : Str} {v : Plist}, DictWellFormed p → p.get k = some v → WellFormed v
  | .nil, _, _, _, h => by cases h
  | .cons a w d, k, v, hw, h => by
    unfold DictWellFormed at hw
    unfold PDict.get at h
    by_cases hk : k = a
    · rw [if_pos hk] at h
      cases h
      exact hw.2.1
    · rw [if_neg hk] at h
      exact wellFormed_get hw.2.2 h

theorem settingAt_nil (path : List Str) : settingAt .nil path = none := by
  cases path <;> rfl

/-- C120: of two property lists merged, the settings of the second stay; one of the first stays
exactly if the second says nothing about its path. -/
theorem C120_merge_two : ∀ (path : List Str) (m p : PDict), DictWellFormed p →
    settingAt (mergePlist m p) path =
      if saysSomething p path = true then settingAt p path else settingAt m path
  | [], m, p, _ => by simp [settingAt, saysSomething]
  | k :: path, m, p, hw => by
    conv_lhs => unfold settingAt
    rw [get_merge p m hw k]
    conv_rhs => unfold saysSomething
    cases hp : p.get k with
    | none => simp only [Bool.false_eq_true, if_false]; rw [settingAt]
    | some v =>
      have hv := wellFormed_get hw hp
      cases v with
      | dict d =>
        have hd : DictWellFormed d := by unfold WellFormed at hv; exact hv
        have e1 : settingAt p (k :: path) = settingAt d path := by rw [settingAt, hp]
        rw [e1]
        cases hm : m.get k with
        | none =>
          have e2 : settingAt m (k :: path) = none := by rw [settingAt, hm]
          simp only [mergeValue, e2]
          rw [C120_merge_two path .nil d hd, settingAt_nil]
        | some w =>
          cases w with
          | dict c =>
            have e2 : settingAt m (k :: path) = settingAt c path := by rw [settingAt, hm]
            simp only [mergeValue, e2]
            exact C120_merge_two path c d hd
          | str s =>
            have e2 : settingAt m (k :: path) = if path = [] then some (.str s) else none := by rw [settingAt, hm]
            simp only [mergeValue, e2]
            exact says_alone d path _
          | scalar s =>
            have e2 : settingAt m (k :: path) = if path = [] then some (.scalar s) else none := by rw [settingAt, hm]
            simp only [mergeValue, e2]
            exact says_alone d path _
          | list s =>
            have e2 : settingAt m (k :: path) = if path = [] then some (.list s) else none := by rw [settingAt, hm]
            simp only [mergeValue, e2]
            exact says_alone d path _
      | str s => simp [mergeValue, settingAt, hp]
      | scalar s => simp [mergeValue, settingAt, hp]
      | list s => simp [mergeValue, settingAt, hp]
where
  says_none : ∀ (path : List Str) (d : PDict), saysSomething d path = false → settingAt d path = none
    | [], _, _ => by simp [settingAt]
    | k :: path, d, h => by
      unfold saysSomething at h
      unfold settingAt
      cases hg : d.get k with
      | none => rfl
      | some v =>
        rw [hg] at h
        cases v with
        | dict c => exact says_none path c h
        | str s => cases h
        | scalar s => cases h
        | list s => cases h
  says_alone (d : PDict) (path : List Str) (x : Plist) : settingAt d path =
      if saysSomething d path = true then settingAt d path else if path = [] then some x else none := by
    by_cases h : saysSomething d path = true
    · rw [if_pos h]
    · rw [if_neg h]
      have hb : saysSomething d path = false := by simpa using h
      rw [says_none path d hb, if_neg]
      rintro rfl
      simp [saysSomething] at h

/-- C120: of many property lists merged, a setting is that of the last one that says something
about its path. -/
theorem C120_merge (files : List PDict) (path : List Str) (hw : ∀ p ∈ files, DictWellFormed p) :
    settingAt (mergeInfoPlists files) path =
      ((files.reverse.find? fun p => saysSomething p path).bind fun p => settingAt p path) := by
  unfold mergeInfoPlists
  rw [← List.foldr_reverse]
  have hr : ∀ p ∈ files.reverse, DictWellFormed p := fun p hp => hw p (List.mem_reverse.mp hp)
  revert hr
  generalize files.reverse = l
  intro hr
  induction l with
  | nil => simp [settingAt_nil]
  | cons p l ih =>
    rw [List.foldr_cons, C120_merge_two path _ p (hr p (List.mem_cons_self ..)),
      ih fun q hq => hr q (List.mem_cons_of_mem _ hq), List.find?_cons]
    cases saysSomething p path <;> simp

/-! ### Entitlements -/

theorem ref_prefix : ∀ {k n r : Str}, ')' ∉ k → ')' ∉ n → (k ++ c!")").isPrefixOf (n ++ (c!")" ++ r)) = true → k = n
  | [], [], _, _, _, _ => rfl
  | [], b :: n, r, _, hn, h => by
    simp only [List.nil_append, List.cons_append, List.isPrefixOf_cons_cons, Bool.and_eq_true, beq_iff_eq] at h
    exact absurd (List.mem_cons.mpr (.inl h.1)) hn
  | a :: k, [], r, hk, _, h => by
    simp only [List.nil_append, List.cons_append, List.isPrefixOf_cons_cons, Bool.and_eq_true, beq_iff_eq] at h
    exact absurd (List.mem_cons.mpr (.inl h.1.symm)) hk
  | a :: k, b :: n, r, hk, hn, h => by
    simp only [List.cons_append, List.isPrefixOf_cons_cons, Bool.and_eq_true, beq_iff_eq] at h
    obtain ⟨rfl, h⟩ := h
    rw [ref_prefix (fun hm => hk (List.mem_cons_of_mem _ hm)) (fun hm => hn (List.mem_cons_of_mem _ hm)) h]

/-- One variable put in. -/
def putIn (k v : Str) : SignPiece → SignPiece
  | .text s => .text s
  | .var n => if n = k then .text v else .var n

theorem putIn_var (k v n : Str) : putIn k v (.var n) = if n = k then .text v else .var n := rfl

theorem replace_putIn {k v : Str} (hk : ')' ∉ k) {ps : List SignPiece} (hp : ∀ p ∈ ps, p.Plain) :
    replaceStr (c!"$(" ++ k ++ c!")") v (ps.flatMap SignPiece.written) =
      (ps.map (putIn k v)).flatMap SignPiece.written := by
  rw [List.flatMap_map]
  apply replaceStr_pieces
  intro p hpm r
  cases p with
  | text s => exact replaceStr_skip rfl (hp _ hpm) r
  | var n =>
    have hn := hp _ hpm
    rw [putIn_var]
    by_cases h : n = k
    · subst h
      rw [if_pos rfl]
      exact replaceStr_here (by simp)
    · rw [if_neg h]
      have e : SignPiece.written (.var n) = '$' :: (c!"(" ++ n ++ c!")") := rfl
      rw [e]
      refine replaceStr_other rfl ?_ ?_
      · intro hm
        simp at hm
        exact hn.1 hm
      · cases hb : (c!"$(" ++ k ++ c!")").isPrefixOf ('$' :: (c!"(" ++ n ++ c!")" ++ r)) with
        | false => rfl
        | true =>
          have : (k ++ c!")").isPrefixOf (n ++ (c!")" ++ r)) = true := by
            simpa [List.isPrefixOf_cons_cons] using hb
          exact absurd (ref_prefix hk hn.2 this).symm h

/-- C120: in texts of entitlements each known variable stands for its value, and the rest stays. -/
theorem C120_text : ∀ (values : List (Str × Str)) (ps : List SignPiece), (∀ p ∈ ps, p.Plain) →
    (∀ kv ∈ values, ')' ∉ kv.1 ∧ '$' ∉ kv.2) →
    expandText values (ps.flatMap SignPiece.written) = ps.flatMap (SignPiece.meant values)
  | [], ps, _, _ => by
    unfold expandText
    rw [List.foldl_nil]
    have : SignPiece.written = SignPiece.meant [] := by
      funext p
      cases p <;> rfl
    rw [this]
  | kv :: values, ps, hp, hv => by
    have h0 := hv kv (List.mem_cons_self ..)
    have step : expandText (kv :: values) (ps.flatMap SignPiece.written) =
        expandText values ((ps.map (putIn kv.1 kv.2)).flatMap SignPiece.written) := by
      show expandText values (replaceStr (c!"$(" ++ kv.1 ++ c!")") kv.2 (ps.flatMap SignPiece.written)) = _
      rw [replace_putIn h0.1 hp]
    rw [step, C120_text values _ ?_ fun x hx => hv x (List.mem_cons_of_mem _ hx), List.flatMap_map]
    · congr 1
      funext p
      cases p with
      | text s => rfl
      | var n =>
        rw [putIn_var]
        by_cases h : n = kv.1
        · subst h
          simp [SignPiece.meant]
        · rw [if_neg h]
          have : (kv.1 == n) = false := by simpa using Ne.symm h
          simp [SignPiece.meant, this]
    · intro p hpm
      obtain ⟨q, hq, rfl⟩ := List.mem_map.mp hpm
      cases q with
      | text s => exact hp _ hq
      | var n =>
        rw [putIn_var]
        by_cases h : n = kv.1
        · rw [if_pos h]
          exact h0.2
        · rw [if_neg h]
          exact hp _ hq

theorem get_expand (subs : List (Str × Str)) : ∀ (d : PDict) (k : Str),
    (expandDict subs d).get k = (d.get k).map (expandPlist subs)
  | .nil, _ => by simp [expandDict, PDict.get]
  | .cons a v d, k => by
    unfold expandDict PDict.get
    rw [get_expand subs d k]
    by_cases h : k = a <;> simp [h]

/-- C120: expanding keeps every path, and the setting there is expanded. -/
theorem C120_expand (subs : List (Str × Str)) : ∀ (path : List Str) (d : PDict),
    settingAt (expandDict subs d) path = (settingAt d path).map (expandPlist subs)
  | [], _ => rfl
  | k :: path, d => by
    unfold settingAt
    rw [get_expand]
    cases d.get k with
    | none => rfl
    | some v =>
      cases v with
      | dict c => simp only [Option.map_some, expandPlist]; exact C120_expand subs path c
      | str s => by_cases h : path = [] <;> simp [expandPlist, h]
      | scalar s => by_cases h : path = [] <;> simp [expandPlist, h]
      | list s => by_cases h : path = [] <;> simp [expandPlist, h]

/-- C120: a text is expanded, a list item by item, and numbers and the like stay. -/
theorem C120_values (subs : List (Str × Str)) (s : Str) (n : Int) (xs : PItems) :
    expandPlist subs (.str s) = .str (expandText subs s) ∧ expandPlist subs (.scalar n) = .scalar n ∧
    ∃ ys, expandPlist subs (.list xs) = .list ys ∧ listedValues ys = (listedValues xs).map (expandPlist subs) := by
  refine ⟨by simp [expandPlist], by simp [expandPlist], expandItems subs xs, by simp [expandPlist], ?_⟩
  exact go xs
where
  go : ∀ xs : PItems, listedValues (expandItems subs xs) = (listedValues xs).map (expandPlist subs)
    | .nil => by simp [expandItems, listedValues]
    | .cons x xs => by simp [expandItems, listedValues, go xs]

theorem get_addMissing : ∀ (o data : PDict) (k : Str), (addMissing data o).get k = (data.get k).or (o.get k)
  | .nil, data, k => by simp [addMissing, PDict.get]
  | .cons a v d, data, k => by
    unfold addMissing
    rw [get_addMissing d _ k]
    have e : (PDict.cons a v d).get k = if k = a then some v else d.get k := rfl
    rw [e]
    cases hd : data.get a with
    | none =>
      simp only
      rw [get_put]
      by_cases h : k = a
      · subst h
        simp [hd]
      · simp [h]
    | some w =>
      simp only
      by_cases h : k = a
      · subst h
        simp [hd]
      · simp [h]

/-- C120: the entitlements written have all keys of the given ones, with their values expanded, and
of the profile's those that are missing. -/
theorem C120_entitlements (bundle team : Str) (data overrides : PDict) (k : Str) :
    (installEntitlements bundle team data overrides).get k =
      match data.get k with
      | some v => some (expandPlist [(c!"CFBundleIdentifier", bundle), (c!"AppIdentifierPrefix", team ++ c!".")] v)
      | none => overrides.get k := by
  unfold installEntitlements signSubstitutions
  rw [get_addMissing, get_expand]
  cases data.get k <;> rfl

/-- C120 remark: a bundle identifier that itself refers to the prefix is expanded again, since the
variables are replaced one after the other. -/
theorem C120_twice :
    expandText (signSubstitutions c!"$(AppIdentifierPrefix)x" c!"T") c!"$(CFBundleIdentifier)" = c!"T.x" := by
  decide +kernel

/-! ### Profiles -/

theorem mem_putPattern {k : Str} {v : Str × Str} : ∀ {l : List (Str × (Str × Str))} {e : Str × (Str × Str)},
    e ∈ putPattern k v l → e = (k, v) ∨ e ∈ l
  | [], e, h => by simp [putPattern] at h; exact .inl h
  | (k', v') :: rest, e, h => by
    unfold putPattern at h
    by_cases hk : k = k'
    · rw [if_pos hk] at h
      rcases List.mem_cons.mp h with h | h
      · exact .inl h
      · exact .inr (List.mem_cons_of_mem _ h)
    · rw [if_neg hk] at h
      rcases List.mem_cons.mp h with h | h
      · exact .inr (h ▸ List.mem_cons_self ..)
      · rcases mem_putPattern h with h | h
        · exact .inl h
        · exact .inr (List.mem_cons_of_mem _ h)

theorem keys_putPattern {k : Str} {v : Str × Str} : ∀ {l : List (Str × (Str × Str))} {x : Str},
    x = k ∨ (∃ e ∈ l, e.1 = x) → ∃ e ∈ putPattern k v l, e.1 = x
  | [], x, h => by
    rcases h with rfl | ⟨e, he, _⟩
    · exact ⟨(x, v), by simp [putPattern], rfl⟩
    · cases he
  | (k', v') :: rest, x, h => by
    unfold putPattern
    by_cases hk : k = k'
    · rw [if_pos hk]
      rcases h with rfl | ⟨e, he, rfl⟩
      · exact ⟨_, List.mem_cons_self .., rfl⟩
      · rcases List.mem_cons.mp he with rfl | he
        · exact ⟨_, List.mem_cons_self .., hk⟩
        · exact ⟨e, List.mem_cons_of_mem _ he, rfl⟩
    · rw [if_neg hk]
      rcases h with rfl | ⟨e, he, rfl⟩
      · obtain ⟨e, h1, h2⟩ := keys_putPattern (k := x) (v := v) (l := rest) (.inl rfl)
        exact ⟨e, List.mem_cons_of_mem _ h1, h2⟩
      · rcases List.mem_cons.mp he with rfl | he
        · exact ⟨_, List.mem_cons_self .., rfl⟩
        · obtain ⟨e', h1, h2⟩ := keys_putPattern (k := k) (v := v) (l := rest) (.inr ⟨e, he, rfl⟩)
          exact ⟨e', List.mem_cons_of_mem _ h1, h2⟩

/-- The table holds only profiles that fit, and the patterns of all of them. -/
def ValidInv (fnmatch : Str → Str → Bool) (bundle : Str) (seen : ProvProfile → Str → Prop)
    (valid : List (Str × (Str × Str))) : Prop :=
  (∀ e ∈ valid, ∃ p, seen p e.2.2 ∧ ProfileFits fnmatch bundle p e.2.2 ∧ p.path = e.2.1 ∧ p.pattern = e.1) ∧
  (∀ p t, seen p t → ProfileFits fnmatch bundle p t → ∃ e ∈ valid, e.1 = p.pattern)

theorem addTeams_inv {fnmatch : Str → Str → Bool} {bundle : Str} {q : ProvProfile} : ∀ (ts : List Str)
    (seen : ProvProfile → Str → Prop) (valid : List (Str × (Str × Str))), (∀ t ∈ ts, t ∈ q.teams) →
    ValidInv fnmatch bundle seen valid →
    ValidInv fnmatch bundle (fun p t => seen p t ∨ p = q ∧ t ∈ ts) (addTeams fnmatch bundle q ts valid)
  | [], seen, valid, _, h => by simpa [addTeams] using h
  | t :: ts, seen, valid, ht, h => by
    unfold addTeams
    have step : ValidInv fnmatch bundle (fun p u => seen p u ∨ p = q ∧ u = t)
        (if fnmatch (t ++ c!"." ++ bundle) q.pattern then putPattern q.pattern (q.path, t) valid else valid) := by
      by_cases hm : fnmatch (t ++ c!"." ++ bundle) q.pattern = true
      · rw [if_pos hm]
        refine ⟨fun e he => ?_, fun p u hs hf => ?_⟩
        · rcases mem_putPattern he with rfl | he
          · exact ⟨q, .inr ⟨rfl, rfl⟩, ⟨ht t (List.mem_cons_self ..), hm⟩, rfl, rfl⟩
          · obtain ⟨p, h1, h2⟩ := h.1 e he
            exact ⟨p, .inl h1, h2⟩
        · rcases hs with hs | ⟨rfl, rfl⟩
          · exact keys_putPattern (.inr (h.2 p u hs hf))
          · exact keys_putPattern (.inl rfl)
      · rw [if_neg hm]
        refine ⟨fun e he => ?_, fun p u hs hf => ?_⟩
        · obtain ⟨p, h1, h2⟩ := h.1 e he
          exact ⟨p, .inl h1, h2⟩
        · rcases hs with hs | ⟨rfl, rfl⟩
          · exact h.2 p u hs hf
          · exact absurd hf.2 hm
    have := addTeams_inv ts _ _ (fun u hu => ht u (List.mem_cons_of_mem _ hu)) step
    refine ⟨fun e he => ?_, fun p u hs hf => ?_⟩
    · obtain ⟨p, h1, h2⟩ := this.1 e he
      refine ⟨p, ?_, h2⟩
      rcases h1 with (h1 | ⟨h1, h3⟩) | ⟨h1, h3⟩
      · exact .inl h1
      · exact .inr ⟨h1, h3 ▸ List.mem_cons_self ..⟩
      · exact .inr ⟨h1, List.mem_cons_of_mem _ h3⟩
    · refine this.2 p u ?_ hf
      rcases hs with hs | ⟨h1, h2⟩
      · exact .inl (.inl hs)
      · rcases List.mem_cons.mp h2 with h2 | h2
        · exact .inl (.inr ⟨h1, h2⟩)
        · exact .inr ⟨h1, h2⟩

theorem validProfiles_inv (fnmatch : Str → Str → Bool) (bundle : Str) : ∀ (ps : List ProvProfile)
    (seen : ProvProfile → Str → Prop) (valid : List (Str × (Str × Str))), ValidInv fnmatch bundle seen valid →
    ValidInv fnmatch bundle (fun p t => seen p t ∨ p ∈ ps ∧ t ∈ p.teams)
      (ps.foldl (fun valid p => addTeams fnmatch bundle p p.teams valid) valid)
  | [], seen, valid, h => by simpa using h
  | q :: ps, seen, valid, h => by
    rw [List.foldl_cons]
    have := validProfiles_inv fnmatch bundle ps _ _ (addTeams_inv (q := q) q.teams seen valid (fun _ h => h) h)
    refine ⟨fun e he => ?_, fun p u hs hf => ?_⟩
    · obtain ⟨p, h1, h2⟩ := this.1 e he
      refine ⟨p, ?_, h2⟩
      rcases h1 with (h1 | ⟨rfl, h3⟩) | ⟨h1, h3⟩
      · exact .inl h1
      · exact .inr ⟨List.mem_cons_self .., h3⟩
      · exact .inr ⟨List.mem_cons_of_mem _ h1, h3⟩
    · refine this.2 p u ?_ hf
      rcases hs with hs | ⟨h1, h2⟩
      · exact .inl (.inl hs)
      · rcases List.mem_cons.mp h1 with rfl | h1
        · exact .inl (.inr ⟨rfl, h2⟩)
        · exact .inr ⟨h1, h2⟩

theorem longestPattern_spec : ∀ (l : List (Str × (Str × Str))),
    match longestPattern l with
    | none => l = []
    | some e => e ∈ l ∧ ∀ f ∈ l, f.1.length ≤ e.1.length
  | [] => rfl
  | e :: es => by
    have ih := longestPattern_spec es
    unfold longestPattern
    cases hl : longestPattern es with
    | none =>
      rw [hl] at ih
      simp only at ih
      subst ih
      simp
    | some f =>
      rw [hl] at ih
      obtain ⟨h1, h2⟩ := ih
      by_cases h : e.1.length < f.1.length
      · simp only [h, if_true]
        refine ⟨List.mem_cons_of_mem _ h1, fun g hg => ?_⟩
        rcases List.mem_cons.mp hg with rfl | hg
        · omega
        · exact h2 g hg
      · simp only [h, if_false]
        refine ⟨List.mem_cons_self .., fun g hg => ?_⟩
        rcases List.mem_cons.mp hg with rfl | hg
        · omega
        · have := h2 g hg
          omega

/-- C120: the profile that is chosen fits, with the team that is chosen, and no profile that fits
has a longer pattern; if none fits, the tool stops. -/
theorem C120_profile (fnmatch : Str → Str → Bool) (bundle : Str) (all : List ProvProfile) :
    match findProfile fnmatch bundle none all with
    | none => ∀ p ∈ all, ∀ t, ¬ ProfileFits fnmatch bundle p t
    | some (path, team) => ∃ p ∈ all, p.path = path ∧ ProfileFits fnmatch bundle p team ∧
        ∀ q ∈ all, ∀ t, ProfileFits fnmatch bundle q t → q.pattern.length ≤ p.pattern.length := by
  have inv : ValidInv fnmatch bundle (fun p t => False ∨ p ∈ all ∧ t ∈ p.teams) (validProfiles fnmatch bundle all) :=
    validProfiles_inv fnmatch bundle all _ [] ⟨by simp, by simp⟩
  have hl := longestPattern_spec (validProfiles fnmatch bundle all)
  unfold findProfile profilesToTry
  simp only
  cases hx : longestPattern (validProfiles fnmatch bundle all) with
  | none =>
    rw [hx] at hl
    simp only at hl
    simp only [Option.map_none]
    intro p hp t hf
    obtain ⟨e, he, _⟩ := inv.2 p t (.inr ⟨hp, hf.1⟩) hf
    rw [hl] at he
    cases he
  | some e =>
    rw [hx] at hl
    obtain ⟨h1, h2⟩ := hl
    simp only [Option.map_some]
    obtain ⟨p, hs, hf, e1, e2⟩ := inv.1 e h1
    rcases hs with hs | hs
    · exact absurd hs id
    refine ⟨p, hs.1, e1, hf, fun q hq t hqf => ?_⟩
    obtain ⟨f, hf1, hf2⟩ := inv.2 q t (.inr ⟨hq, hqf.1⟩) hqf
    rw [← hf2, e2]
    exact h2 f hf1

/-- A profile and one of its teams that fits. -/
def fitsBundle (fnmatch : Str → Str → Bool) (bundle : Str) (c : ProvProfile × Str) : Bool :=
  fnmatch (c.2 ++ c!"." ++ bundle) c.1.pattern

theorem addTeams_fold {fnmatch : Str → Str → Bool} {bundle : Str} {p : ProvProfile} : ∀ (ts : List Str)
    (valid : List (Str × (Str × Str))), addTeams fnmatch bundle p ts valid =
      (ts.map fun t => (p, t)).foldl (fun v c => if fitsBundle fnmatch bundle c then
        putPattern c.1.pattern (c.1.path, c.2) v else v) valid
  | [], _ => rfl
  | t :: ts, valid => by
    unfold addTeams
    rw [addTeams_fold ts]
    rfl

theorem validProfiles_fold (fnmatch : Str → Str → Bool) (bundle : Str) : ∀ (ps : List ProvProfile)
    (valid : List (Str × (Str × Str))),
    ps.foldl (fun valid p => addTeams fnmatch bundle p p.teams valid) valid =
      (profileTeams ps).foldl (fun v c => if fitsBundle fnmatch bundle c then
        putPattern c.1.pattern (c.1.path, c.2) v else v) valid
  | [], _ => rfl
  | p :: ps, valid => by
    rw [List.foldl_cons, validProfiles_fold fnmatch bundle ps, addTeams_fold]
    unfold profileTeams
    rw [List.flatMap_cons, List.foldl_append]

theorem putPattern_strict {k : Str} {v : Str × Str} : ∀ {l : List (Str × (Str × Str))},
    (l.Pairwise fun a b => a.1 ≠ b.1) →
    ((putPattern k v l).Pairwise fun a b => a.1 ≠ b.1) ∧ ∀ e ∈ putPattern k v l, e = (k, v) ∨ e ∈ l ∧ e.1 ≠ k
  | [], _ => by simp [putPattern]
  | (k', v') :: rest, h => by
    obtain ⟨h1, h2⟩ := List.pairwise_cons.mp h
    obtain ⟨i1, i2⟩ := putPattern_strict (k := k) (v := v) h2
    unfold putPattern
    by_cases hk : k = k'
    · subst hk
      rw [if_pos rfl]
      refine ⟨List.pairwise_cons.mpr ⟨h1, h2⟩, fun e he => ?_⟩
      rcases List.mem_cons.mp he with he | he
      · exact .inl he
      · exact .inr ⟨List.mem_cons_of_mem _ he, fun hx => h1 e he hx.symm⟩
    · rw [if_neg hk]
      refine ⟨List.pairwise_cons.mpr ⟨fun e he => ?_, i1⟩, fun e he => ?_⟩
      · rcases i2 e he with rfl | ⟨he, _⟩
        · exact fun hx => hk hx.symm
        · exact h1 e he
      · rcases List.mem_cons.mp he with rfl | he
        · exact .inr ⟨List.mem_cons_self .., fun hx => hk hx.symm⟩
        · rcases i2 e he with he | ⟨he, hn⟩
          · exact .inl he
          · exact .inr ⟨List.mem_cons_of_mem _ he, hn⟩

theorem fold_last {fits : ProvProfile × Str → Bool} : ∀ (l : List (ProvProfile × Str)),
    let valid := l.foldr (fun c v => if fits c then putPattern c.1.pattern (c.1.path, c.2) v else v) []
    (valid.Pairwise fun a b => a.1 ≠ b.1) ∧
    ∀ e ∈ valid, ∃ p, l.find? (fun c => fits c && c.1.pattern == e.1) = some (p, e.2.2) ∧ p.path = e.2.1 ∧ p.pattern = e.1
  | [] => by simp
  | c :: l => by
    obtain ⟨i1, i2⟩ := fold_last (fits := fits) l
    simp only [List.foldr_cons]
    by_cases hc : fits c = true
    · rw [if_pos hc]
      obtain ⟨j1, j2⟩ := putPattern_strict (k := c.1.pattern) (v := (c.1.path, c.2)) i1
      refine ⟨j1, fun e he => ?_⟩
      rcases j2 e he with rfl | ⟨he, hn⟩
      · exact ⟨c.1, by simp [List.find?_cons, hc], rfl, rfl⟩
      · obtain ⟨p, h1, h2⟩ := i2 e he
        refine ⟨p, ?_, h2⟩
        have : (c.1.pattern == e.1) = false := by simpa using Ne.symm hn
        rw [List.find?_cons, this, Bool.and_false]
        exact h1
    · rw [if_neg hc]
      refine ⟨i1, fun e he => ?_⟩
      obtain ⟨p, h1, h2⟩ := i2 e he
      refine ⟨p, ?_, h2⟩
      have : fits c = false := by simpa using hc
      rw [List.find?_cons, this, Bool.false_and]
      exact h1

/-- C120: of several profiles and teams that fit with the same pattern, the last is chosen. -/
theorem C120_profile_last (fnmatch : Str → Str → Bool) (bundle : Str) (all : List ProvProfile) (path team : Str)
    (h : findProfile fnmatch bundle none all = some (path, team)) :
    ∃ p, p.path = path ∧ (profileTeams all).reverse.find? (fun c =>
      fnmatch (c.2 ++ c!"." ++ bundle) c.1.pattern && c.1.pattern == p.pattern) = some (p, team) := by
  have hv : validProfiles fnmatch bundle all = (profileTeams all).reverse.foldr
      (fun c v => if fitsBundle fnmatch bundle c then putPattern c.1.pattern (c.1.path, c.2) v else v) [] := by
    unfold validProfiles
    rw [validProfiles_fold, List.foldr_reverse]
  have hf := (fold_last (fits := fitsBundle fnmatch bundle) (profileTeams all).reverse).2
  rw [← hv] at hf
  have hl := longestPattern_spec (validProfiles fnmatch bundle all)
  unfold findProfile profilesToTry at h
  simp only at h
  cases hx : longestPattern (validProfiles fnmatch bundle all) with
  | none => rw [hx] at h; cases h
  | some e =>
    rw [hx] at h hl
    simp only [Option.map_some, Option.some.injEq] at h
    obtain ⟨p, h1, h2, h3⟩ := hf e hl.1
    rw [h] at h1 h2
    exact ⟨p, h2, by rw [h3]; exact h1⟩

/-- C120: a profile that was asked for by name and is there is the only one that is tried. -/
theorem C120_named (fnmatch : Str → Str → Bool) (bundle : Str) (p : ProvProfile) (all : List ProvProfile) :
    findProfile fnmatch bundle (some p) all = findProfile fnmatch bundle none [p] := rfl

/-! Concrete cases. -/

/-- `{A: {x: 1, y: 2}, B: 3}` -/
def plistOne : PDict :=
  .cons c!"A" (.dict (.cons c!"x" (.scalar 1) (.cons c!"y" (.scalar 2) .nil))) (.cons c!"B" (.scalar 3) .nil)

/-- `{A: {y: 5}, B: {z: 6}}` -/
def plistTwo : PDict :=
  .cons c!"A" (.dict (.cons c!"y" (.scalar 5) .nil)) (.cons c!"B" (.dict (.cons c!"z" (.scalar 6) .nil)) .nil)

example : DictWellFormed plistOne ∧ DictWellFormed plistTwo := by
  simp [plistOne, plistTwo, DictWellFormed, WellFormed, PDict.get]

example : mergeInfoPlists [plistOne, plistTwo] =
    .cons c!"A" (.dict (.cons c!"x" (.scalar 1) (.cons c!"y" (.scalar 5) .nil)))
      (.cons c!"B" (.dict (.cons c!"z" (.scalar 6) .nil)) .nil) := by
  simp [mergeInfoPlists, plistOne, plistTwo, mergePlist, mergeValue, PDict.put, PDict.get]

example : expandText (signSubstitutions c!"com.x" c!"T") c!"$(AppIdentifierPrefix)$(CFBundleIdentifier)$(O)" =
    c!"T.com.x$(O)" := by decide +kernel

example : ∀ p ∈ [SignPiece.var c!"AppIdentifierPrefix", .text c!"x", .var c!"O"], p.Plain := by
  intro p hp
  simp at hp
  rcases hp with rfl | rfl | rfl <;> simp [SignPiece.Plain]

example : findProfile (fun s pat => startsWith s (pat.takeWhile (· ≠ '*'))) c!"com.x" none
    [⟨c!"/a", c!"T.*", [c!"T"]⟩, ⟨c!"/b", c!"T.com.*", [c!"S", c!"T"]⟩, ⟨c!"/c", c!"U.com.x.*", [c!"T"]⟩] =
    some (c!"/b", c!"T") := by decide +kernel

end Gyp
