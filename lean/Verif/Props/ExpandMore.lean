import Verif.Props.Expand
import Verif.Props.MergeDicts
/-
More about C31 and C33: lists inside texts; variables that come from conditions.
-/
namespace Gyp
open Spec

/-- C33: `<@(name)` inside a longer text does not replace the text: the items of the list are put
in its place, quoted for a shell, as for `<(name)`. -/
theorem C33_list_in_text (env : ExpEnv) (vars : Dict) (tbl : Str → Option Template)
    (hsym : env.sym = '<' ∨ env.sym = '>' ∨ env.sym = '^')
    (hgood : ∀ n t, tbl n = some t → GoodTemplate env.space env.sym t)
    (hvars : WritesTable env.sym vars tbl) (n t1 t2 : Str) (hn : GoodName env.space env.sym n)
    (h1 : env.sym ∉ t1) (h2 : env.sym ∉ t2) (ht : t1 ≠ [] ∨ t2 ≠ []) (depth : Nat) (l : List Str)
    (hl : varMeaning EncodePOSIXShellList tbl depth n = some (.list l)) (fuel : Nat) (hf : 2 * depth + 1 ≤ fuel) :
    ∃ v, ReadsAs (t1 ++ EncodePOSIXShellList l ++ t2) v ∧
      ExpandVariables env fuel (.str (t1 ++ renderSplice env.sym n ++ t2)) vars = .ok v := by
  refine ⟨_, toInt_reads _, ?_⟩
  have S : Setting env vars tbl := ⟨hsym, hgood, hvars⟩
  obtain ⟨d, rfl⟩ : ∃ d, depth = d + 1 := by
    cases depth with
    | zero => cases hl
    | succ d => exact ⟨d, rfl⟩
  obtain ⟨g, rfl⟩ : ∃ g, fuel = g + 3 := ⟨fuel - 3, by omega⟩
  have hf0 : g + 2 ≠ 0 := by omega
  obtain ⟨items, ht', hl'⟩ := var_list hl
  obtain ⟨v, hv, vs, rfl, hvs⟩ := S.writes n _ ht'
  have hns := items_no_sym S.sym (var_no_sym S.sym S.good d) (S.good n _ ht') hl'
  have hp : (recs env (g + 2)).procList vs vars = .ok (l.map fun s => toInt (.str s)) :=
    (all_done S d).2 g (by omega) items vs l (S.good n _ ht') hvs hl'
  have hc := check_list hn.1 (items_scalar hvs) hp
  have e : t1 ++ renderSplice env.sym n ++ t2 = t1 ++ (refOpen env.sym true ++ '(' :: (n ++ [')']) ++ t2) := by
    simp [renderSplice, refOpen]
  have hs : env.sym ∈ t1 ++ renderSplice env.sym n ++ t2 := by simp [renderSplice]
  have hspan := refSpan_ref S.sym (at_ := true) (n := n) (fun c hc => (hn.2.2 c hc).1) t1 t2
  rw [← e] at hspan
  have hfind : findRefs env 0 0 (t1 ++ renderSplice env.sym n ++ t2) = [refMatch true t1.length n] := by
    have e4 : t1 ++ renderSplice env.sym n ++ t2 = t1 ++ (env.sym :: '@' :: '(' :: (n ++ ')' :: t2)) := by
      simp [renderSplice]
    rw [e4, findRefs_text env t1 h1, findRefs, matchHere_splice hn]
    simp only [Nat.zero_add]
    congr 1
    have e2 : '@' :: '(' :: (n ++ ')' :: t2) = ('@' :: '(' :: (n ++ [')'])) ++ t2 := by simp
    have e3 : (refMatch true t1.length n).len - 1 = ('@' :: '(' :: (n ++ [')'])).length := by simp [refMatch]
    rw [e2, e3, findRefs_skip]
    have := findRefs_text env t2 h2 (t1.length + 1 + ('@' :: '(' :: (n ++ [')'])).length) []
    rw [List.append_nil] at this
    rw [this]
    rfl
  have hmatch : expandMatch env (recs env (g + 2)) vars (refMatch true t1.length n)
      (t1 ++ renderSplice env.sym n ++ t2) = .ok (.str (t1 ++ EncodePOSIXShellList l ++ t2)) := by
    unfold expandMatch
    rw [hspan]
    simp only
    rw [refValue_name hn hf0, lookup_found hv]
    simp only
    rw [hc]
    have hne : t1 ++ renderSplice env.sym n ++ t2 ≠ refOpen env.sym true ++ '(' :: (n ++ [')']) := by
      intro h
      have := congrArg List.length h
      simp [renderSplice, refOpen] at this
      rcases ht with h | h
      · have := List.length_pos_of_ne_nil h; omega
      · have := List.length_pos_of_ne_nil h; omega
    have hst : (refMatch true t1.length n).start = t1.length := rfl
    simp only [hne, decide_false, Bool.and_false, Bool.false_eq_true, if_false, hst]
    have e1 : (t1.length : Int) + (refOpen env.sym true).length + n.length + 2 =
        ((t1 ++ renderSplice env.sym n).length : Nat) := by
      simp [renderSplice, refOpen]
      omega
    rw [e1, pyIndex_nat (by simp), List.drop_left]
    simp only [encodeReplacement]
    rw [strOf_map, List.append_assoc t1 (renderSplice _ _), List.take_left]
  show expandStep env (recs env (g + 2)) _ vars = _
  rw [expandStep_str, if_neg (by rw [sym_not_number S.sym hs]; simp), if_neg (not_not.mpr hs),
    hfind, if_neg (by simp)]
  simp only [List.reverse_cons, List.reverse_nil, List.nil_append, expandMatches]
  rw [hmatch]
  have hno : env.sym ∉ t1 ++ EncodePOSIXShellList l ++ t2 := by
    simp only [List.mem_append]
    rintro ((h | h) | h)
    · exact h1 h
    · exact encode_no_sym S.sym hns h
    · exact h2 h
  simp only [expandAgain]
  rw [if_neg]
  · rw [show (recs env (g + 2)).expand (.str (t1 ++ EncodePOSIXShellList l ++ t2)) vars =
      .ok (toInt (.str (t1 ++ EncodePOSIXShellList l ++ t2))) from expandStep_plain hno]
    simp only
    rw [finish_scalar (toInt_scalar _), toInt_toInt]
  · intro h
    have : t1 ++ renderSplice env.sym n ++ t2 = t1 ++ EncodePOSIXShellList l ++ t2 := by
      simpa [Val.scalarEq] using h
    rw [this] at hs
    exact hno hs

example : ExpandVariables sampleEnv 7 (.str c!"-<@(l)") sampleVars = .ok (.str c!"-\"p x7\" q 7") := rfl

/-- A reference to a variable with a literal value. -/
theorem expand_reference {env : ExpEnv} {scope : Dict} {x : Str} {v : Val} {f : Nat}
    (hsym : PhaseSymbol env.sym) (hx : GoodName env.space env.sym x) (hv : LiteralScalar env.sym v)
    (hsv : Dict.get? scope x = some v) :
    (recs env (f + 4)).expand (.str (env.sym :: '(' :: (x ++ [')']))) scope = .ok v := by
  let tbl : Str → Option Template := fun n =>
    if n = x then some (.scalar [.text (env.strOf v)]) else none
  have hnosym : env.sym ∉ env.strOf v := by
    cases v with
    | str s => exact hv.1
    | int i => exact intStr_no_sym hsym i
    | _ => exact absurd hv id
  obtain ⟨v2, hr, hE⟩ := C33_text env scope tbl hsym
    (by
      intro n t ht
      simp only [tbl] at ht
      split at ht
      · cases ht
        intro p hp
        rw [List.mem_singleton.mp hp]
        exact hnosym
      · cases ht)
    (by
      intro n t ht
      simp only [tbl] at ht
      split at ht
      · rename_i hn
        cases ht
        subst hn
        refine ⟨v, hsv, ?_⟩
        cases v with
        | str s => left; simp [render, TextPiece.render, ExpEnv.strOf]
        | int i => right; exact ⟨i, rfl, rfl⟩
        | _ => exact absurd hv id
      · cases ht)
    [.ref x] (by intro p hp; rw [List.mem_singleton.mp hp]; exact hx) 1 (env.strOf v)
    (by
      refine textMeaning_cons.mpr ⟨env.strOf v, [], ?_, rfl, by simp⟩
      simp only [TextPiece.meaning, varMeaning, tbl, if_true]
      rw [show textMeaning EncodePOSIXShellList (fun _ => none)
        [TextPiece.text (env.strOf v)] = some (env.strOf v) from
        textMeaning_cons.mpr ⟨env.strOf v, [], rfl, rfl, by simp⟩]
      rfl)
    (f + 4) (by omega)
  have e : render env.sym [.ref x] = env.sym :: '(' :: (x ++ [')']) := by simp [render, TextPiece.render]
  rw [e] at hE
  have : v2 = v := by
    rw [reads_toInt hr]
    cases v with
    | str s =>
      simp only [ExpEnv.strOf]
      rw [toInt_str, if_neg (fun h' => hv.2 ((canonical_iff s).mp h'))]
    | int i =>
      simp only [ExpEnv.strOf]
      rw [toInt_str, if_pos ((canonical_iff _).mpr ⟨i, rfl⟩), (C30_roundtrip _ i rfl).1]
    | _ => exact absurd hv id
  rw [← this]
  exact hE

theorem set_same : ∀ (d : Dict) (k : Str) (v : Val), Dict.get? d k = some v → Dict.set d k v = d
  | [], _, _, h => by cases h
  | (k', v') :: d, k, v, h => by
    unfold Dict.set
    unfold Dict.get? at h
    by_cases hk : k' = k
    · rw [if_pos hk] at h ⊢
      cases h; rw [hk]
    · rw [if_neg hk] at h ⊢
      rw [set_same d k v h]

theorem get?_filter_ne {k key : Str} (hk : k ≠ key) : ∀ (d : Dict),
    Dict.get? (d.filter fun e => e.1 ≠ key) k = Dict.get? d k
  | [] => rfl
  | (k', v') :: d => by
    have ih := get?_filter_ne hk d
    by_cases h : k' = key
    · rw [List.filter_cons_of_neg (by simp [h]), ih]
      simp [Dict.get?, h, Ne.symm hk]
    · rw [List.filter_cons_of_pos (by simp [h])]
      simp only [Dict.get?, ih]

/-- A dictionary with only a `variables` section of literals is left as it is. -/
theorem variables_only {env : ExpEnv} {f : Nat} {vars vs : Dict} {c : Str} (hc : env.condKey = some c)
    (hcv : c ≠ c!"variables")
    (hvs : ∀ e ∈ vs, LiteralScalar env.sym e.2 ∧ e.1 ≠ c!"variables" ∧ env.condKey ≠ some e.1) :
    procDictStep env (recs env (f + 2)) none vars [(c!"variables", .dict vs)] = .ok [(c!"variables", .dict vs)] := by
  have hsec : ∀ vars, (recs env (f + 2)).procDict (some c!"variables") vars vs = .ok vs := fun vars =>
    literal_section (f := f) hvs
  have hload : ∀ vars, ∃ s, LoadVariablesFromVariablesDict vars [(c!"variables", .dict vs)] none = .ok s :=
    fun vars => ⟨_, load_eq (vs := vs) (by simp [Dict.get?])⟩
  have hcd : ∀ vars, ProcessConditionsInDict env (recs env (f + 2)) vars [(c!"variables", .dict vs)] =
      .ok [(c!"variables", .dict vs)] := by
    intro vars
    apply C31_no_section
    intro k hk
    rw [hc] at hk
    cases hk
    simp [Dict.get?, Ne.symm hcv]
  unfold procDictStep
  simp only [procVariables, Dict.get?, if_true, hsec, Dict.set, scopeOf]
  obtain ⟨s1, h1⟩ := hload (vs.foldl (fun vars e => Dict.set vars e.1 e.2)
    (LoadAutomaticVariablesFromDict vars [(c!"variables", .dict vs)]))
  obtain ⟨s2, h2⟩ := hload (LoadAutomaticVariablesFromDict vars [(c!"variables", .dict vs)])
  simp only [h1]
  have e1 : ([(c!"variables", .dict vs)] : Dict).mapM (expandEntry (recs env (f + 2)) s1) =
      .ok [(c!"variables", .dict vs)] := rfl
  rw [e1]
  simp only [h2, hcd]
  rfl

theorem listAdd_fold_nodup : ∀ (l acc : List Str), List.Nodup acc → (l.foldl listAdd acc).Nodup
  | [], _, h => h
  | a :: l, _, h => listAdd_fold_nodup l _ (listAdd_nodup a h)

/-- C31: the settings that a true condition selects may set variables, and these are seen by the
lists of the dictionary: the item `<(x)` becomes the value that the condition gives to `x`. -/
theorem C31_variables_for_lists (env : ExpEnv) (vars d vs d' : Dict) (key : Option Str) (c k x : Str) (expr v : Val)
    (hsym : env.sym = '<' ∨ env.sym = '>' ∨ env.sym = '^') (hc : env.condKey = some c)
    (hcv : c ≠ c!"variables") (hd : Dict.get? d c!"variables" = none)
    (fuel : Nat) (hf : 6 ≤ fuel)
    (hcond : Dict.get? d c = some (.list [.list [expr, .dict [(c!"variables", .dict vs)]]]))
    (htrue : ∀ scope b, CondIs env (fuel - 1) scope expr b → b = true)
    (hn : vs.keys.Nodup)
    (hvs : ∀ e ∈ vs, LiteralScalar env.sym e.2 ∧ e.1 ≠ c!"variables" ∧ env.condKey ≠ some e.1)
    (hk : Dict.get? d k = some (.list [.str (env.sym :: '(' :: (x ++ [')']))])) (hkc : k ≠ c)
    (hx : GoodName env.space env.sym x) (hxp : ∀ n, x ≠ n ++ ['%'])
    (hxs : IsPathSection env.ctx.pathSections x = false)
    (hown : Dict.get? vs x = some v)
    (h : ProcessVariablesAndConditionsInDict env fuel key vars d = .ok d') :
    Dict.get? d' k = some (.list [v]) := by
  obtain ⟨f, rfl⟩ : ∃ f, fuel = f + 6 := ⟨fuel - 6, by omega⟩
  have hkv : k ≠ c!"variables" := by rintro rfl; rw [hd] at hk; cases hk
  have hlit := (hvs _ (Dict.get?_some_mem hown)).1
  have h : procDictStep env (recs env (f + 5)) key vars d = .ok d' := h
  unfold procDictStep at h
  simp only [procVariables, hd] at h
  split at h
  · cases h
  · rename_i scope _
    split at h
    · cases h
    · rename_i d2 h2
      have g2 : ∀ j l, Dict.get? d j = some (.list l) → Dict.get? d2 j = some (.list l) := by
        intro j l hj
        obtain ⟨v', he, hg⟩ := (mapM_get expandEntry_key h2 j).2 _ hj
        cases he
        exact hg
      have hd2 := (mapM_get expandEntry_key h2 c!"variables").1 hd
      split at h
      · cases h
      · rename_i vars3 _
        split at h
        · cases h
        · rename_i d3 h3
          obtain ⟨rs, hrs, hall⟩ := (C31_section env (f + 5) vars3 d2 d3 c _ hc (g2 c _ hcond)).mp h3
          cases hrs with
          | cons hr hnil =>
            rename_i r rs
            cases hnil
            obtain ⟨l, branches, dflt, hl, ⟨hb1, hb2, hb3⟩, hsel⟩ := hr
            cases hl
            have hbr : branches = [(expr, [(c!"variables", .dict vs)])] ∧ dflt = none := by
              cases branches with
              | nil => exact absurd rfl hb1
              | cons b bs =>
                cases bs with
                | nil =>
                  cases dflt with
                  | none =>
                    obtain ⟨b1, b2⟩ := b
                    simp at hb2
                    exact ⟨by rw [hb2.1, hb2.2], rfl⟩
                  | some q => simp at hb2
                | cons b2 bs => simp at hb2
            obtain ⟨rfl, rfl⟩ := hbr
            have hrT : r = some [(c!"variables", .dict vs)] := by
              rcases hsel with ⟨pre, e, t, post, hb, hpre, ht, rfl⟩ | ⟨hfalse, _⟩
              · cases pre with
                | nil => cases hb; rfl
                | cons p pre =>
                  have := congrArg List.length hb
                  simp at this
              · exact absurd (htrue vars3 false (hfalse _ (List.mem_singleton.mpr rfl))) (by simp)
            subst hrT
            cases hall with
            | use hm hrest =>
              cases hrest
              obtain ⟨m', hm1, hm2⟩ := hm
              have hm1' : procDictStep env (recs env (f + 2 + 2)) none vars3 [(c!"variables", .dict vs)] = .ok m' := hm1
              rw [variables_only hc hcv hvs] at hm1'
              cases hm1'
              obtain ⟨old, sub, hold, hsub, hg⟩ := C22_dict env.ctx _ _ _ (by simp [Dict.keys]) hm2 c!"variables" vs (by simp)
              rw [get?_filter_ne (Ne.symm hcv), hd2] at hold
              rcases hold with ⟨_, rfl⟩ | hold
              · have hsv := (C22_scalar env.ctx _ _ _ hn hsub x v (by
                  cases v with
                  | str s => rfl
                  | int i => rfl
                  | _ => exact absurd hlit id) (Dict.get?_some_mem hown)).1
                have hsu : scalarUnder env.ctx x v = v := by
                  cases v <;> simp [scalarUnder, hxs]
                rw [hsu] at hsv
                have hnd : (Dict.keys sub).Nodup := by
                  rw [C22_keys env.ctx _ _ _ hsub]
                  exact listAdd_fold_nodup _ _ (by simp [Dict.keys])
                have hk3 : Dict.get? d3 k = some (.list [.str (env.sym :: '(' :: (x ++ [')']))]) := by
                  rw [C22_untouched env.ctx _ _ _ hm2 k (by simp [Dict.keys, hkv]) (by simp), get?_filter_ne hkc]
                  exact g2 k _ hk
                split at h
                · cases h
                · rename_i scope4 hs4
                  have hx4 : Dict.get? scope4 x = some v := by
                    refine C32_own _ d3 sub scope4 key x v hg hnd hxp ⟨hsv, ?_⟩ hs4
                    cases v <;> first | trivial | exact absurd hlit id
                  obtain ⟨v2, h5, h6⟩ := (mapM_get procEntry_key h k).2 _ hk3
                  have hlist : (recs env (f + 5)).procList [.str (env.sym :: '(' :: (x ++ [')']))] scope4 = .ok [v] := by
                    show procListStep (recs env (f + 4)) _ scope4 = _
                    unfold procListStep
                    have he := expand_reference (f := f) hsym hx hlit hx4
                    have hi : procItem (recs env (f + 4)) scope4 (.str (env.sym :: '(' :: (x ++ [')']))) = .ok [v] := by
                      simp only [procItem]
                      rw [he]
                      cases v <;> first | rfl | exact absurd hlit id
                    rw [List.mapM_cons, hi]
                    rfl
                  simp only [procEntry, if_neg hkv] at h5
                  rw [hlist] at h5
                  cases h5
                  exact h6
              · cases hold

/-- Instance: the condition `yes` sets `x`. -/
example : ProcessVariablesAndConditionsInDict sampleEnv 6 none [(c!"x", .str c!"outer")]
    [(c!"sources", .list [.str c!"<(x)"]),
     (c!"conditions", .list [.list [.str c!"yes", .dict [(c!"variables", .dict [(c!"x", .str c!"inner")])]]])] =
    .ok [(c!"sources", .list [.str c!"inner"]), (c!"variables", .dict [(c!"x", .str c!"inner")])] := rfl

example : ∀ scope b, CondIs sampleEnv 5 scope (.str c!"yes") b → b = true := by
  rintro scope b ⟨s, h1, h2⟩
  cases h1
  cases h2
  rfl

end Gyp
