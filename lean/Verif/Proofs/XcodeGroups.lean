import Verif.Spec.XcodeGroups
import Verif.Proofs.Path
import Verif.Proofs.MergeLists
import Verif.Props.AnalyzerPaths
import Verif.Proofs.MsvsDetails
/-
Facts about adding files to the groups of an Xcode project.
-/
namespace Gyp
open Gyp.Spec

/-- A path that is relative and names no variable. -/
def PlainPath (q : Str) : Prop := isAbs q = false ∧ '$' ∉ q

theorem treePath_plain {t q : Str} {p : Option Str} (hq : PlainPath q) (h : treePath t p = some q) :
    t = groupTree ∧ p = some q := by
  unfold treePath at h
  by_cases ht : t = groupTree
  · rw [if_neg (by simpa using ht)] at h
    exact ⟨ht, h⟩
  · rw [if_pos ht] at h
    exfalso
    cases p with
    | none =>
      simp only [Option.some.injEq] at h
      exact hq.2 (h ▸ by simp)
    | some r =>
      simp only [Option.some.injEq] at h
      unfold pathJoin at h
      split at h
      · rename_i hr
        rw [h, hq.1] at hr
        cases hr
      · split at h
        · exact hq.2 (h ▸ by simp)
        · exact hq.2 (h ▸ by simp)

theorem leads_group (vars : Str → Loc) (base : Loc) (q : Str) :
    leads vars base groupTree (some q) = walk base q := by simp [leads, groupTree]

theorem leads_none (vars : Str → Loc) (base : Loc) : leads vars base groupTree none = base := by
  simp [leads, groupTree]

theorem sourceTree_plain {q : Str} (hq : '$' ∉ q) : sourceTreeAndPath q = none := by
  unfold sourceTreeAndPath
  rw [if_neg]
  intro h
  cases q with
  | nil => simp [startsWith] at h
  | cons x xs =>
    simp [startsWith] at h
    exact hq (by rw [← h.1]; simp)

theorem walk_snoc_slash {q : Str} (hq : q ≠ []) (base : Loc) : walk base (q ++ ['/']) = walk base q := by
  unfold walk
  rw [head?_append_ne hq, splitOn_append_sep, List.foldl_append]
  simp [splitOn, walkStep]

theorem noDir_plain {q : Str} (hq : PlainPath q) :
    (if endsWith q ['/'] then q.dropLast else q) = q ∨
    ∃ q', q = q' ++ ['/'] ∧ q' ≠ [] ∧ (if endsWith q ['/'] then q.dropLast else q) = q' := by
  by_cases h : endsWith q ['/'] = true
  · right
    obtain ⟨a, ha⟩ := endsWith_slash h
    refine ⟨a, ha, ?_, ?_⟩
    · rintro rfl
      have := hq.1
      rw [ha] at this
      exact absurd this (by decide)
    · rw [if_pos h, ha]; simp
  · left; rw [if_neg h]

theorem xcInit_plain {q : Str} (hq : '$' ∉ q) (name : Option Str) :
    ∃ n, xcInit name (some q) = (n, groupTree, some q) := by
  unfold xcInit
  dsimp only
  rw [sourceTree_plain hq]
  exact ⟨_, rfl⟩

theorem newFile_plain {q : Str} (hq : PlainPath q) (name : Option Str) (vars : Str → Loc) (base : Loc) :
    ∃ n r, newFile name q = .file n groupTree (some r) ∧ walk base r = walk base q ∧
      (endsWith q ['/'] = false → r = q) := by
  obtain ⟨n, hn⟩ := xcInit_plain hq.2 name
  unfold newFile
  rw [hn]
  refine ⟨n, _, rfl, ?_, ?_⟩
  · dsimp only
    rcases noDir_plain hq with h | ⟨q', h₁, h₂, h₃⟩
    · rw [h]
    · rw [h₃, h₁, walk_snoc_slash h₂]
  · intro h; dsimp only; rw [h]; rfl

theorem newGroup_plain {q : Str} (hq : '$' ∉ q) (v : Bool) (name : Option Str) :
    ∃ n, newGroup v name (some q) = .group v n groupTree (some q) [] := by
  obtain ⟨n, hn⟩ := xcInit_plain hq name
  unfold newGroup
  rw [hn]
  exact ⟨n, rfl⟩

theorem childByPath_some {children : List XNode} {q : Str} {i : Nat}
    (h : childByPath children q = some i) :
    q ≠ [] ∧ ∃ c, children[i]? = some c ∧ c.treePath = some q := by
  unfold childByPath at h
  split at h
  · cases h
  · rename_i hq
    refine ⟨hq, ?_⟩
    obtain ⟨hi, h₁, _⟩ := List.findIdx?_eq_some_iff_getElem.1 h
    exact ⟨children[i], List.getElem?_eq_getElem hi, by simpa using h₁⟩

theorem appendChild_some {children cs : List XNode} {c : XNode} (h : appendChild children c = some cs) :
    cs = children ++ [c] := by
  unfold appendChild at h
  split at h
  · split at h
    · cases h
    · exact (Option.some.inj h).symm
  · exact (Option.some.inj h).symm

theorem set_snoc {α : Type} (l : List α) (x y : α) : (l ++ [x]).set l.length y = l ++ [y] := by
  rw [List.set_append_right _ _ (Nat.le_refl _)]
  simp

/-! ### Paths -/

theorem normpath_parts {p : Str} (h : isAbs p = false) :
    ∃ cs : List Str, cs ≠ [] ∧ (∀ c ∈ cs, c ≠ [] ∧ '/' ∉ c) ∧ normpath p = joinWith ['/'] cs := by
  unfold normpath
  split
  · exact ⟨[dot], by simp, by decide, rfl⟩
  · have hs : initialSlashes p = 0 := by
      have : ¬ 0 < initialSlashes p := fun hp => by rw [initialSlashes_pos.mpr hp] at h; cases h
      omega
    obtain ⟨_, h2⟩ := normFold_walk (abs := isAbs p) (l := []) (fun _ => rfl) (splitOn '/' p)
      (fun c hc => mem_splitOn hc) [] (by simp)
    rw [hs]
    simp only [List.replicate_zero, List.nil_append]
    split
    · exact ⟨[dot], by simp, by decide, rfl⟩
    · rename_i hne
      refine ⟨_, ?_, ?_, rfl⟩
      · intro e; rw [e] at hne; exact hne rfl
      · intro c hc
        have := h2 c (List.mem_reverse.1 hc)
        exact ⟨this.1, this.2.2⟩

theorem joinWith_parts_ne {cs : List Str} (hne : cs ≠ []) (h : ∀ c ∈ cs, c ≠ [] ∧ '/' ∉ c) :
    joinWith ['/'] cs ≠ [] := by
  cases cs with
  | nil => exact absurd rfl hne
  | cons c cs =>
    have := (h c (by simp)).1
    cases cs with
    | nil => simpa [joinWith] using this
    | cons d ds => simp [joinWith]

theorem isAbs_joinWith_parts {cs : List Str} (h : ∀ c ∈ cs, c ≠ [] ∧ '/' ∉ c) :
    isAbs (joinWith ['/'] cs) = false := by
  rw [isAbs_false_iff]
  cases cs with
  | nil => simp [joinWith]
  | cons c cs =>
    obtain ⟨h1, h3⟩ := h c (by simp)
    have hc : c.head? ≠ some '/' := by
      cases c with
      | nil => simp
      | cons x xs =>
        simp at h3 ⊢
        exact fun e => h3.1 e.symm
    cases cs with
    | nil => simpa [joinWith]
    | cons d ds =>
      simp only [joinWith, List.append_assoc]
      rw [head?_append_ne h1]
      exact hc

theorem noSlash_endsWith {cs : List Str} (hne : cs ≠ []) (h : ∀ c ∈ cs, c ≠ [] ∧ '/' ∉ c) :
    endsWith (joinWith ['/'] cs) ['/'] = false := by
  cases hb : endsWith (joinWith ['/'] cs) ['/'] with
  | false => rfl
  | true =>
    exfalso
    obtain ⟨a, ha⟩ := endsWith_slash hb
    have h₁ := splitOn_joinWith (c := '/') hne (fun w hw => (h w hw).2)
    rw [ha, splitOn_append_sep] at h₁
    have : ([] : Str) ∈ cs := by rw [← h₁]; simp [splitOn]
    exact (h _ this).1 rfl

theorem cleanPath_plain {p : Str} (h : PlainPath p) : PlainPath (cleanPath p) := by
  have h₁ : PlainPath (normpath p) := by
    refine ⟨isAbs_normpath_rel h.1, ?_⟩
    intro hm
    rcases mem_normpath hm with hm | hm | hm
    · exact h.2 hm
    · exact absurd hm (by decide)
    · exact absurd hm (by decide)
  unfold cleanPath
  split
  · refine ⟨?_, by simp [h₁.2]⟩
    rw [isAbs_false_iff, head?_append_ne (normpath_ne_nil p)]
    exact isAbs_false_iff.1 h₁.1
  · exact h₁

theorem walk_cleanPath (p : Str) (base : Loc) : walk base (cleanPath p) = walk base p := by
  unfold cleanPath
  split
  · rw [walk_snoc_slash (normpath_ne_nil p), walk_normpath]
  · exact walk_normpath base p

theorem xgWalk_slash {a b : Str} (ha : a ≠ []) (hb : isAbs b = false) (base : Loc) :
    walk base (a ++ '/' :: b) = walk (walk base a) b := by
  unfold walk
  rw [head?_append_ne ha, splitOn_append_sep, List.foldl_append]
  rw [if_neg (isAbs_false_iff.1 hb)]

/-- What is left of a path when its first part is taken off. -/
theorem cleanPath_split {p : Str} (h : PlainPath p)
    (hr : ¬ ((splitOn '/' (cleanPath p)).length = 1 ∨
      (endsWith p ['/'] = true ∧ (splitOn '/' (cleanPath p)).length = 2))) :
    let next := (splitOn '/' (cleanPath p)).headD []
    let rest := joinWith ['/'] (splitOn '/' (cleanPath p)).tail
    PlainPath next ∧ next ≠ [] ∧ PlainPath rest ∧
      endsWith rest ['/'] = endsWith p ['/'] ∧
      ∀ base, walk (walk base next) rest = walk base p := by
  intro next rest
  obtain ⟨cs, hne, hcs, he⟩ := normpath_parts h.1
  have hsplit : ∃ d ds tail, cs = d :: ds ∧ splitOn '/' (cleanPath p) = d :: (ds ++ tail) ∧
      (tail = [] ∧ endsWith p ['/'] = false ∨ tail = [[]] ∧ endsWith p ['/'] = true) := by
    cases cs with
    | nil => exact absurd rfl hne
    | cons d ds =>
      have hs := splitOn_joinWith (c := '/') hne (fun w hw => (hcs w hw).2)
      unfold cleanPath
      rw [he]
      by_cases hd : endsWith p ['/'] = true
      · refine ⟨d, ds, [[]], rfl, ?_, .inr ⟨rfl, hd⟩⟩
        rw [if_pos hd, splitOn_append_sep, hs]
        simp [splitOn]
      · refine ⟨d, ds, [], rfl, ?_, .inl ⟨rfl, by simpa using hd⟩⟩
        rw [if_neg hd, hs]
        simp
  obtain ⟨d, ds, tail, rfl, hs, ht⟩ := hsplit
  have hds : ds ≠ [] := by
    rintro rfl
    rw [hs] at hr
    rcases ht with ⟨rfl, hd⟩ | ⟨rfl, hd⟩
    · exact hr (.inl rfl)
    · exact hr (.inr ⟨hd, rfl⟩)
  have hn : next = d := by simp [next, hs]
  have hrest : rest = joinWith ['/'] (ds ++ tail) := by simp [rest, hs]
  have hdsk : ∀ c ∈ ds, c ≠ [] ∧ '/' ∉ c := fun c hc => hcs c (by simp [hc])
  have hrest' : rest = if endsWith p ['/'] then joinWith ['/'] ds ++ ['/'] else joinWith ['/'] ds := by
    rw [hrest]
    rcases ht with ⟨rfl, hd⟩ | ⟨rfl, hd⟩
    · simp [hd]
    · rw [hd, joinWith_snoc_ne hds]; simp
  have hjne := joinWith_parts_ne hds hdsk
  have habs : isAbs rest = false := by
    rw [hrest']
    split
    · rw [isAbs_false_iff, head?_append_ne hjne]
      exact isAbs_false_iff.1 (isAbs_joinWith_parts hdsk)
    · exact isAbs_joinWith_parts hdsk
  have hdn := hcs d (by simp)
  have hclean : cleanPath p = next ++ '/' :: rest := by
    have := joinWith_splitOn (c := '/') (s := cleanPath p)
    rw [hs] at this
    rw [← this, hn, hrest]
    cases hx : ds ++ tail with
    | nil => simp at hx; exact absurd hx.1 hds
    | cons y ys => simp [joinWith]
  have hp := cleanPath_plain h
  have hd1 : '$' ∉ next := fun hm => hp.2 (by rw [hclean]; simp [hm])
  have hd2 : '$' ∉ rest := fun hm => hp.2 (by rw [hclean]; simp [hm])
  refine ⟨⟨?_, hd1⟩, hn ▸ hdn.1, ⟨habs, hd2⟩, ?_, ?_⟩
  · rw [hn]
    have := isAbs_joinWith_parts (cs := [d]) (by simpa using hdn)
    simpa [joinWith] using this
  · rw [hrest']
    cases hd : endsWith p ['/'] with
    | false => simp [noSlash_endsWith hds hdsk]
    | true =>
      simp only [if_true]
      unfold endsWith
      rw [List.isSuffixOf_iff_suffix]
      exact List.suffix_append _ _
  · intro base
    rw [← xgWalk_slash (hn ▸ hdn.1) habs, ← hclean, walk_cleanPath]

/-! ### Places -/

theorem objectAt_file {vars : Str → Loc} {base : Loc} {nodes : List XNode} {i : Nat} {n : Option Str}
    {t : Str} {p : Option Str} (h : nodes[i]? = some (.file n t p)) :
    objectAt vars base nodes [i] = some (.file n t p, leads vars base t p) := by
  simp [objectAt, h]

theorem objectAt_group {vars : Str → Loc} {base : Loc} {nodes : List XNode} {i : Nat} {v : Bool}
    {n : Option Str} {t : Str} {p : Option Str} {cs : List XNode}
    (h : nodes[i]? = some (.group v n t p cs)) (rest : List Nat) :
    objectAt vars base nodes (i :: rest) =
      if rest = [] then some (.group v n t p cs, leads vars base t p)
      else objectAt vars (leads vars base t p) cs rest := by
  simp [objectAt, h]

theorem sameObject_refl (a : XNode) : SameObject a a := by
  cases a <;> simp [SameObject]

theorem sameObject_trans {a b c : XNode} (h : SameObject a b) (h' : SameObject b c) :
    SameObject a c := by
  cases a <;> cases b <;> cases c <;> simp_all [SameObject]

/-- Everything is still where it was, and leads to where it led. -/
def StaysPut (before after : List XNode) : Prop :=
  ∀ (vars : Str → Loc) (base : Loc) (place : List Nat) (node : XNode) (loc : Loc),
    objectAt vars base before place = some (node, loc) →
    ∃ node', objectAt vars base after place = some (node', loc) ∧ SameObject node node'

theorem staysPut_refl (a : List XNode) : StaysPut a a :=
  fun _ _ _ node _ h => ⟨node, h, sameObject_refl node⟩

theorem staysPut_append (a b : List XNode) : StaysPut a (a ++ b) := by
  intro vars base place node loc h
  refine ⟨node, ?_, sameObject_refl node⟩
  cases place with
  | nil => simp [objectAt] at h
  | cons i rest =>
    unfold objectAt at h ⊢
    have hi : i < a.length := by
      by_contra hi
      rw [List.getElem?_eq_none (by omega)] at h
      cases h
    rw [List.getElem?_append_left hi]
    exact h

theorem staysPut_set {a cs cs' : List XNode} {i : Nat} {v : Bool} {n : Option Str} {t : Str}
    {p : Option Str} (hi : a[i]? = some (.group v n t p cs)) (hc : StaysPut cs cs') :
    StaysPut a (a.set i (.group v n t p cs')) := by
  intro vars base place node loc h
  cases place with
  | nil => simp [objectAt] at h
  | cons j rest =>
    by_cases hj : j = i
    · subst hj
      have hlt : j < a.length := by
        by_contra hlt
        rw [List.getElem?_eq_none (by omega)] at hi
        cases hi
      rw [objectAt_group hi] at h
      rw [objectAt_group (by rw [List.getElem?_set_self hlt])]
      split at h
      · rename_i hr
        rw [if_pos hr]
        obtain ⟨rfl, rfl⟩ := Prod.mk.inj (Option.some.inj h)
        exact ⟨_, rfl, by simp [SameObject]⟩
      · rename_i hr
        rw [if_neg hr]
        exact hc _ _ _ _ _ h
    · refine ⟨node, ?_, sameObject_refl node⟩
      unfold objectAt at h ⊢
      rw [List.getElem?_set_ne (fun e => hj e.symm)]
      exact h

theorem staysPut_addVariant {cs cs' : List XNode} {name path : Str}
    (h : addVariant cs name path = some cs') : StaysPut cs cs' := by
  unfold addVariant at h
  split at h
  · split at h
    · exact (Option.some.inj h) ▸ staysPut_refl _
    · cases h
  · rw [appendChild_some h]; exact staysPut_append _ _

theorem staysPut_add {fuel : Nat} {children children' : List XNode} {path : Str} {hier : Bool}
    {place : List Nat} (h : addOrGetFile fuel children path hier = some (children', place)) :
    StaysPut children children' := by
  induction fuel generalizing children children' path place with
  | zero => simp [addOrGetFile] at h
  | succ fuel ih =>
    unfold addOrGetFile at h
    dsimp only at h
    split at h
    · cases h
    · split at h
      · split at h
        · unfold addVariantHere at h
          split at h
          · split at h
            · rename_i hi
              obtain ⟨cs', h₁, h₂⟩ := Option.map_eq_some_iff.1 h
              obtain ⟨rfl, _⟩ := Prod.mk.inj h₂
              exact staysPut_set hi (staysPut_addVariant h₁)
            · cases h
          · split at h
            · split at h
              · rename_i h₁ _
                rw [appendChild_some h₁, set_snoc] at h
                obtain ⟨rfl, _⟩ := Prod.mk.inj (Option.some.inj h)
                exact staysPut_append _ _
              · cases h
            · cases h
        · unfold addFileHere at h
          split at h
          · split at h
            · obtain ⟨rfl, _⟩ := Prod.mk.inj (Option.some.inj h)
              exact staysPut_refl _
            · cases h
          · obtain ⟨cs, h₁, h₂⟩ := Option.map_eq_some_iff.1 h
            obtain ⟨rfl, _⟩ := Prod.mk.inj h₂
            rw [appendChild_some h₁]
            exact staysPut_append _ _
      · split at h
        · split at h
          · rename_i hi
            obtain ⟨r, h₁, h₂⟩ := Option.map_eq_some_iff.1 h
            obtain ⟨rfl, _⟩ := Prod.mk.inj h₂
            exact staysPut_set hi (ih h₁)
          · cases h
        · split at h
          · split at h
            · rename_i h₁
              obtain ⟨r, _, h₂⟩ := Option.map_eq_some_iff.1 h
              obtain ⟨rfl, _⟩ := Prod.mk.inj h₂
              rw [appendChild_some h₁, set_snoc]
              exact staysPut_append _ _
            · cases h
          · cases h

end Gyp
