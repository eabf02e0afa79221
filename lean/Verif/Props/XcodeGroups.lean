import Verif.Proofs.XcodeGroups
/-
C112: the files of an Xcode project lead to where the paths in the gyp file do.
-/
namespace Gyp
open Gyp.Spec

theorem refersTo_inside {vars : Str → Loc} {base loc : Loc} {nodes cs : List XNode} {i : Nat} {v : Bool}
    {n : Option Str} {t : Str} {p : Option Str} {place : List Nat}
    (hi : nodes[i]? = some (.group v n t p cs))
    (h : ReferenceTo vars (leads vars base t p) cs place loc) : ReferenceTo vars base nodes (i :: place) loc := by
  have hne : ∀ {q x}, objectAt vars (leads vars base t p) cs q = some x → q ≠ [] := by
    rintro q x hq rfl
    simp [objectAt] at hq
  rcases h with ⟨n', t', p', h⟩ | ⟨n', t', p', cs', a, j, n'', t'', p'', h, h'⟩
  · left
    exact ⟨n', t', p', by rw [objectAt_group hi, if_neg (hne h)]; exact h⟩
  · right
    refine ⟨n', t', p', cs', a, j, n'', t'', p'', ?_, ?_⟩
    · rw [objectAt_group hi, if_neg (hne h)]; exact h
    · rw [List.cons_append, objectAt_group hi, if_neg (hne h')]; exact h'

theorem refersTo_fileHere {vars : Str → Loc} {base : Loc} {children children' : List XNode} {q : Str}
    {place : List Nat} (hq : PlainPath q) (h : addFileHere children q = some (children', place)) :
    ReferenceTo vars base children' place (walk base q) := by
  unfold addFileHere at h
  left
  split at h
  · rename_i i hi
    obtain ⟨_, c, h₁, h₂⟩ := childByPath_some hi
    rw [h₁] at h
    split at h
    · rename_i n t p e
      obtain ⟨rfl, rfl⟩ := Prod.mk.inj (Option.some.inj h)
      rw [Option.some.injEq] at e
      subst e
      obtain ⟨rfl, rfl⟩ := treePath_plain hq h₂
      exact ⟨_, _, _, by rw [objectAt_file h₁, leads_group]⟩
    · cases h
  · obtain ⟨cs, h₁, h₂⟩ := Option.map_eq_some_iff.1 h
    obtain ⟨rfl, rfl⟩ := Prod.mk.inj h₂
    obtain ⟨n, r, e, hw, _⟩ := newFile_plain hq none vars base
    rw [appendChild_some h₁, e]
    exact ⟨n, groupTree, some r, by
      rw [objectAt_file (n := n) (t := groupTree) (p := some r) (by simp), leads_group, hw]⟩

theorem refersTo_addVariant {vars : Str → Loc} {base : Loc} {cs cs' : List XNode} {name q : Str}
    (hq : PlainPath q) (h : addVariant cs name q = some cs') :
    ∃ i n t p, objectAt vars base cs' [i] = some (.file n t p, walk base q) := by
  unfold addVariant at h
  split at h
  · rename_i i hi
    obtain ⟨_, c, h₁, h₂⟩ := childByPath_some hi
    rw [h₁] at h
    split at h
    · rename_i n t p e
      rw [← Option.some.inj h]
      rw [Option.some.injEq] at e
      subst e
      obtain ⟨rfl, rfl⟩ := treePath_plain hq h₂
      exact ⟨i, _, _, _, by rw [objectAt_file h₁, leads_group]⟩
    · cases h
  · obtain ⟨n, r, e, hw, _⟩ := newFile_plain hq (some name) vars base
    rw [appendChild_some h, e]
    exact ⟨cs.length, n, groupTree, some r, by
      rw [objectAt_file (n := n) (t := groupTree) (p := some r) (by simp), leads_group, hw]⟩

theorem variantGroupAt_some {children : List XNode} {name : Str} {path : Option Str} {i : Nat}
    (h : variantGroupAt children name path = some i) :
    ∃ t p cs, children[i]? = some (.group true (some name) t p cs) ∧ treePath t p = path := by
  unfold variantGroupAt at h
  obtain ⟨hi, h₁, _⟩ := List.findIdx?_eq_some_iff_getElem.1 h
  have h₂ := List.getElem?_eq_getElem hi
  rw [h₂]
  split at h₁
  · rename_i n t p cs e
    simp only [decide_eq_true_eq] at h₁
    rw [e, h₁.1]
    exact ⟨t, p, cs, rfl, h₁.2⟩
  · cases h₁

theorem treePath_none {t : Str} {p : Option Str} (h : treePath t p = none) : t = groupTree ∧ p = none := by
  unfold treePath at h
  split at h
  · cases p <;> cases h
  · rename_i ht
    exact ⟨by simpa using ht, h⟩

theorem refersTo_variantHere {vars : Str → Loc} {base : Loc} {children children' : List XNode}
    {variant name q : Str} {place : List Nat} (hq : PlainPath q)
    (h : addVariantHere children variant name none q = some (children', place)) :
    ReferenceTo vars base children' place (walk base q) := by
  unfold addVariantHere at h
  right
  split at h
  · rename_i i hi
    obtain ⟨t, p, cs, h₁, h₂⟩ := variantGroupAt_some hi
    rw [h₁] at h
    dsimp only at h
    obtain ⟨cs', h₃, h₄⟩ := Option.map_eq_some_iff.1 h
    obtain ⟨rfl, rfl⟩ := Prod.mk.inj h₄
    obtain ⟨rfl, rfl⟩ := treePath_none h₂
    obtain ⟨j, n', t', p', hf⟩ := refersTo_addVariant (vars := vars) (base := base) hq h₃
    have hlt : i < children.length := by
      by_contra hlt
      rw [List.getElem?_eq_none (by omega)] at h₁
      cases h₁
    have hg := List.getElem?_set_self (a := XNode.group true (some name) groupTree none cs') hlt
    refine ⟨some name, groupTree, none, cs', leads vars base groupTree none, j, n', t', p', ?_, ?_⟩
    · rw [objectAt_group hg, if_pos rfl]
    · rw [List.singleton_append, objectAt_group hg, if_neg (by simp), leads_none]
      exact hf
  · have hn : newGroup true (some name) none = .group true (some name) groupTree none [] := rfl
    rw [hn] at h
    dsimp only at h
    split at h
    · rename_i children'' cs' h₁ h₃
      rw [appendChild_some h₁, set_snoc] at h
      obtain ⟨rfl, rfl⟩ := Prod.mk.inj (Option.some.inj h)
      obtain ⟨j, n', t', p', hf⟩ := refersTo_addVariant (vars := vars) (base := base) hq h₃
      have hg : (children ++ [XNode.group true (some name) groupTree none cs'])[children.length]? =
          some (.group true (some name) groupTree none cs') := by simp
      refine ⟨some name, groupTree, none, cs', leads vars base groupTree none, j, n', t', p', ?_, ?_⟩
      · rw [objectAt_group hg, if_pos rfl]
      · rw [List.singleton_append, objectAt_group hg, if_neg (by simp), leads_none]
        exact hf
    · cases h

/-- The parts of a path of two. -/
theorem clean_two {p : Str} (h : PlainPath p) (hd : endsWith p ['/'] = false)
    (hl : (splitOn '/' (cleanPath p)).length ≤ 2) :
    dirname (dirname (cleanPath p)) = [] ∧
    joinWith ['/'] ((splitOn '/' (cleanPath p)).drop ((splitOn '/' (cleanPath p)).length - 2)) =
      cleanPath p := by
  constructor
  · obtain ⟨cs, hne, hcs, he⟩ := normpath_parts h.1
    have hc : cleanPath p = joinWith ['/'] cs := by unfold cleanPath; rw [hd, he]; rfl
    rw [hc, splitOn_joinWith hne (fun w hw => (hcs w hw).2)] at hl
    rw [hc]
    match cs, hne, hcs, hl with
    | [a], _, hcs, _ =>
      have ha := hcs a (by simp)
      have : dirname (joinWith ['/'] [a]) = [] := by
        unfold dirname joinWith
        rw [rsplit1_none_iff.2 ha.2]
      rw [this]; rfl
    | [a, b], _, hcs, _ =>
      have ha := hcs a (by simp)
      have hb := hcs b (by simp)
      have h₁ : dirname (joinWith ['/'] [a, b]) = a := by
        unfold dirname
        rw [show joinWith ['/'] [a, b] = a ++ '/' :: b by simp [joinWith], rsplit1_append hb.2]
        dsimp only
        rw [if_neg]
        · rw [List.reverse_append]
          simp only [List.reverse_singleton, List.singleton_append]
          rw [List.dropWhile_cons_of_pos (by simp)]
          have : (a.reverse.dropWhile fun x => decide (x = '/')) = a.reverse := by
            cases har : a.reverse with
            | nil => rfl
            | cons x xs =>
              refine List.dropWhile_cons_of_neg ?_
              simp only [decide_eq_true_eq]
              intro e
              exact ha.2 (List.mem_reverse.1 (by rw [har, e]; simp))
          rw [this, List.reverse_reverse]
        · intro hall
          cases a with
          | nil => exact ha.1 rfl
          | cons x xs =>
            simp only [List.cons_append, List.all_cons, Bool.and_eq_true, decide_eq_true_eq] at hall
            exact ha.2 (by rw [← hall.1]; simp)
      rw [h₁]
      unfold dirname
      rw [rsplit1_none_iff.2 ha.2]
  · rw [show (splitOn '/' (cleanPath p)).length - 2 = 0 by omega, List.drop_zero, joinWith_splitOn]

/-- **C112.**  The reference that is added (or was there already) for a path leads to where the path
does.  The path is relative and names no variable; `base` is where the group leads. -/
theorem C112_found_partial {fuel : Nat} {children children' : List XNode} {path : Str} {place : List Nat}
    (h : addOrGetFile fuel children path true = some (children', place)) (habs : isAbs path = false)
    (hvar : '$' ∉ path) (vars : Str → Loc) (base : Loc) :
    ReferenceTo vars base children' place (walk base path) := by
  induction fuel generalizing children children' path place base with
  | zero => simp [addOrGetFile] at h
  | succ fuel ih =>
    have hp : PlainPath path := ⟨habs, hvar⟩
    have hq := cleanPath_plain hp
    unfold addOrGetFile at h
    dsimp only at h
    split at h
    · cases h
    · rename_i hdv
      split at h
      · rename_i hlen
        rw [← walk_cleanPath]
        split at h
        · rename_i hv
          have hd : endsWith path ['/'] = false := by
            cases hd : endsWith path ['/'] with
            | false => rfl
            | true => rw [hd, hv] at hdv; exact absurd rfl hdv
          have hl : (splitOn '/' (cleanPath path)).length ≤ 2 := by
            rcases hlen with e | e | e
            · omega
            · omega
            · cases e
          obtain ⟨h₁, h₂⟩ := clean_two hp hd hl
          rw [if_pos h₁, h₂] at h
          exact refersTo_variantHere hq h
        · exact refersTo_fileHere hq h
      · rename_i hlen
        have hsp := cleanPath_split hp (by
          intro hx
          rcases hx with e | ⟨e₁, e₂⟩
          · exact hlen (.inl e)
          · exact hlen (.inr (.inl ⟨by rw [e₁, Bool.true_or], e₂⟩)))
        obtain ⟨hn, hn0, hrest, _, hw⟩ := hsp
        rw [← hw]
        split at h
        · rename_i i hi
          obtain ⟨_, c, h₁, h₂⟩ := childByPath_some hi
          split at h
          · rename_i n t p cs hg
            rw [h₁, Option.some.injEq] at hg
            subst hg
            obtain ⟨rfl, rfl⟩ := treePath_plain hn h₂
            obtain ⟨r, h₃, h₄⟩ := Option.map_eq_some_iff.1 h
            obtain ⟨rfl, rfl⟩ := Prod.mk.inj h₄
            have hlt : i < children.length := by
              by_contra hlt
              rw [List.getElem?_eq_none (by omega)] at h₁
              cases h₁
            refine refersTo_inside (List.getElem?_set_self hlt) ?_
            rw [leads_group]
            exact ih h₃ hrest.1 hrest.2 _
          · cases h
        · obtain ⟨n, hg⟩ := newGroup_plain hn.2 false none
          rw [hg] at h
          dsimp only at h
          split at h
          · rename_i h₁
            obtain ⟨r, h₃, h₄⟩ := Option.map_eq_some_iff.1 h
            obtain ⟨rfl, rfl⟩ := Prod.mk.inj h₄
            rw [appendChild_some h₁, set_snoc]
            refine refersTo_inside (v := false) (n := n) (t := groupTree)
              (p := some ((splitOn '/' (cleanPath path)).headD [])) (cs := r.1) (by simp) ?_
            rw [leads_group]
            exact ih h₃ hrest.1 hrest.2 _
          · cases h

/-- **C112.**  The same for a group that is one list, for a file that is not a localization. -/
theorem C112_flat {fuel : Nat} {children children' : List XNode} {path : Str} {place : List Nat}
    (h : addOrGetFile fuel children path false = some (children', place)) (habs : isAbs path = false)
    (hvar : '$' ∉ path) (hloc : (splitext (basename (dirname (cleanPath path)))).2 ≠ c!".lproj")
    (vars : Str → Loc) (base : Loc) : ReferenceTo vars base children' place (walk base path) := by
  cases fuel with
  | zero => simp [addOrGetFile] at h
  | succ fuel =>
    unfold addOrGetFile at h
    dsimp only at h
    rw [decide_eq_false hloc] at h
    simp only [Bool.and_false, Bool.false_eq_true, if_false, or_true, if_true] at h
    rw [← walk_cleanPath]
    exact refersTo_fileHere (cleanPath_plain ⟨habs, hvar⟩) h

/-- **C112.**  What was in the groups before stays where it was, and leads to where it led. -/
theorem C112_stays {fuel : Nat} {children children' : List XNode} {path : Str} {hier : Bool}
    {place : List Nat} (h : addOrGetFile fuel children path hier = some (children', place))
    (vars : Str → Loc) (base : Loc) {q : List Nat} {node : XNode} {loc : Loc}
    (hq : objectAt vars base children q = some (node, loc)) :
    ∃ node', objectAt vars base children' q = some (node', loc) ∧ SameObject node node' :=
  staysPut_add h vars base q node loc hq

/-! ### Taking over only children -/

theorem leads_takeOver (vars : Str → Loc) (base : Loc) (n n' : Option Str) (t t' : Str)
    (p p' : Option Str) :
    leads vars base (takeOverProps n t p n' t' p').2.1 (takeOverProps n t p n' t' p').2.2 =
      leads vars (leads vars base t p) t' p' := by
  unfold takeOverProps
  dsimp only
  by_cases ht : t' = groupTree
  · rw [if_pos ht]
    dsimp only
    subst ht
    cases p <;> cases p' <;> simp [leads, groupTree, walk_join]
  · rw [if_neg ht]
    simp only [leads]
    rw [if_neg (show ¬ t' = c!"<group>" from ht), if_neg (show ¬ t' = c!"<group>" from ht)]

theorem filesLead_append (vars : Str → Loc) (base : Loc) (a b : List XNode) :
    filesLead vars base (a ++ b) = filesLead vars base a ++ filesLead vars base b := by
  induction a with
  | nil => simp [filesLead, nodeLeads]
  | cons x xs ih =>
    simp [filesLead, ih]

mutual
theorem filesLead_takeOver (vars : Str → Loc) (base : Loc) (n : Option Str) (t : Str) (p : Option Str) :
    (cs : List XNode) →
    filesLead vars base [takeOver n t p cs] = filesLead vars (leads vars base t p) cs
  | [.group false n' t' p' cs'] => by
    rw [takeOver]
    rw [filesLead_takeOver vars base _ _ _ cs', leads_takeOver]
    simp [filesLead, nodeLeads]
  | [] => by simp [takeOver, filesLead, nodeLeads, takeOverAll]
  | [.file a b c] => by
    rw [takeOver]
    · simp [filesLead, nodeLeads, takeOverAll]
    · intro _ _ _ _ e; cases e
  | [.group true a b c d] => by
    rw [takeOver]
    · simp [filesLead, nodeLeads, takeOverAll]
    · intro _ _ _ _ e; cases e
  | x :: y :: rest => by
    rw [takeOver]
    · rw [show filesLead vars base [.group false n t p (takeOverAll (x :: y :: rest))] =
        filesLead vars (leads vars base t p) (takeOverAll (x :: y :: rest)) by simp [filesLead, nodeLeads]]
      exact filesLead_takeOverAll vars _ (x :: y :: rest)
    · intro _ _ _ _ e; cases e
termination_by cs => (sizeOf cs, 1)

theorem filesLead_takeOverAll (vars : Str → Loc) (base : Loc) :
    (cs : List XNode) → filesLead vars base (takeOverAll cs) = filesLead vars base cs
  | [] => by simp [takeOverAll]
  | .group false n t p cs :: rest => by
    rw [takeOverAll]
    have h₁ := filesLead_takeOver vars base n t p cs
    have h₂ := filesLead_takeOverAll vars base rest
    rw [show takeOver n t p cs :: takeOverAll rest = [takeOver n t p cs] ++ takeOverAll rest from rfl,
      filesLead_append, h₁, h₂]
    simp [filesLead, nodeLeads]
  | .group true n t p cs :: rest => by
    rw [takeOverAll]
    · simp [filesLead, nodeLeads, filesLead_takeOverAll vars base rest]
    · intro _ _ _ _ e; cases e
  | .file n t p :: rest => by
    rw [takeOverAll]
    · simp [filesLead, nodeLeads, filesLead_takeOverAll vars base rest]
    · intro _ _ _ _ e; cases e
termination_by cs => (sizeOf cs, 0)
end

/-! ### Adding again -/

theorem findIdx?_append_none {α : Type} {f : α → Bool} {l : List α} {x : α} (h : l.findIdx? f = none)
    (hx : f x = true) : (l ++ [x]).findIdx? f = some l.length := by
  rw [List.findIdx?_append, h]
  simp [hx]

theorem findIdx?_set {α : Type} {f : α → Bool} {l : List α} {i : Nat} {x : α} (h : l.findIdx? f = some i)
    (hx : f x = true) : (l.set i x).findIdx? f = some i := by
  obtain ⟨hi, h₁, h₂⟩ := List.findIdx?_eq_some_iff_getElem.1 h
  refine List.findIdx?_eq_some_iff_getElem.2 ⟨by simpa using hi, by simpa using hx, ?_⟩
  intro j hj
  rw [List.getElem_set_ne (by omega)]
  exact h₂ j hj

theorem addFileHere_again {children children' : List XNode} {q : Str} {place : List Nat} (hq : PlainPath q)
    (hne : q ≠ []) (hs : endsWith q ['/'] = false) (h : addFileHere children q = some (children', place)) :
    addFileHere children' q = some (children', place) := by
  unfold addFileHere at h
  split at h
  · rename_i i hi
    split at h
    · rename_i n t p e
      obtain ⟨rfl, rfl⟩ := Prod.mk.inj (Option.some.inj h)
      unfold addFileHere
      rw [hi]
      dsimp only
      rw [e]
    · cases h
  · rename_i hc
    obtain ⟨cs, h₁, h₂⟩ := Option.map_eq_some_iff.1 h
    obtain ⟨rfl, rfl⟩ := Prod.mk.inj h₂
    obtain ⟨n, r, e, _, hr⟩ := newFile_plain hq none (fun _ => []) []
    rw [appendChild_some h₁, e, hr hs]
    unfold childByPath at hc
    rw [if_neg hne] at hc
    unfold addFileHere childByPath
    rw [if_neg hne, findIdx?_append_none hc (by simp [XNode.treePath, treePath])]
    simp

theorem addVariant_again {cs cs' : List XNode} {name q : Str} (hq : PlainPath q)
    (hne : q ≠ []) (hs : endsWith q ['/'] = false) (h : addVariant cs name q = some cs') :
    addVariant cs' name q = some cs' := by
  unfold addVariant at h
  split at h
  · rename_i i hi
    split at h
    · rename_i n t p e
      obtain rfl := Option.some.inj h
      unfold addVariant
      rw [hi]
      dsimp only
      rw [e]
    · cases h
  · rename_i hc
    obtain ⟨n, r, e, _, hr⟩ := newFile_plain hq (some name) (fun _ => []) []
    rw [appendChild_some h, e, hr hs]
    unfold childByPath at hc
    rw [if_neg hne] at hc
    unfold addVariant childByPath
    rw [if_neg hne, findIdx?_append_none hc (by simp [XNode.treePath, treePath])]
    simp

theorem addVariantHere_again {children children' : List XNode} {variant name q : Str} {place : List Nat}
    (hq : PlainPath q) (hne : q ≠ []) (hs : endsWith q ['/'] = false)
    (h : addVariantHere children variant name none q = some (children', place)) :
    addVariantHere children' variant name none q = some (children', place) := by
  unfold addVariantHere at h
  split at h
  · rename_i i hi
    obtain ⟨t, p, cs, h₁, h₂⟩ := variantGroupAt_some hi
    rw [h₁] at h
    dsimp only at h
    obtain ⟨cs', h₃, h₄⟩ := Option.map_eq_some_iff.1 h
    obtain ⟨rfl, rfl⟩ := Prod.mk.inj h₄
    have hlt : i < children.length := by
      by_contra hlt
      rw [List.getElem?_eq_none (by omega)] at h₁
      cases h₁
    unfold addVariantHere variantGroupAt
    unfold variantGroupAt at hi
    rw [findIdx?_set hi (by simp [h₂])]
    dsimp only
    rw [List.getElem?_set_self hlt]
    dsimp only
    rw [addVariant_again hq hne hs h₃]
    simp
  · rename_i hi
    have hn : newGroup true (some name) none = .group true (some name) groupTree none [] := rfl
    rw [hn] at h
    dsimp only at h
    split at h
    · rename_i children'' cs' h₁ h₃
      rw [appendChild_some h₁, set_snoc] at h
      obtain ⟨rfl, rfl⟩ := Prod.mk.inj (Option.some.inj h)
      unfold addVariantHere variantGroupAt
      unfold variantGroupAt at hi
      rw [findIdx?_append_none hi (by simp [treePath])]
      dsimp only
      rw [show (children ++ [XNode.group true (some name) groupTree none cs'])[children.length]? =
          some (.group true (some name) groupTree none cs') by simp]
      dsimp only
      rw [addVariant_again hq hne hs h₃]
      simp
    · cases h

theorem cleanPath_file {p : Str} (h : PlainPath p) (hd : endsWith p ['/'] = false) :
    cleanPath p ≠ [] ∧ endsWith (cleanPath p) ['/'] = false := by
  obtain ⟨cs, hne, hcs, he⟩ := normpath_parts h.1
  have hc : cleanPath p = joinWith ['/'] cs := by unfold cleanPath; rw [hd, he]; rfl
  rw [hc]
  exact ⟨joinWith_parts_ne hne hcs, noSlash_endsWith hne hcs⟩

/-- **C112.**  When the path of a file is added again, nothing is added and the same reference is
given. -/
theorem C112_again {fuel : Nat} {children children' : List XNode} {path : Str} {place : List Nat}
    (h : addOrGetFile fuel children path true = some (children', place)) (habs : isAbs path = false)
    (hvar : '$' ∉ path) (hdir : endsWith path ['/'] = false) :
    addOrGetFile fuel children' path true = some (children', place) := by
  induction fuel generalizing children children' path place with
  | zero => simp [addOrGetFile] at h
  | succ fuel ih =>
    have hp : PlainPath path := ⟨habs, hvar⟩
    have hq := cleanPath_plain hp
    obtain ⟨hne, hs⟩ := cleanPath_file hp hdir
    unfold addOrGetFile at h ⊢
    dsimp only at h ⊢
    split at h
    · cases h
    · rename_i hdv
      rw [if_neg hdv]
      split at h
      · rename_i hlen
        rw [if_pos hlen]
        split at h
        · rename_i hv
          rw [if_pos hv]
          have hl : (splitOn '/' (cleanPath path)).length ≤ 2 := by
            rcases hlen with e | e | e
            · omega
            · omega
            · cases e
          obtain ⟨h₁, h₂⟩ := clean_two hp hdir hl
          rw [if_pos h₁, h₂] at h ⊢
          exact addVariantHere_again hq hne hs h
        · rename_i hv
          rw [if_neg hv]
          exact addFileHere_again hq hne hs h
      · rename_i hlen
        rw [if_neg hlen]
        have hsp := cleanPath_split hp (by
          intro hx
          rcases hx with e | ⟨e₁, e₂⟩
          · exact hlen (.inl e)
          · exact hlen (.inr (.inl ⟨by rw [e₁, Bool.true_or], e₂⟩)))
        obtain ⟨hn, hn0, hrest, hrd, hw⟩ := hsp
        rw [hdir] at hrd
        split at h
        · rename_i i hi
          obtain ⟨_, c, h₁, h₂⟩ := childByPath_some hi
          split at h
          · rename_i n t p cs hg
            rw [h₁, Option.some.injEq] at hg
            subst hg
            obtain ⟨r, h₃, h₄⟩ := Option.map_eq_some_iff.1 h
            obtain ⟨rfl, rfl⟩ := Prod.mk.inj h₄
            have hlt : i < children.length := by
              by_contra hlt
              rw [List.getElem?_eq_none (by omega)] at h₁
              cases h₁
            have hc : childByPath (children.set i (.group false n t p r.1))
                ((splitOn '/' (cleanPath path)).headD []) = some i := by
              unfold childByPath at hi ⊢
              rw [if_neg hn0] at hi ⊢
              exact findIdx?_set hi (by simpa [XNode.treePath] using h₂)
            rw [hc]
            dsimp only
            rw [List.getElem?_set_self hlt]
            dsimp only
            rw [ih h₃ hrest.1 hrest.2 hrd]
            simp
          · cases h
        · rename_i hi
          obtain ⟨n, hg⟩ := newGroup_plain hn.2 false none
          rw [hg] at h
          dsimp only at h
          split at h
          · rename_i h₁
            obtain ⟨r, h₃, h₄⟩ := Option.map_eq_some_iff.1 h
            obtain ⟨rfl, rfl⟩ := Prod.mk.inj h₄
            rw [appendChild_some h₁, set_snoc]
            have hc : childByPath (children ++ [.group false n groupTree
                (some ((splitOn '/' (cleanPath path)).headD [])) r.1])
                ((splitOn '/' (cleanPath path)).headD []) = some children.length := by
              unfold childByPath at hi ⊢
              rw [if_neg hn0] at hi ⊢
              exact findIdx?_append_none hi (by simp [XNode.treePath, treePath])
            rw [hc]
            dsimp only
            rw [show (children ++ [XNode.group false n groupTree
                (some ((splitOn '/' (cleanPath path)).headD [])) r.1])[children.length]? =
              some (.group false n groupTree (some ((splitOn '/' (cleanPath path)).headD [])) r.1) by simp]
            dsimp only
            rw [ih h₃ hrest.1 hrest.2 hrd]
            simp
          · cases h

/-! ### It can be done -/

/-- An example: two files and a localized one; the first again. -/
def sampleGroups : Option (List XNode × List Nat) := do
  let a ← addOrGetFile 9 [] c!"src/a/x.cc" true
  let b ← addOrGetFile 9 a.1 c!"src/./b/../b/y.cc" true
  addOrGetFile 9 b.1 c!"res/en.lproj/Main.xib" true

set_option maxRecDepth 10000 in
example : (sampleGroups.map fun r => (r.2, (filesLead (fun _ => []) [c!"proj"] r.1).map List.reverse)) =
    some ([1, 0], [[c!"proj", c!"src", c!"a", c!"x.cc"], [c!"proj", c!"src", c!"b", c!"y.cc"],
      [c!"proj", c!"res", c!"en.lproj", c!"Main.xib"]]) := by decide +kernel

set_option maxRecDepth 10000 in
example : (sampleGroups.bind fun r => (addOrGetFile 9 r.1 c!"src/a/x.cc" true).map fun x => x.2) =
    some [0, 0, 0] := by decide +kernel

/-! ### Where it does not hold -/

set_option maxRecDepth 10000 in
/-- **C112** does not hold of a directory: a bundle or a folder that is named by two targets with a slash
at its end cannot be added twice. -/
theorem C112_directory_twice :
    ((addOrGetFile 9 [] c!"res/d/" true).map fun r => r.2) = some [0, 0] ∧
    ((addOrGetFile 9 [] c!"res/d/" true).bind fun r => (addOrGetFile 9 r.1 c!"res/d/" true).map
      fun x => x.2) = none := by
  constructor <;> decide +kernel

set_option maxRecDepth 10000 in
/-- **C112** does not hold of an absolute path: the reference leads into the project, and each time the
path is added there is one more. -/
theorem C112_absolute :
    ((addOrGetFile 9 [] c!"/opt/b.c" true).map fun r => (filesLead (fun _ => []) [c!"proj"] r.1).map List.reverse) =
      some [[c!"proj", c!"opt", c!"b.c"]] ∧
    ((addOrGetFile 9 [] c!"/opt/b.c" true).bind fun r => (addOrGetFile 9 r.1 c!"/opt/b.c" true).map
      fun x => (filesLead (fun _ => []) [c!"proj"] x.1).map List.reverse) =
      some [[c!"proj", c!"opt", c!"b.c"], [c!"proj", c!"opt", c!"b.c"]] := by
  constructor <;> decide +kernel

set_option maxRecDepth 10000 in
/-- **C112** does not hold of a variable that is not the first part: the group of that part starts at
the variable, and what came before it is lost. -/
theorem C112_variable_inside :
    ((addOrGetFile 9 [] c!"out/$(ARCH)/b.o" true).map fun r =>
      (filesLead (fun v => [c!"value of " ++ v]) [c!"proj"] r.1).map List.reverse) =
      some [[c!"value of ARCH", c!"b.o"]] := by decide +kernel

/-- **C112.**  A path that begins with a variable is told as the variable and what follows the slash after it;
a variable alone has nothing that follows. -/
theorem C112_leading_variable {v : Str} (hv : ')' ∉ v) (rest : Str) :
    sourceTreeAndPath (c!"$(" ++ v ++ c!")/" ++ rest) = some (v, some rest) ∧
    sourceTreeAndPath (c!"$(" ++ v ++ c!")") = some (v, none) := by
  have h : ∀ v : Str, ')' ∉ v → leadingVariable (v ++ c!")/" ++ rest) = some (v, some rest) ∧
      leadingVariable (v ++ c!")") = some (v, none) := by
    intro v
    induction v with
    | nil => intro _; simp [leadingVariable]
    | cons c v ih =>
      intro hc
      simp only [List.mem_cons, not_or] at hc
      obtain ⟨i₁, i₂⟩ := ih hc.2
      have hne : c ≠ ')' := fun e => hc.1 e.symm
      constructor
      · rw [List.cons_append, List.cons_append, leadingVariable, if_neg (fun h => hne h.1), if_neg (fun h => hne h.1), i₁]
        rfl
      · rw [List.cons_append, leadingVariable, if_neg (fun h => hne h.1), if_neg (fun h => hne h.1), i₂]
        rfl
  have hs : ∀ t : Str, sourceTreeAndPath (c!"$(" ++ t) = leadingVariable t := by
    intro t
    simp [sourceTreeAndPath, startsWith, List.isPrefixOf]
  constructor
  · rw [List.append_assoc, List.append_assoc, hs, ← List.append_assoc]; exact (h v hv).1
  · rw [List.append_assoc, hs]; exact (h v hv).2

example : sourceTreeAndPath c!"$(SDKROOT)/usr/lib" = some (c!"SDKROOT", some c!"usr/lib") := by decide

set_option maxRecDepth 10000 in
/-- A path that begins with a variable leads to below the variable. -/
example : ((addOrGetFile 9 [] c!"$(SDKROOT)/usr/lib/libz.a" true).map fun r =>
      (filesLead (fun v => [c!"value of " ++ v]) [c!"proj"] r.1).map List.reverse) =
      some [[c!"value of SDKROOT", c!"usr", c!"lib", c!"libz.a"]] := by decide +kernel

/-- **C112.**  When groups are merged with their only group, the files keep their order and lead to
where they led. -/
theorem C112_merged (vars : Str → Loc) (base : Loc) (n : Option Str) (t : Str) (p : Option Str)
    (cs : List XNode) :
    filesLead vars base [takeOver n t p cs] = filesLead vars base [.group false n t p cs] := by
  rw [filesLead_takeOver]
  simp [filesLead, nodeLeads]

/-- Two groups that are each other's only child are merged; their file leads to where it did. -/
example : takeOver none c!"<group>" (some c!"..")
    [.group false none c!"<group>" (some c!"src") [.file none c!"<group>" (some c!"a.cc")]] =
      .group false none c!"<group>" (some c!"../src") [.file none c!"<group>" (some c!"a.cc")] := by
  rw [takeOver, takeOver, takeOverAll, takeOverAll]
  · rfl
  · intro _ _ _ _ e; cases e
  · intro _ _ _ _ e; cases e

end Gyp
