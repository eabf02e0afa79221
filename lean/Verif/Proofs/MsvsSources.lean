import Verif.Spec.MsvsSources
import Verif.Proofs.Path
/-
Lemmas about the trees of sources of Visual Studio projects.
-/
namespace Gyp
open Spec

/-- The files of a tree with the folders they are in. -/
def treePaths : List WinTree → List (List Str × Str)
  | [] => []
  | .file s :: rest => ([], s) :: treePaths rest
  | .folder n cs :: rest => (treePaths cs).map (fun p => (n :: p.1, p.2)) ++ treePaths rest
termination_by ts => sizeOf ts

theorem treePaths_nil : treePaths [] = [] := by rw [treePaths]
theorem treePaths_file (s : Str) (rest : List WinTree) :
    treePaths (.file s :: rest) = ([], s) :: treePaths rest := by rw [treePaths]
theorem treePaths_folder (n : Str) (cs rest : List WinTree) :
    treePaths (.folder n cs :: rest) = (treePaths cs).map (fun p => (n :: p.1, p.2)) ++ treePaths rest := by
  rw [treePaths]

theorem treePaths_append (a b : List WinTree) : treePaths (a ++ b) = treePaths a ++ treePaths b := by
  induction a with
  | nil => simp [treePaths_nil]
  | cons t a ih =>
    cases t with
    | file s => simp [treePaths_file, ih]
    | folder n cs => simp [treePaths_folder, ih]

theorem treePaths_flatMap {α : Type} (f : α → List WinTree) (l : List α) :
    treePaths (l.flatMap f) = l.flatMap fun a => treePaths (f a) := by
  induction l with
  | nil => simp [treePaths_nil]
  | cons a l ih => simp [treePaths_append, ih]

/-! ### Sets -/

theorem mem_listAdd_str {l : List Str} {x y : Str} : y ∈ listAdd l x ↔ y ∈ l ∨ y = x := by
  unfold listAdd
  by_cases h : x ∈ l
  · rw [if_pos h]
    constructor
    · exact Or.inl
    · rintro (h1 | rfl)
      · exact h1
      · exact h
  · rw [if_neg h]; simp

theorem mem_winUpdate {l xs : List Str} {y : Str} : y ∈ winUpdate l xs ↔ y ∈ l ∨ y ∈ xs := by
  unfold winUpdate
  induction xs generalizing l with
  | nil => simp
  | cons x xs ih =>
    simp only [List.foldl_cons]
    rw [ih, mem_listAdd_str, List.mem_cons, or_assoc]

theorem nodup_listAdd_str {l : List Str} {x : Str} (h : l.Nodup) : (listAdd l x).Nodup := by
  unfold listAdd
  by_cases hx : x ∈ l
  · rw [if_pos hx]; exact h
  · rw [if_neg hx, List.nodup_append]
    refine ⟨h, by simp, ?_⟩
    intro a ha b hb
    rw [List.mem_singleton] at hb
    subst hb
    rintro rfl
    exact hx ha

theorem nodup_winUpdate {l xs : List Str} (h : l.Nodup) : (winUpdate l xs).Nodup := by
  unfold winUpdate
  induction xs generalizing l with
  | nil => exact h
  | cons x xs ih => exact ih (nodup_listAdd_str h)

/-! ### The hierarchy -/

theorem joinWith_concat_split (s : Str) (front : List Str) (last : Str)
    (h : splitOn '\\' s = front ++ [last]) : joinWith ['\\'] (front ++ [last]) = s := by
  rw [← h, joinWith_splitOn]

/-- One source below the first level. -/
theorem sourceChain_paths (w : WinPaths) (excluded : List Str) (listed : Bool) (s : Str)
    (hs : normalizedSource w s = s) (before parts : List Str) (hne : parts ≠ [])
    (hp : joinWith ['\\'] (before ++ parts) = s) :
    treePaths (sourceChain w excluded listed before parts) =
      if s ∈ excluded ∧ listed = false then []
      else [(parts.dropLast ++ (if s ∈ excluded then [c!"_excluded_files"] else []), s)] := by
  induction parts generalizing before with
  | nil => exact absurd rfl hne
  | cons x rest ih =>
    cases rest with
    | nil =>
      simp only [sourceChain, hp, hs]
      by_cases he : s ∈ excluded
      · cases listed <;> simp [he, treePaths_nil, treePaths_folder, treePaths_file]
      · simp [he, treePaths_nil, treePaths_file]
    | cons y rest =>
      rw [sourceChain, treePaths_folder, treePaths_nil, ih (before ++ [x]) (by simp) (by simpa using hp)]
      by_cases hc : s ∈ excluded ∧ listed = false
      · simp [hc]
      · rw [if_neg hc, if_neg hc]
        simp

/-- One source of the first level. -/
theorem topEntry_paths (w : WinPaths) (excluded : List Str) (listed : Bool) (s : Str)
    (hs : normalizedSource w s = s) :
    treePaths (topEntry w excluded listed (splitOn '\\' s)) =
      if s ∈ excluded ∧ (listed = false ∨ ('\\' ∉ s)) then []
      else [(foldersOf s (s ∈ excluded), s)] := by
  unfold foldersOf
  have hj := joinWith_splitOn (c := '\\') (s := s)
  by_cases hb : '\\' ∈ s
  · obtain ⟨x, y, rest, hsp⟩ : ∃ x y rest, splitOn '\\' s = x :: y :: rest := by
      rcases hsp : splitOn '\\' s with _ | ⟨x, _ | ⟨y, rest⟩⟩
      · exact absurd hsp splitOn_ne_nil
      · rw [hsp] at hj
        simp only [joinWith] at hj
        exact absurd hb (hj ▸ mem_splitOn (c := '\\') (s := s) (by rw [hsp]; simp))
      · exact ⟨x, y, rest, rfl⟩
    rw [hsp, topEntry, treePaths_folder, treePaths_nil,
      sourceChain_paths w excluded listed s hs [x] (y :: rest) (by simp) (by
        rw [hsp] at hj; exact hj)]
    by_cases hc : s ∈ excluded ∧ listed = false
    · simp [hc]
    · have hc' : ¬ (s ∈ excluded ∧ (listed = false ∨ '\\' ∉ s)) := by
        rintro ⟨h1, h2 | h2⟩
        · exact hc ⟨h1, h2⟩
        · exact h2 hb
      rw [if_neg hc, if_neg hc']
      simp
  · rw [splitOn_noSep hb, topEntry]
    by_cases he : s ∈ excluded
    · simp [hs, he, hb, treePaths_nil]
    · simp [hs, he, hb, treePaths_nil, treePaths_file]

theorem topExcluded_paths (w : WinPaths) (excluded : List Str) (s : Str)
    (hs : normalizedSource w s = s) :
    treePaths (topExcluded w excluded (splitOn '\\' s)) =
      if s ∈ excluded ∧ '\\' ∉ s then [([], s)] else [] := by
  have hj := joinWith_splitOn (c := '\\') (s := s)
  by_cases hb : '\\' ∈ s
  · rw [if_neg (by simp [hb])]
    rcases hsp : splitOn '\\' s with _ | ⟨x, _ | ⟨y, rest⟩⟩
    · exact absurd hsp splitOn_ne_nil
    · rw [hsp] at hj
      simp only [joinWith] at hj
      exact absurd hb (hj ▸ mem_splitOn (c := '\\') (s := s) (by rw [hsp]; simp))
    · simp [topExcluded, treePaths_nil]
  · rw [splitOn_noSep hb]
    by_cases he : s ∈ excluded
    · simp [topExcluded, hs, he, hb, treePaths_nil, treePaths_file]
    · simp [topExcluded, hs, he, treePaths_nil]

theorem topExcluded_nil (w : WinPaths) (excluded : List Str) (s : Str)
    (hs : normalizedSource w s = s) :
    topExcluded w excluded (splitOn '\\' s) = [] ↔ ¬ (s ∈ excluded ∧ '\\' ∉ s) := by
  have hj := joinWith_splitOn (c := '\\') (s := s)
  by_cases hb : '\\' ∈ s
  · rcases hsp : splitOn '\\' s with _ | ⟨x, _ | ⟨y, rest⟩⟩
    · exact absurd hsp splitOn_ne_nil
    · rw [hsp] at hj
      simp only [joinWith] at hj
      exact absurd hb (hj ▸ mem_splitOn (c := '\\') (s := s) (by rw [hsp]; simp))
    · simp [topExcluded, hb]
  · rw [splitOn_noSep hb]
    by_cases he : s ∈ excluded
    · simp [topExcluded, hs, he, hb]
    · simp [topExcluded, hs, he]

theorem flatMap_eq_of {α β : Type} {f g : α → List β} {l : List α} (h : ∀ a ∈ l, f a = g a) :
    l.flatMap f = l.flatMap g := by
  induction l with
  | nil => rfl
  | cons a l ih =>
    rw [List.flatMap_cons, List.flatMap_cons, h a (by simp), ih fun b hb => h b (List.mem_cons_of_mem _ hb)]

theorem flatMap_ite_split {α β : Type} (p q : α → Prop) [DecidablePred p] [DecidablePred q]
    (hq : ∀ a, p a → ¬ q a) (f : α → β) (l : List α) :
    List.Perm ((l.flatMap fun a => if p a then [f a] else []) ++
      (l.flatMap fun a => if q a then [f a] else []))
      ((l.filter fun a => p a ∨ q a).map f) := by
  induction l with
  | nil => simp
  | cons a l ih =>
    simp only [List.flatMap_cons]
    by_cases h1 : p a
    · have h2 := hq a h1
      rw [if_pos h1, if_neg h2, List.filter_cons_of_pos (by simp [h1])]
      simpa using ih
    · by_cases h2 : q a
      · rw [if_neg h1, if_pos h2, List.filter_cons_of_pos (by simp [h2])]
        simp only [List.nil_append, List.map_cons, List.singleton_append]
        exact List.perm_middle.trans (ih.cons _)
      · rw [if_neg h1, if_neg h2, List.filter_cons_of_neg (by simp [h1, h2])]
        simpa using ih

/-- The files of the hierarchy. -/
theorem sourceHierarchy_paths (w : WinPaths) (excluded : List Str) (listed : Bool) (sources : List Str)
    (hs : ∀ s ∈ sources, normalizedSource w s = s) :
    List.Perm (treePaths (sourceHierarchy w excluded listed (sources.map (splitOn '\\'))))
      ((sources.filter fun s => ¬ (s ∈ excluded ∧ listed = false)).map
        fun s => (foldersOf s (s ∈ excluded), s)) := by
  have e1 : treePaths ((sources.map (splitOn '\\')).flatMap (topEntry w excluded listed)) =
      sources.flatMap fun s => if ¬ (s ∈ excluded ∧ (listed = false ∨ '\\' ∉ s)) then
        [(foldersOf s (s ∈ excluded), s)] else [] := by
    rw [treePaths_flatMap, List.flatMap_map]
    apply flatMap_eq_of
    intro s h
    rw [topEntry_paths w excluded listed s (hs s h), ite_not]
  have e2 : treePaths ((sources.map (splitOn '\\')).flatMap (topExcluded w excluded)) =
      sources.flatMap fun s => if s ∈ excluded ∧ '\\' ∉ s then [([], s)] else [] := by
    rw [treePaths_flatMap, List.flatMap_map]
    apply flatMap_eq_of
    intro s h
    rw [topExcluded_paths w excluded s (hs s h)]
  cases listed with
  | false =>
    simp only [sourceHierarchy, Bool.false_eq_true, and_false, if_false, e1]
    have := flatMap_ite_split (fun s : Str => ¬ (s ∈ excluded ∧ (false = false ∨ '\\' ∉ s)))
      (fun _ => False) (by simp) (fun s => (foldersOf s (s ∈ excluded), s)) sources
    have e0 : sources.flatMap (fun _ => ([] : List (List Str × Str))) = [] := by simp
    simp only [if_false, e0, List.append_nil] at this
    simpa using this
  | true =>
    have e3 : sources.flatMap (fun s => if s ∈ excluded ∧ '\\' ∉ s then
        [(foldersOf s (s ∈ excluded), s)] else []) =
        (sources.flatMap fun s => if s ∈ excluded ∧ '\\' ∉ s then [([], s)] else []).map
          (fun p : List Str × Str => (c!"_excluded_files" :: p.1, p.2)) := by
      rw [List.map_flatMap]
      apply flatMap_eq_of
      intro s _
      by_cases h : s ∈ excluded ∧ '\\' ∉ s
      · rw [if_pos h, if_pos h, foldersOf, splitOn_noSep h.2, if_pos h.1]
        rfl
      · rw [if_neg h, if_neg h]; rfl
    have e4 : treePaths (sourceHierarchy w excluded true (sources.map (splitOn '\\'))) =
        (sources.flatMap fun s => if ¬ (s ∈ excluded ∧ (true = false ∨ '\\' ∉ s)) then
          [(foldersOf s (s ∈ excluded), s)] else []) ++
        sources.flatMap (fun s => if s ∈ excluded ∧ '\\' ∉ s then
          [(foldersOf s (s ∈ excluded), s)] else []) := by
      rw [e3, ← e1, ← e2]
      simp only [sourceHierarchy, and_true]
      by_cases hne : (sources.map (splitOn '\\')).flatMap (topExcluded w excluded) = []
      · rw [if_neg (by simpa using hne), hne, treePaths_nil]
        simp
      · rw [if_pos hne, treePaths_append, treePaths_folder, treePaths_nil]
        simp
    rw [e4]
    refine (flatMap_ite_split _ _ ?_ _ _).trans ?_
    · rintro a h1 h2
      exact h1 ⟨h2.1, Or.inr h2.2⟩
    · have : (sources.filter fun a => decide (¬(a ∈ excluded ∧ (true = false ∨ '\\' ∉ a)) ∨ a ∈ excluded ∧ '\\' ∉ a)) =
          sources.filter fun s => decide (¬ (s ∈ excluded ∧ true = false)) := by
        apply List.filter_congr
        intro a _
        by_cases h1 : a ∈ excluded <;> by_cases h2 : '\\' ∈ a <;> simp [h1, h2]
      rw [this]

/-! ### Pruning -/

theorem onlyContents_paths {n : Str} {ts us : List WinTree} (hn : folderName ts = some n)
    (h : onlyContents ts = some us) :
    treePaths ts = (treePaths us).map fun p => (n :: p.1, p.2) := by
  have key : ∀ ts us : List WinTree, (∀ t ∈ ts, ∃ cs, t = WinTree.folder n cs) →
      onlyContents ts = some us → treePaths ts = (treePaths us).map fun p => (n :: p.1, p.2) := by
    intro ts
    induction ts with
    | nil =>
      intro us _ h
      simp only [onlyContents, Option.some.injEq] at h
      subst h
      simp [treePaths_nil]
    | cons t ts ih =>
      intro us hall h
      obtain ⟨cs, rfl⟩ := hall t (by simp)
      rcases cs with _ | ⟨c, _ | ⟨d, ds⟩⟩
      · simp [onlyContents] at h
      · simp only [onlyContents, Option.map_eq_some_iff] at h
        obtain ⟨vs, h1, rfl⟩ := h
        rw [treePaths_folder, ih vs (fun t ht => hall t (List.mem_cons_of_mem _ ht)) h1]
        have : c :: vs = [c] ++ vs := rfl
        rw [this, treePaths_append]
        simp
      · simp [onlyContents] at h
  refine key ts us ?_ h
  cases ts with
  | nil => simp
  | cons t ts =>
    cases t with
    | file s => simp [folderName] at hn
    | folder m cs =>
      simp only [folderName] at hn
      split at hn
      · rename_i hall
        have hm : m = n := by simpa using hn
        subst hm
        rw [List.all_eq_true] at hall
        intro t ht
        rcases List.mem_cons.mp ht with rfl | ht
        · exact ⟨cs, rfl⟩
        · have := hall t ht
          cases t with
          | file s => simp at this
          | folder k ds =>
            have hk : k = m := by simpa using this
            exact ⟨ds, by rw [hk]⟩
      · exact absurd hn (by simp)

/-- Pruning removes a list of folders all files are in. -/
theorem pruneFolders_paths (ts us : List WinTree) (h : pruneFolders ts = some us) :
    folderName us = none ∧
      ∃ outer, treePaths ts = (treePaths us).map fun p => (outer ++ p.1, p.2) := by
  induction ts using pruneFolders.induct generalizing us with
  | case1 ts hn =>
    rw [pruneFolders, if_pos hn] at h
    obtain rfl := Option.some.inj h
    exact ⟨hn, [], by simp⟩
  | case2 ts hn ho =>
    rw [pruneFolders, if_neg hn] at h
    split at h
    · cases h
    · rename_i us' h'
      rw [ho] at h'
      cases h'
  | case3 vs hn ho =>
    exact absurd rfl hn
  | case4 ts hn vs ho hne ih =>
    rw [pruneFolders, if_neg hn] at h
    split at h
    · cases h
    · rename_i us' h'
      rw [dif_neg hne] at h
      have : us' = vs := Option.some.inj (h'.symm.trans ho)
      subst this
      obtain ⟨h1, outer, h2⟩ := ih us h
      obtain ⟨n, hn'⟩ := Option.ne_none_iff_exists'.mp hn
      refine ⟨h1, n :: outer, ?_⟩
      rw [onlyContents_paths hn' ho, h2, List.map_map]
      rfl

/-- A file below folders with one entry each. -/
inductive OneFile : WinTree → Prop
  | file (s : Str) : OneFile (.file s)
  | folder (n : Str) {t : WinTree} (h : OneFile t) : OneFile (.folder n [t])

theorem onlyContents_oneFile {ts : List WinTree} {n : Str} (hn : folderName ts = some n)
    (h : ∀ t ∈ ts, OneFile t) : ∃ us, onlyContents ts = some us ∧ ∀ t ∈ us, OneFile t := by
  have key : ∀ ts : List WinTree, (∀ t ∈ ts, ∃ m cs, t = WinTree.folder m cs) → (∀ t ∈ ts, OneFile t) →
      ∃ us, onlyContents ts = some us ∧ ∀ t ∈ us, OneFile t := by
    intro ts
    induction ts with
    | nil => intro _ _; exact ⟨[], rfl, by simp⟩
    | cons t ts ih =>
      intro hf h
      obtain ⟨us, h1, h2⟩ := ih (fun t ht => hf t (List.mem_cons_of_mem _ ht))
        (fun t ht => h t (List.mem_cons_of_mem _ ht))
      have ht := h t (by simp)
      cases ht with
      | file s =>
        obtain ⟨m, cs, hm⟩ := hf _ (List.mem_cons_self ..)
        cases hm
      | @folder m c hc =>
        refine ⟨c :: us, by simp [onlyContents, h1], ?_⟩
        intro t ht
        rcases List.mem_cons.mp ht with rfl | ht
        · exact hc
        · exact h2 t ht
  refine key ts ?_ h
  cases ts with
  | nil => simp
  | cons t ts =>
    cases t with
    | file s => simp [folderName] at hn
    | folder m cs =>
      simp only [folderName] at hn
      split at hn
      · rename_i hall
        rw [List.all_eq_true] at hall
        intro t ht
        rcases List.mem_cons.mp ht with rfl | ht
        · exact ⟨m, cs, rfl⟩
        · have := hall t ht
          cases t with
          | file s => simp at this
          | folder k ds => exact ⟨k, ds, rfl⟩
      · exact absurd hn (by simp)

theorem pruneFolders_oneFile (ts : List WinTree) (h : ∀ t ∈ ts, OneFile t) :
    ∃ us, pruneFolders ts = some us := by
  induction ts using pruneFolders.induct with
  | case1 ts hn => exact ⟨ts, by rw [pruneFolders, if_pos hn]⟩
  | case2 ts hn ho =>
    obtain ⟨n, hn'⟩ := Option.ne_none_iff_exists'.mp hn
    obtain ⟨us, h1, _⟩ := onlyContents_oneFile hn' h
    rw [ho] at h1
    cases h1
  | case3 vs hn ho => exact absurd rfl hn
  | case4 ts hn vs ho hne ih =>
    obtain ⟨n, hn'⟩ := Option.ne_none_iff_exists'.mp hn
    obtain ⟨us, h1, h2⟩ := onlyContents_oneFile hn' h
    obtain rfl : us = vs := Option.some.inj (h1.symm.trans ho)
    obtain ⟨ws, h3⟩ := ih h2
    refine ⟨ws, ?_⟩
    rw [pruneFolders, if_neg hn]
    split
    · rename_i h'
      rw [ho] at h'
      cases h'
    · rename_i us' h'
      obtain rfl : us' = us := Option.some.inj (h'.symm.trans ho)
      rw [dif_neg hne]
      exact h3

theorem sourceChain_oneFile (w : WinPaths) (excluded : List Str) (before parts : List Str)
    (hne : parts ≠ []) : ∃ t, sourceChain w excluded true before parts = [t] ∧ OneFile t := by
  induction parts generalizing before with
  | nil => exact absurd rfl hne
  | cons x rest ih =>
    cases rest with
    | nil =>
      simp only [sourceChain, if_true]
      split
      · exact ⟨_, rfl, .folder _ (.file _)⟩
      · exact ⟨_, rfl, .file _⟩
    | cons y rest =>
      obtain ⟨t, h1, h2⟩ := ih (before ++ [x]) (by simp)
      rw [sourceChain, h1]
      exact ⟨_, rfl, .folder _ h2⟩

theorem topEntry_oneFile (w : WinPaths) (excluded : List Str) (parts : List Str) :
    ∀ t ∈ topEntry w excluded true parts, OneFile t := by
  rcases parts with _ | ⟨x, _ | ⟨y, rest⟩⟩
  · simp [topEntry]
  · simp only [topEntry]
    split
    · simp
    · intro t ht
      rw [List.mem_singleton] at ht
      subst ht
      exact .file _
  · obtain ⟨c, h1, h2⟩ := sourceChain_oneFile w excluded [x] (y :: rest) (by simp)
    intro t ht
    rw [topEntry, h1, List.mem_singleton] at ht
    subst ht
    exact .folder _ h2

theorem folderName_append {a b : List WinTree} {n : Str} (h : folderName (a ++ b) = some n) :
    (∀ t ∈ a, ∃ cs, t = WinTree.folder n cs) ∧ ∀ t ∈ b, ∃ cs, t = WinTree.folder n cs := by
  have key : ∀ ts : List WinTree, folderName ts = some n → ∀ t ∈ ts, ∃ cs, t = WinTree.folder n cs := by
    intro ts hn
    cases ts with
    | nil => simp
    | cons t ts =>
      cases t with
      | file s => simp [folderName] at hn
      | folder m cs =>
        simp only [folderName] at hn
        split at hn
        · rename_i hall
          have hm : m = n := by simpa using hn
          subst hm
          rw [List.all_eq_true] at hall
          intro t ht
          rcases List.mem_cons.mp ht with rfl | ht
          · exact ⟨cs, rfl⟩
          · have := hall t ht
            cases t with
            | file s => simp at this
            | folder k ds =>
              have hk : k = m := by simpa using this
              exact ⟨ds, by rw [hk]⟩
        · exact absurd hn (by simp)
  exact ⟨fun t ht => key _ h t (List.mem_append_left _ ht), fun t ht => key _ h t (List.mem_append_right _ ht)⟩

/-- Pruning succeeds unless two or more files of the project directory are excluded and
everything else is in a folder of that name. -/
theorem prune_hierarchy_some (w : WinPaths) (excluded : List Str) (sources : List Str)
    (hs : ∀ s ∈ sources, normalizedSource w s = s)
    (hok : (∃ s ∈ sources, (foldersOf s (s ∈ excluded)).head? ≠ some c!"_excluded_files") ∨
      (sources.filter fun s => s ∈ excluded ∧ '\\' ∉ s).length ≤ 1) :
    ∃ us, pruneFolders (sourceHierarchy w excluded true (sources.map (splitOn '\\'))) = some us := by
  have h1 : ∀ t ∈ (sources.map (splitOn '\\')).flatMap (topEntry w excluded true), OneFile t := by
    intro t ht
    obtain ⟨p, _, hp⟩ := List.mem_flatMap.mp ht
    exact topEntry_oneFile w excluded p t hp
  simp only [sourceHierarchy, and_true]
  by_cases hne : (sources.map (splitOn '\\')).flatMap (topExcluded w excluded) = []
  · rw [if_neg (by simpa using hne)]
    exact pruneFolders_oneFile _ h1
  · rw [if_pos hne]
    rcases hok with ⟨s, hs1, hs2⟩ | hle
    · -- something is elsewhere: nothing is pruned
      suffices hn : folderName ((sources.map (splitOn '\\')).flatMap (topEntry w excluded true) ++
          [.folder c!"_excluded_files" ((sources.map (splitOn '\\')).flatMap (topExcluded w excluded))]) = none from
        ⟨_, by rw [pruneFolders, if_pos hn]⟩
      by_contra hn
      obtain ⟨n, hn'⟩ := Option.ne_none_iff_exists'.mp hn
      obtain ⟨ha, hb⟩ := folderName_append hn'
      obtain ⟨cs, hcs⟩ := hb _ (List.mem_singleton_self _)
      have hnE : n = c!"_excluded_files" := by
        injection hcs with h _
        exact h.symm
      have hj := joinWith_splitOn (c := '\\') (s := s)
      have hmem : ∀ t ∈ topEntry w excluded true (splitOn '\\' s), ∃ cs, t = WinTree.folder n cs :=
        fun t ht => ha t (List.mem_flatMap.mpr ⟨_, List.mem_map.mpr ⟨s, hs1, rfl⟩, ht⟩)
      rcases hsp : splitOn '\\' s with _ | ⟨x, _ | ⟨y, rest⟩⟩
      · exact absurd hsp splitOn_ne_nil
      · rw [hsp] at hj hmem
        simp only [joinWith] at hj
        subst hj
        simp only [topEntry, hs _ hs1] at hmem
        by_cases he : x ∈ excluded
        · exact hs2 (by simp [foldersOf, hsp, he])
        · rw [if_neg he] at hmem
          obtain ⟨cs, hc⟩ := hmem _ (List.mem_singleton_self _)
          cases hc
      · rw [hsp] at hmem
        simp only [topEntry] at hmem
        obtain ⟨cs, hc⟩ := hmem _ (List.mem_singleton_self _)
        injection hc with hx _
        refine hs2 ?_
        simp [foldersOf, hsp, hx, hnE]
    · -- at most one file in the folder
      refine pruneFolders_oneFile _ ?_
      intro t ht
      rcases List.mem_append.mp ht with ht | ht
      · exact h1 t ht
      · rw [List.mem_singleton] at ht
        subst ht
        have hc : (sources.map (splitOn '\\')).flatMap (topExcluded w excluded) =
            (sources.filter fun s => s ∈ excluded ∧ '\\' ∉ s).map WinTree.file := by
          clear hne h1 hle ht
          induction sources with
          | nil => rfl
          | cons s sources ih =>
            rw [List.map_cons, List.flatMap_cons, ih fun s hs' => hs s (List.mem_cons_of_mem _ hs')]
            by_cases h : s ∈ excluded ∧ '\\' ∉ s
            · rw [List.filter_cons_of_pos (by simpa using h), splitOn_noSep h.2]
              simp [topExcluded, hs s (by simp), h.1]
            · rw [List.filter_cons_of_neg (by simpa using h),
                (topExcluded_nil w excluded s (hs s (by simp))).mpr h]
              rfl
        rw [hc] at hne ⊢
        rcases hl : (sources.filter fun s => s ∈ excluded ∧ '\\' ∉ s) with _ | ⟨a, _ | ⟨b, l⟩⟩
        · rw [hl] at hne; exact absurd rfl hne
        · exact .folder _ (.file a)
        · rw [hl] at hle
          simp at hle

end Gyp
