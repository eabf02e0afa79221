import Verif.Proofs.CMake
import Verif.Proofs.Path
import Verif.Proofs.LoadAll
/-
C107: what the CMake generator writes is read back by CMake as it was meant.
-/
namespace Gyp
open Gyp.Spec

/-! ### Variables, lists and properties -/

/-- A variable that is set stands for its value, whatever characters it has. -/
theorem C107_variable {env : CEnv} {name v w : Str} (hn : NameC name) (h : Amounts env v w)
    (hw : w ≠ c!"PARENT_SCOPE") (hw' : w ≠ c!"CACHE") :
    ∃ env', cmakeReads env (setVariable name v) = some (env', []) ∧
      listOf env' name = (if w = [] then [] else [w]) ∧ ∀ n, n ≠ name → env' n = env n := by
  refine ⟨_, (reads_setVariable hn h hw hw').cmakeReads, ?_, fun n hne => ?_⟩
  · simp [listOf, assign, elements_semi]
  · simp [assign, hne]

example : NameC c!"TARGET" ∧ Amounts (fun _ => c!"x y") c!"a\\;\"[${obj}" (c!"a\\;\"[" ++ c!"x y") :=
  ⟨by decide, .char (by decide) (.char (by decide) (.char (by decide) (.char (by decide)
    (.char (by decide) (.ref (n := c!"obj") (v := []) (w := []) (by decide) (by decide) (by decide)
      .nil)))))⟩

/-- A list that is written stands for its elements. -/
theorem C107_list {env : CEnv} {name : Str} {vs ws : List Str} (hn : NameC name)
    (h : List.Forall₂ (Amounts env) vs ws) (he : ∀ w ∈ ws, Element w)
    (hfresh : env name = []) (hw : c!"PARENT_SCOPE" ∉ ws) (hw' : c!"CACHE" ∉ ws) :
    ∃ env', cmakeReads env (setVariableList name vs) = some (env', []) ∧
      listOf env' name = ws ∧ ∀ n, n ≠ name → env' n = env n := by
  refine ⟨_, (reads_setVariableList hn h (fun _ => hfresh) hw hw').cmakeReads, ?_, fun n hne => ?_⟩
  · simp [listOf, assign, elements_join he]
  · simp [assign, hne]

example : ∀ w ∈ [c!"a;b", c!"\\c d\"", c!"[x]"], Element w := by decide

/-- A list of two or more that is written to a variable that is already set is added to
it; the elements that were there stay. -/
theorem C107_list_adds {env : CEnv} {name : Str} {vs ws old : List Str} (hn : NameC name)
    (h : List.Forall₂ (Amounts env) vs ws) (h₂ : 2 ≤ vs.length) (he : ∀ w ∈ ws, Element w)
    (ho : ∀ w ∈ old, Element w) (hne : old ≠ [])
    (hold : env name = joinWith [';'] (old.map (replaceChar ';' c!"\\;"))) :
    ∃ env', cmakeReads env (setVariableList name vs) = some (env', []) ∧
      listOf env' name = old ++ ws := by
  have hsemi : replaceChar ';' c!"\\;" = semi := rfl
  rw [hsemi] at hold
  refine ⟨_, (reads_append hn h h₂).cmakeReads, ?_⟩
  have hnil : env name ≠ [] := by
    intro e
    have h1 := elements_join ho
    rw [hold] at e
    change joinWith [';'] (old.map semi) = [] at e
    rw [e] at h1
    exact hne (by simpa [elements, takeApart] using h1.symm)
  rw [if_neg hnil]
  show elements (assign env name _ name) = _
  rw [show assign env name (joinWith [';'] ([env name] ++ ws.map semi)) name =
    joinWith [';'] ([env name] ++ ws.map semi) by simp [assign], hold]
  have hj : ∀ (a b : List Str), a ≠ [] → joinWith [';'] ([joinWith [';'] a] ++ b) =
      joinWith [';'] (a ++ b) := by
    intro a b ha
    induction a with
    | nil => simp at ha
    | cons x a ih =>
      cases a with
      | nil => rfl
      | cons y a =>
        have := ih (by simp)
        cases b with
        | nil => simp [joinWith]
        | cons z b =>
          have h1 : joinWith [';'] (y :: a) ++ [';'] ++ joinWith [';'] (z :: b) =
              joinWith [';'] (y :: (a ++ z :: b)) := this
          show (x ++ [';'] ++ joinWith [';'] (y :: a)) ++ [';'] ++ joinWith [';'] (z :: b) =
            x ++ [';'] ++ joinWith [';'] (y :: (a ++ z :: b))
          rw [← h1]
          simp only [List.append_assoc]
  have := hj (old.map semi) (ws.map semi) (by simpa using hne)
  change elements (joinWith [';'] ([joinWith [';'] (old.map semi)] ++ ws.map semi)) = _
  rw [this, ← List.map_append]
  exact elements_join (by
    intro w hw
    rcases List.mem_append.1 hw with h | h
    · exact ho w h
    · exact he w h)

/-- The values that are no elements: an empty one is lost, one that ends in a backslash is
joined to the next, and so is one that opens a bracket. -/
theorem C107_list_not :
    (∃ env', cmakeReads (fun _ => []) (setVariableList c!"X" [c!"a", [], c!"b"]) = some (env', []) ∧
      listOf env' c!"X" = [c!"a", c!"b"]) ∧
    (∃ env', cmakeReads (fun _ => []) (setVariableList c!"X" [c!"a\\", c!"b"]) = some (env', []) ∧
      listOf env' c!"X" = [c!"a;b"]) ∧
    (∃ env', cmakeReads (fun _ => []) (setVariableList c!"X" [c!"a[", c!"b"]) = some (env', []) ∧
      listOf env' c!"X" = [c!"a[;b"]) := by
  have H : ∀ vs : List Str, 2 ≤ vs.length → (∀ v ∈ vs, '$' ∉ v) →
      ∃ env', cmakeReads (fun _ => []) (setVariableList c!"X" vs) = some (env', []) ∧
        listOf env' c!"X" = elements (joinWith [';'] (vs.map semi)) := by
    intro vs h₂ hv
    have hf : List.Forall₂ (Amounts fun _ => []) vs vs := by
      clear h₂
      induction vs with
      | nil => exact .nil
      | cons v vs ih =>
        exact .cons (standsFor_self (hv v (by simp))) (ih fun x hx => hv x (by simp [hx]))
    refine ⟨_, (reads_append (n := c!"X") (by decide) hf h₂).cmakeReads, ?_⟩
    simp [listOf, assign]
  refine ⟨?_, ?_, ?_⟩
  · obtain ⟨e, h₁, h₂⟩ := H [c!"a", [], c!"b"] (by decide) (by decide)
    exact ⟨e, h₁, h₂.trans (by decide)⟩
  · obtain ⟨e, h₁, h₂⟩ := H [c!"a\\", c!"b"] (by decide) (by decide)
    exact ⟨e, h₁, h₂.trans (by decide)⟩
  · obtain ⟨e, h₁, h₂⟩ := H [c!"a[", c!"b"] (by decide) (by decide)
    exact ⟨e, h₁, h₂.trans (by decide)⟩

theorem evalText_property {env : CEnv} {vs ws : List Str} (h : List.Forall₂ (Amounts env) vs ws)
    {sep : Char} (hsep : sep = ';' ∨ sep = ' ') :
    evalText env (propertyValues vs [sep]) = some (ws.flatMap fun w => semi w ++ [sep]) := by
  have hap : ∀ (v w t u : Str), Amounts env v w → evalText env t = some u →
      evalText env (cmakeEscape v ++ t) = some (semi w ++ u) := by
    intro v w t u hv ht
    rw [cmakeEscape_eq]
    induction hv with
    | nil => simpa [semi] using ht
    | @char c v w hc _ ih =>
      rw [List.flatMap_cons, semi_cons]
      unfold escOne
      by_cases hp : c = '\\' ∨ c = ';' ∨ c = '"'
      · rw [if_pos hp]
        unfold evalText at ih ⊢
        rw [List.cons_append, List.cons_append, List.cons_append, List.cons_append, List.nil_append,
          evalFrom, if_pos rfl, evalFrom]
        unfold escOne at ih
        rw [ih]
        by_cases hs : c = ';'
        · subst hs
          rfl
        · rw [if_neg hs, if_neg hs]
          rcases hp with rfl | rfl | rfl
          · rfl
          · exact absurd rfl hs
          · rfl
      · rw [if_neg hp]
        push Not at hp
        unfold evalText escOne at ih
        unfold evalText
        rw [List.append_assoc, List.cons_append, List.nil_append, evalFrom, if_neg hp.1, if_neg hc,
          ih, if_neg hp.2.1]
        rfl
    | @ref n v w hn hk hs _ ih =>
      have e : (c!"${" ++ n ++ c!"}").flatMap escOne = c!"${" ++ n ++ c!"}" := by
        have : ∀ x : Str, (∀ c ∈ x, ¬ (c = '\\' ∨ c = ';' ∨ c = '"')) → x.flatMap escOne = x := by
          intro x hx
          induction x with
          | nil => rfl
          | cons c x ihx =>
            rw [List.flatMap_cons, ihx fun d hd => hx d (by simp [hd]), escOne,
              if_neg (hx c (by simp))]
            rfl
        refine this _ fun c hc hp => ?_
        have hm : c ∈ c!"}\\;\"`$)(#[ \t\n\r" := by
          rcases hp with rfl | rfl | rfl <;> decide
        simp only [List.mem_append] at hc
        rcases hc with (hc | hc) | hc
        · rcases hp with rfl | rfl | rfl <;> revert hc <;> decide
        · exact (isVarChar_not (List.all_eq_true.1 hn c hc)).1 hm
        · rcases hp with rfl | rfl | rfl <;> revert hc <;> decide
      rw [List.flatMap_append, e, List.append_assoc, evalText_ref hn, ih, semi_append, semi_none hs]
      simp
  unfold propertyValues
  induction h with
  | nil => rfl
  | @cons v w vs ws hv _ ih =>
    rw [List.flatMap_cons, List.flatMap_cons, List.append_assoc, List.append_assoc]
    refine hap v w _ _ hv ?_
    unfold evalText at ih ⊢
    rw [List.cons_append, List.nil_append, evalFrom, ih, if_neg, if_neg]
    · rfl
    · rcases hsep with rfl | rfl <;> decide
    · rcases hsep with rfl | rfl <;> decide

theorem quotedLex_property (vs : List Str) {sep : Char} (hsep : sep = ';' ∨ sep = ' ') :
    QuotedLex (propertyValues vs [sep]) := by
  unfold propertyValues
  induction vs with
  | nil => exact QuotedLex.nil
  | cons v vs ih =>
    rw [List.flatMap_cons]
    refine ((quotedLex_escape v).append (QuotedLex.char ?_ ?_)).append ih
    · rcases hsep with rfl | rfl <;> decide
    · rcases hsep with rfl | rfl <;> decide

theorem reads_property {env : CEnv} {target prop : Str} {vs ws : List Str} (ht : NameC target)
    (hp : NameC prop) (h : List.Forall₂ (Amounts env) vs ws) {sep : Char}
    (hsep : sep = ';' ∨ sep = ' ') :
    ReadsC env (setTargetProperty target prop vs [sep]) env
      [⟨c!"set_target_" ++ c!"properties",
        [target, c!"PROPERTIES", prop, ws.flatMap fun w => semi w ++ [sep]]⟩] := by
  have e : setTargetProperty target prop vs [sep] = (c!"set_target_" ++ c!"properties") ++ '(' ::
      ((target ++ [' ']) ++ (c!"PROPERTIES" ++ [' ']) ++ (prop ++ [' ']) ++
        ('"' :: propertyValues vs [sep] ++ ['"'])) ++ c!")\n" := by
    simp [setTargetProperty]
  rw [e]
  have h₁ : Gives env (target ++ [' ']) [target] := Gives.name ht (by decide)
  have h₂ : Gives env (c!"PROPERTIES" ++ [' ']) [c!"PROPERTIES"] :=
    Gives.name (by decide) (by decide)
  have h₃ : Gives env (prop ++ [' ']) [prop] := Gives.name hp (by decide)
  exact (((h₁.append h₂).append h₃).then (EndGives.quoted (quotedLex_property vs hsep)
    (evalText_property h hsep))).told (by decide) (by decide) (by decide) (by decide) (by decide)

/-- The defines of a target are the list that is set. -/
theorem C107_defines {env : CEnv} {target prop : Str} {vs ws : List Str} (ht : NameC target)
    (hp : NameC prop) (h : List.Forall₂ (Amounts env) vs ws) (he : ∀ w ∈ ws, Element w) :
    ∃ text, cmakeReads env (setTargetProperty target prop vs c!";") =
        some (env, [⟨c!"set_target_" ++ c!"properties", [target, c!"PROPERTIES", prop, text]⟩]) ∧
      elements text = ws :=
  ⟨_, (reads_property ht hp h (.inl rfl)).cmakeReads, elements_terminated he⟩

/-- The flags of a target: each with a blank after it. -/
theorem C107_flags {env : CEnv} {target prop : Str} {vs ws : List Str} (ht : NameC target)
    (hp : NameC prop) (h : List.Forall₂ (Amounts env) vs ws) (hs : ∀ w ∈ ws, ';' ∉ w) :
    cmakeReads env (setTargetProperty target prop vs c!" ") =
      some (env, [⟨c!"set_target_" ++ c!"properties",
        [target, c!"PROPERTIES", prop, ws.flatMap fun w => w ++ c!" "]⟩]) := by
  rw [(reads_property ht hp h (.inr rfl)).cmakeReads]
  have : (ws.flatMap fun w => semi w ++ [' ']) = ws.flatMap fun w => w ++ c!" " := by
    clear h
    induction ws with
    | nil => rfl
    | cons w ws ih =>
      rw [List.flatMap_cons, List.flatMap_cons, semi_none (hs w (by simp)),
        ih fun x hx => hs x (by simp [hx])]
  rw [this]

example : ∀ w ∈ [c!"A=\"x;y\"", c!"NDEBUG", c!"P='c:\\d'"], Element w := by decide

/-! ### Paths -/

theorem walk_slashed (l : Loc) {a b : Str} (ha : a ≠ []) (hb : isAbs b = false) :
    walk l (a ++ '/' :: b) = walk (walk l a) b := by
  rw [walk_rel hb]
  unfold walk
  rw [splitOn_append_sep, List.foldl_append, head?_append_ne ha]

/-- A path of a gyp file leads, from the directory of the CMake file, to where it leads
from the directory it is relative to. -/
theorem C107_path {env : CEnv} {base rel : Str} (hb : '$' ∉ base) (hr : '$' ∉ rel)
    (hdir : env (c!"CMAKE_CURRENT_" ++ c!"LIST_DIR") ≠ [])
    (hs : ';' ∉ env (c!"CMAKE_CURRENT_" ++ c!"LIST_DIR")) :
    ∃ w, Amounts env (normjoinSource base rel) w ∧
      ∀ l, walk l w = walk (walk (walk l (env (c!"CMAKE_CURRENT_" ++ c!"LIST_DIR"))) base) rel := by
  unfold normjoinSource
  by_cases ha : isAbs rel = true
  · rw [if_pos ha]
    exact ⟨rel, standsFor_self hr, fun l => walk_abs ha _ _⟩
  · have hv : fullPathVars.any (startsWith rel) = false := by
      cases rel with
      | nil => decide
      | cons c rel =>
        have : c ≠ '$' := fun e => hr (by simp [e])
        simp [fullPathVars, startsWith, List.isPrefixOf, Ne.symm this]
    rw [if_neg ha, hv, if_neg (by decide)]
    have hd : '$' ∉ normpath (pathJoin base rel) := by
      have hj : '$' ∉ pathJoin base rel := by
        unfold pathJoin
        split
        · exact hr
        · split <;> simp [hb, hr]
      unfold normpath
      split
      · decide
      · have hfold : ∀ (cs acc : List Str), (∀ c ∈ cs, '$' ∉ c) → (∀ c ∈ acc, '$' ∉ c) →
            ∀ c ∈ cs.foldl (normStep (isAbs (pathJoin base rel))) acc, '$' ∉ c := by
          intro cs
          induction cs with
          | nil => intro acc _ h; exact h
          | cons x cs ih =>
            intro acc h₁ h₂
            refine ih _ (fun c hc => h₁ c (by simp [hc])) ?_
            intro c hc
            unfold normStep at hc
            split at hc
            · exact h₂ c hc
            · split at hc
              · rcases List.mem_cons.1 hc with rfl | hc
                · exact h₁ _ (by simp)
                · exact h₂ c hc
              · exact h₂ c (List.mem_of_mem_tail hc)
        have hsp : ∀ c ∈ splitOn '/' (pathJoin base rel), '$' ∉ c := by
          intro c hc hm
          apply hj
          rw [← joinWith_splitOn (c := '/') (s := pathJoin base rel)]
          have : ∀ (cs : List Str), c ∈ cs → '$' ∈ joinWith ['/'] cs := by
            intro cs
            induction cs with
            | nil => simp
            | cons x cs ih =>
              intro hx
              cases cs with
              | nil => simp at hx; subst hx; simpa [joinWith] using hm
              | cons y cs =>
                simp only [joinWith, List.mem_append]
                rcases List.mem_cons.1 hx with rfl | hx
                · exact .inl (.inl hm)
                · exact .inr (ih hx)
          exact this _ hc
        have hjoin : ∀ (cs : List Str), (∀ c ∈ cs, '$' ∉ c) → '$' ∉ joinWith ['/'] cs := by
          intro cs
          induction cs with
          | nil => simp [joinWith]
          | cons x cs ih =>
            intro h
            cases cs with
            | nil => simpa [joinWith] using h
            | cons y cs =>
              simp only [joinWith, List.mem_append, not_or]
              exact ⟨⟨h x (by simp), by decide⟩, ih fun c hc => h c (by simp [hc])⟩
        have hall : '$' ∉ List.replicate (initialSlashes (pathJoin base rel)) '/' ++
            joinWith ['/'] ((splitOn '/' (pathJoin base rel)).foldl
              (normStep (isAbs (pathJoin base rel))) []).reverse := by
          rw [List.mem_append, not_or]
          refine ⟨fun hm => absurd (List.eq_of_mem_replicate hm) (by decide), hjoin _ ?_⟩
          intro c hc
          exact hfold _ [] hsp (by simp) c (List.mem_reverse.1 hc)
        simp only []
        split
        · decide
        · exact hall
    have hwalk : ∀ l, walk l (normpath (pathJoin base rel)) = walk (walk l base) rel := by
      intro l; rw [walk_normpath, walk_join]
    unfold pathJoin
    by_cases hab : isAbs (normpath (pathJoin base rel)) = true
    · have hab' := hab
      unfold pathJoin at hab'
      rw [if_pos hab']
      refine ⟨_, standsFor_self (by unfold pathJoin at hd; exact hd), fun l => ?_⟩
      have := hwalk (walk l (env (c!"CMAKE_CURRENT_" ++ c!"LIST_DIR")))
      rw [← this]
      exact walk_abs hab _ _
    · have hab' : ¬ isAbs (normpath (pathJoin base rel)) = true := hab
      unfold pathJoin at hab'
      rw [if_neg hab', if_neg (by decide)]
      refine ⟨env (c!"CMAKE_CURRENT_" ++ c!"LIST_DIR") ++ '/' :: normpath (pathJoin base rel), ?_,
        fun l => ?_⟩
      · have := Amounts.ref (env := env) (n := c!"CMAKE_CURRENT_" ++ c!"LIST_DIR") (by decide)
          (by decide) hs (standsFor_self (v := '/' :: normpath (pathJoin base rel))
            (by simpa using hd))
        exact this
      · rw [walk_slashed l hdir (by simpa using hab), hwalk]

/-- A path of a directory that is linked from, or of a file that is compiled, leads to where it leads from
the directory it is relative to, also when it begins with the name of the configuration; one that begins
with another variable stays as it is. -/
theorem C107_plain_path (base rel : Str) :
    ((¬ c!"$" <+: rel ∨ c!"${configuration}" <+: rel) →
      ∀ l, walk l (normjoinPath base rel) = walk (walk l base) rel) ∧
    (c!"$" <+: rel → ¬ c!"${configuration}" <+: rel → normjoinPath base rel = rel) := by
  have hs : ∀ p : Str, startsWith rel p = true ↔ p <+: rel := fun p => by
    unfold startsWith; exact List.isPrefixOf_iff_prefix
  unfold normjoinPath
  constructor
  · intro h l
    rw [if_neg, walk_normpath, walk_join]
    simp only [Bool.and_eq_true, Bool.not_eq_true', ← Bool.not_eq_true, hs]
    rintro ⟨h₁, h₂⟩
    rcases h with h | h
    · exact h h₁
    · exact h₂ h
  · intro h₁ h₂
    rw [if_pos]
    simp only [Bool.and_eq_true, Bool.not_eq_true', ← Bool.not_eq_true, hs]
    exact ⟨h₁, h₂⟩

example : normjoinPath c!"a/b" c!"../c" = c!"a/c" ∧
    normjoinPath c!"a" c!"${configuration}/x" = c!"a/${configuration}/x" ∧
    normjoinPath c!"a" c!"${obj}/x" = c!"${obj}/x" := by decide

/-- The files that actions add to the sources: the outputs of those that say so, each with the name the
gyp file has for it. -/
theorem C107_sources (path : Str) (actions : List CAction) (file name : Str) :
    (file, name) ∈ actionSources path actions ↔
      ∃ a ∈ actions, a.asSources = true ∧ name ∈ a.outputs ∧ file = normjoinSource path name := by
  unfold actionSources
  rw [List.mem_flatMap]
  have hz : ∀ os : List Str, (file, name) ∈ (os.map (normjoinSource path)).zip os ↔
      name ∈ os ∧ file = normjoinSource path name := by
    intro os
    induction os with
    | nil => simp
    | cons o os ih =>
      rw [List.map_cons, List.zip_cons_cons, List.mem_cons, ih, List.mem_cons, Prod.mk.injEq]
      constructor
      · rintro (⟨rfl, rfl⟩ | ⟨h₁, h₂⟩)
        · exact ⟨.inl rfl, rfl⟩
        · exact ⟨.inr h₁, h₂⟩
      · rintro ⟨rfl | h₁, h₂⟩
        · exact .inl ⟨h₂, rfl⟩
        · exact .inr ⟨h₁, h₂⟩
  constructor
  · rintro ⟨a, ha, h⟩
    split at h
    · rename_i has
      exact ⟨a, ha, has, (hz _).1 h⟩
    · cases h
  · rintro ⟨a, ha, has, h⟩
    exact ⟨a, ha, by rw [if_pos has]; exact (hz _).2 h⟩

example : (c!"/o.c", c!"/o.c") ∈ actionSources c!"d"
    [{ name := c!"a", inputs := [], outputs := [c!"/o.c"], action := [], asSources := true }] := by decide

end Gyp
