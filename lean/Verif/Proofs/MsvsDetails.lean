import Verif.Proofs.MsvsItems
import Mathlib.Data.List.Induction
import Mathlib.Data.List.Nodup
/-
Lemmas about the elements below the items of Visual Studio projects, the filters file, the
extensions and the exclusions.
-/
namespace Gyp
open Spec

/-! ### Metadata -/

theorem metadata_append (a b : List Detail) (name h : Str) :
    metadata (a ++ b) name h = (metadata b name h).or (metadata a name h) := by
  unfold metadata
  rw [List.filter_append, List.getLast?_append]
  generalize (b.filter fun d => d.name = name ∧ (d.condition = none ∨ d.condition = some h)).getLast? = x
  cases x with
  | none => simp only [Option.none_or, Option.map_none]
  | some d => simp only [Option.some_or, Option.map_some]

theorem metadata_skip {a : List Detail} {name h : Str} (hs : ∀ d ∈ a, d.name = name →
    d.condition ≠ none ∧ d.condition ≠ some h) : metadata a name h = none := by
  unfold metadata
  rw [List.filter_eq_nil_iff.mpr]
  · rfl
  · intro d hd
    simp only [decide_eq_true_eq]
    rintro ⟨h1, h2⟩
    have := hs d hd h1
    tauto

theorem metadata_const {a : List Detail} {name h v : Str} {d : Detail} (hd : d ∈ a) (hn : d.name = name)
    (hc : d.condition = none ∨ d.condition = some h)
    (hall : ∀ d ∈ a, d.name = name → (d.condition = none ∨ d.condition = some h) → d.value = v) :
    metadata a name h = some v := by
  unfold metadata
  have hm : d ∈ a.filter fun d => d.name = name ∧ (d.condition = none ∨ d.condition = some h) := by
    rw [List.mem_filter]
    exact ⟨hd, by simpa using ⟨hn, hc⟩⟩
  rcases hl : (a.filter fun d => d.name = name ∧ (d.condition = none ∨ d.condition = some h)).getLast? with _ | x
  · rw [List.getLast?_eq_none_iff] at hl
    rw [hl] at hm
    cases hm
  · have := List.mem_of_getLast? hl
    rw [List.mem_filter] at this
    simp only [decide_eq_true_eq] at this
    rw [hl, Option.map_some, hall x this.1 this.2.1 this.2.2]

/-- What one configuration adds. -/
def pchDetails (w : WinPaths) (toolset source : Str) (exts : List Str) (c : Str × WinConfig) : List Detail :=
  if (if c.2.pchSource ≠ [] then fixPath w c.2.pchSource else []) = source then
    [⟨c!"PrecompiledHeader", some (configurationCondition c.1 c.2 toolset), c!"Create"⟩]
  else
    (if c.2.pchSource ≠ [] ∧ exts = [] then otherKind w c.2.pchSource else exts).flatMap fun e =>
      if endsWith source e then [⟨c!"PrecompiledHeader", none, []⟩, ⟨c!"ForcedIncludeFiles", none, []⟩]
      else []

theorem precompileStep_snd (w : WinPaths) (toolset s : Str) (acc : List Str × List Detail)
    (c : Str × WinConfig) :
    (precompileStep w toolset s acc c).2 = acc.2 ++ pchDetails w toolset s acc.1 c := by
  unfold precompileStep pchDetails
  by_cases h : (if c.2.pchSource ≠ [] then fixPath w c.2.pchSource else []) = s
  · simp only [h, if_true]
  · simp only [h, if_false]

/-- The fold only adds. -/
theorem precompile_snd (w : WinPaths) (toolset s : Str) (cs : List (Str × WinConfig))
    (acc : List Str × List Detail) : ∃ added,
    (cs.foldl (precompileStep w toolset s) acc).2 = acc.2 ++ added ∧
    (∀ d ∈ added, ∃ c ∈ cs, ∃ exts, (∃ a b, cs = a ++ b ∧
        exts = if acc.1 = [] then pchKind w a else acc.1) ∧
        d ∈ pchDetails w toolset s exts c) ∧
    (∀ a c b, cs = a ++ c :: b →
      ∀ d ∈ pchDetails w toolset s (if acc.1 = [] then pchKind w a else acc.1) c, d ∈ added) := by
  induction cs using List.reverseRecOn with
  | nil => exact ⟨[], by simp, by simp, by simp⟩
  | append_singleton cs c ih =>
    obtain ⟨added, h1, h2, h3⟩ := ih
    refine ⟨added ++ pchDetails w toolset s (if acc.1 = [] then pchKind w cs else acc.1) c, ?_, ?_, ?_⟩
    · rw [List.foldl_append, List.foldl_cons, List.foldl_nil, precompileStep_snd, h1, precompile_fst,
        List.append_assoc]
    · intro d hd
      rcases List.mem_append.mp hd with hd | hd
      · obtain ⟨c', hc', exts, he, hd'⟩ := h2 d hd
        obtain ⟨a, b, hab, he⟩ := he
        exact ⟨c', List.mem_append_left _ hc', exts, ⟨a, b ++ [c], by rw [hab, List.append_assoc], he⟩, hd'⟩
      · exact ⟨c, by simp, _, ⟨cs, [c], rfl, rfl⟩, hd⟩
    · intro a c' b hab d hd
      rcases List.eq_nil_or_concat b with rfl | ⟨b', x, rfl⟩
      · obtain ⟨rfl, hc⟩ := List.append_inj' hab rfl
        injection hc with hc _
        subst hc
        exact List.mem_append_right _ hd
      · have := List.append_inj' (s₁ := cs) (t₁ := [c]) (s₂ := a ++ c' :: b') (t₂ := [x])
          (by rw [hab]; simp) rfl
        exact List.mem_append_left _ (h3 a c' b' this.1 d hd)

theorem pchKind_mem {w : WinPaths} {cs : List (Str × WinConfig)} {e : Str} (h : e ∈ pchKind w cs) :
    ∃ c ∈ cs, c.2.pchSource ≠ [] ∧ e ∈ otherKind w c.2.pchSource := by
  induction cs with
  | nil => simp [pchKind] at h
  | cons c cs ih =>
    simp only [pchKind] at h
    split at h
    · rename_i hc
      exact ⟨c, by simp, hc, h⟩
    · obtain ⟨c', h1, h2⟩ := ih h
      exact ⟨c', List.mem_cons_of_mem _ h1, h2⟩

theorem pchKind_prefix {w : WinPaths} {a b : List (Str × WinConfig)} {e : Str} (h : e ∈ pchKind w a) :
    e ∈ pchKind w (a ++ b) := by
  induction a with
  | nil => simp [pchKind] at h
  | cons c cs ih =>
    simp only [List.cons_append, pchKind] at h ⊢
    split
    · rename_i hc
      rw [if_pos hc] at h
      exact h
    · rename_i hc
      rw [if_neg hc] at h
      exact ih h

/-- The precompiled header of a source, from the start of the details. -/
theorem precompile_metadata (w : WinPaths) (toolset s : Str) (cs : List (Str × WinConfig))
    (exts : List Str) (first : List Detail) (hex : exts = [] ∨ exts = pchKind w cs) (hs : s ≠ [])
    (hfirst : ∀ d ∈ first, d.name ≠ c!"PrecompiledHeader")
    (hkind : ∀ c ∈ cs, ∀ c' ∈ cs, c.2.pchSource ≠ [] → c'.2.pchSource ≠ [] →
      ∀ e ∈ otherKind w c.2.pchSource, endsWith (fixPath w c'.2.pchSource) e = false)
    (hcond : (cs.map fun c => configurationCondition c.1 c.2 toolset).Nodup)
    (c : Str × WinConfig) (hc : c ∈ cs) :
    metadata (cs.foldl (precompileStep w toolset s) (exts, first)).2 c!"PrecompiledHeader"
        (configurationCondition c.1 c.2 toolset) =
      if c.2.pchSource ≠ [] ∧ fixPath w c.2.pchSource = s then some c!"Create"
      else if ∃ c' ∈ cs, c'.2.pchSource ≠ [] ∧ ∃ e ∈ otherKind w c'.2.pchSource, endsWith s e = true then
        some []
      else none := by
  obtain ⟨added, h1, h2, h3⟩ := precompile_snd w toolset s cs (exts, first)
  rw [h1, metadata_append, metadata_skip (a := first) (fun d hd hn => absurd hn (hfirst d hd)),
    Option.or_none]
  -- every extension used comes from some configuration
  have hsrc : ∀ ex : List Str, (∃ a b, cs = a ++ b ∧
      ex = if exts = [] then pchKind w a else exts) → ∀ c' ∈ cs,
      ∀ e ∈ (if c'.2.pchSource ≠ [] ∧ ex = [] then otherKind w c'.2.pchSource else ex),
      ∃ c' ∈ cs, c'.2.pchSource ≠ [] ∧ e ∈ otherKind w c'.2.pchSource := by
    intro ex hx c' hc' e he
    split at he
    · rename_i hcond
      exact ⟨c', hc', hcond.1, he⟩
    · obtain ⟨a, b, hab, rfl⟩ := hx
      split at he
      · rw [hab]
        exact pchKind_mem (pchKind_prefix he)
      · rcases hex with rfl | rfl
        · simp at he
        · exact pchKind_mem he
  -- what the details are
  have hwhat : ∀ d ∈ added, d.name = c!"PrecompiledHeader" →
      (∃ c' ∈ cs, c'.2.pchSource ≠ [] ∧ fixPath w c'.2.pchSource = s ∧
        d = ⟨c!"PrecompiledHeader", some (configurationCondition c'.1 c'.2 toolset), c!"Create"⟩) ∨
      (d = ⟨c!"PrecompiledHeader", none, []⟩ ∧
        ∃ c' ∈ cs, c'.2.pchSource ≠ [] ∧ ∃ e ∈ otherKind w c'.2.pchSource, endsWith s e = true) := by
    intro d hd hn
    obtain ⟨c', hc', ex, hx, hd⟩ := h2 d hd
    unfold pchDetails at hd
    by_cases hp : (if c'.2.pchSource ≠ [] then fixPath w c'.2.pchSource else []) = s
    · rw [if_pos hp, List.mem_singleton] at hd
      split at hp
      · rename_i hne
        exact Or.inl ⟨c', hc', hne, hp, hd⟩
      · exact absurd hp.symm hs
    · rw [if_neg hp] at hd
      obtain ⟨e, he, hd⟩ := List.mem_flatMap.mp hd
      split at hd
      · rename_i hend
        obtain ⟨c'', g1, g2, g3⟩ := hsrc ex hx c' hc' e he
        refine Or.inr ⟨?_, c'', g1, g2, e, g3, hend⟩
        rcases List.mem_cons.mp hd with hd | hd
        · exact hd
        · rw [List.mem_singleton] at hd
          rw [hd] at hn
          exact absurd hn (by decide)
      · simp at hd
  have hinj : ∀ c' ∈ cs, configurationCondition c'.1 c'.2 toolset = configurationCondition c.1 c.2 toolset → c' = c :=
    fun c' hc' h => List.inj_on_of_nodup_map hcond hc' hc h
  by_cases hcr : c.2.pchSource ≠ [] ∧ fixPath w c.2.pchSource = s
  · rw [if_pos hcr]
    obtain ⟨a, b, hab⟩ := List.append_of_mem hc
    refine metadata_const (d := ⟨c!"PrecompiledHeader", some (configurationCondition c.1 c.2 toolset), c!"Create"⟩)
      (h3 a c b hab _ ?_) rfl (Or.inr rfl) ?_
    · unfold pchDetails
      rw [if_pos hcr.1, if_pos hcr.2]
      simp
    · intro d hd hn _
      rcases hwhat d hd hn with ⟨c', _, _, _, rfl⟩ | ⟨_, c', g1, g2, e, g3, g4⟩
      · rfl
      · have := hkind c' g1 c hc g2 hcr.1 e g3
        rw [hcr.2, g4] at this
        cases this
  · rw [if_neg hcr]
    by_cases hoff : ∃ c' ∈ cs, c'.2.pchSource ≠ [] ∧ ∃ e ∈ otherKind w c'.2.pchSource, endsWith s e = true
    · rw [if_pos hoff]
      obtain ⟨c', g1, g2, e, g3, g4⟩ := hoff
      -- the first configuration with a precompiled header
      obtain ⟨a, c1, b, hab, hne, hfst⟩ : ∃ a c1 b, cs = a ++ c1 :: b ∧ c1.2.pchSource ≠ [] ∧
          ∀ x ∈ a, x.2.pchSource = [] := by
        clear h1 h2 h3 hsrc hwhat hinj hkind hcond hc hex
        induction cs with
        | nil => cases g1
        | cons x cs ih =>
          by_cases hx : x.2.pchSource = []
          · rcases List.mem_cons.mp g1 with rfl | g1
            · exact absurd hx g2
            · obtain ⟨a, c1, b, hab, h2, h3⟩ := ih g1
              refine ⟨x :: a, c1, b, by rw [hab]; rfl, h2, ?_⟩
              intro y hy
              rcases List.mem_cons.mp hy with rfl | hy
              · exact hx
              · exact h3 y hy
          · exact ⟨[], x, cs, rfl, hx, by simp⟩
      have hc1 : c1 ∈ cs := by rw [hab]; simp
      have hka : pchKind w a = [] := by
        clear hab
        induction a with
        | nil => rfl
        | cons x a ih =>
          rw [pchKind, if_neg (by simpa using hfst x (by simp))]
          exact ih fun y hy => hfst y (List.mem_cons_of_mem _ hy)
      have hk : pchKind w cs = otherKind w c1.2.pchSource := by
        rw [hab]
        clear hab hka
        induction a with
        | nil => rw [List.nil_append, pchKind, if_pos hne]
        | cons x a ih =>
          rw [List.cons_append, pchKind, if_neg (by simpa using hfst x (by simp))]
          exact ih fun y hy => hfst y (List.mem_cons_of_mem _ hy)
      -- the source is not a source of a precompiled header
      have hnot : ∀ c' ∈ cs, c'.2.pchSource ≠ [] → fixPath w c'.2.pchSource ≠ s := by
        intro c2 hc2 hne2 heq
        have := hkind c' g1 c2 hc2 g2 hne2 e g3
        rw [heq, g4] at this
        cases this
      -- all configurations agree on the kind
      have hsame : e ∈ otherKind w c1.2.pchSource := by
        by_contra hno
        have hother : ∀ s', (∃ e', otherKind w s' = [e'] ∧ e' = c!".c") ∨ otherKind w s' = [c!".cc", c!".cpp", c!".cxx"] := by
          intro s'
          unfold otherKind
          split
          · exact Or.inr rfl
          · exact Or.inl ⟨_, rfl, rfl⟩
        have hext : ∀ s', otherKind w s' = [c!".cc", c!".cpp", c!".cxx"] → (winSplitext (fixPath w s')).2 = c!".c" := by
          intro s' h
          unfold otherKind at h
          split at h
          · assumption
          · exact absurd h (by decide)
        have hends : ∀ p : Str, (winSplitext p).2 = c!".c" → endsWith p c!".c" = true := by
          intro p hp
          unfold winSplitext at hp
          split at hp
          · cases hp
          · rename_i root ext hr
            split at hp
            · cases hp
            · split at hp
              · rw [(rsplit1_some hr).1]
                simp only at hp
                rw [hp]
                simp [endsWith]
              · cases hp
        rcases hother c'.2.pchSource with ⟨_, h', rfl⟩ | h'
        · rcases hother c1.2.pchSource with ⟨_, h1', rfl⟩ | h1'
          · rw [h1'] at hno
            rw [h'] at g3
            exact hno g3
          · have := hkind c' g1 c1 hc1 g2 hne c!".c" (by rw [h']; simp)
            rw [hends _ (hext _ h1')] at this
            cases this
        · rcases hother c1.2.pchSource with ⟨_, h1', rfl⟩ | h1'
          · have := hkind c1 hc1 c' g1 hne g2 c!".c" (by rw [h1']; simp)
            rw [hends _ (hext _ h')] at this
            cases this
          · rw [h1'] at hno
            rw [h'] at g3
            exact hno g3
      refine metadata_const (d := ⟨c!"PrecompiledHeader", none, []⟩)
        (h3 a c1 b hab _ ?_) rfl (Or.inl rfl) ?_
      · unfold pchDetails
        rw [if_pos hne, if_neg (hnot c1 hc1 hne)]
        refine List.mem_flatMap.mpr ⟨e, ?_, by rw [if_pos g4]; simp⟩
        rcases hex with rfl | rfl
        · simp only [if_true, hka, hne, ne_eq, not_false_eq_true, and_self]
          exact hsame
        · have hkne : pchKind w cs ≠ [] := by rw [hk]; exact otherKind_ne _ _
          simp only [hkne, if_false, and_false]
          rw [hk]
          exact hsame
      · intro d hd hn _
        rcases hwhat d hd hn with ⟨c2, j1, j2, j3, rfl⟩ | ⟨rfl, _⟩
        · exact absurd j3 (hnot c2 j1 j2)
        · rfl
    · rw [if_neg hoff]
      apply metadata_skip
      intro d hd hn
      rcases hwhat d hd hn with ⟨c', g1, g2, g3, rfl⟩ | ⟨_, h⟩
      · refine ⟨by simp, ?_⟩
        intro h
        have := hinj c' g1 (Option.some.inj h)
        subst this
        exact hcr ⟨g2, g3⟩
      · exact absurd h hoff

/-- Names of the details a fold over the configurations adds. -/
theorem precompile_names (w : WinPaths) (toolset s : Str) (cs : List (Str × WinConfig))
    (exts : List Str) (first : List Detail) : ∃ added,
    (cs.foldl (precompileStep w toolset s) (exts, first)).2 = first ++ added ∧
      ∀ d ∈ added, d.name = c!"PrecompiledHeader" ∨ d.name = c!"ForcedIncludeFiles" := by
  obtain ⟨added, h1, h2, _⟩ := precompile_snd w toolset s cs (exts, first)
  refine ⟨added, h1, ?_⟩
  intro d hd
  obtain ⟨c, _, ex, _, hd⟩ := h2 d hd
  unfold pchDetails at hd
  by_cases hp : (if c.2.pchSource ≠ [] then fixPath w c.2.pchSource else []) = s
  · rw [if_pos hp, List.mem_singleton] at hd
    rw [hd]
    exact Or.inl rfl
  · rw [if_neg hp] at hd
    obtain ⟨e, _, hd⟩ := List.mem_flatMap.mp hd
    split at hd
    · rcases List.mem_cons.mp hd with hd | hd
      · rw [hd]; exact Or.inl rfl
      · rw [List.mem_singleton] at hd
        rw [hd]; exact Or.inr rfl
    · simp at hd

/-! ### Exclusions -/

theorem aget_fold_const {α : Type} (l : List Str) (f : Str → α) (d : List (Str × α)) (s : Str) :
    aget (l.foldl (fun d x => aset d x (f x)) d) s = if s ∈ l then some (f s) else aget d s := by
  induction l generalizing d with
  | nil => simp
  | cons x l ih =>
    rw [List.foldl_cons, ih]
    by_cases h : s ∈ l
    · rw [if_pos h, if_pos (List.mem_cons_of_mem _ h)]
    · rw [if_neg h, aget_aset]
      by_cases hx : x = s
      · subst hx
        simp
      · have : s ≠ x := fun h => hx h.symm
        simp [h, hx, this]

theorem aget_excludedFromBuild (w : WinPaths) (configs : List (Str × WinConfig)) (excluded idl : List Str)
    (s : Str) : aget (excludedFromBuild w configs excluded idl) s =
      if s ∈ idl then some configs
      else if s ∈ excluded then some (configs.filter fun c =>
        s ∉ [fixPath w c.2.pchHeader, fixPath w c.2.pchSource])
      else none := by
  unfold excludedFromBuild
  simp only
  rw [aget_fold_const idl (fun _ => configs), aget_fold_const excluded]
  rfl

/-! ### Extensions -/

theorem takeWhile_last (root : Str) : ∃ dir, root = dir ++
      (root.reverse.takeWhile fun c => c ≠ '\\' && c ≠ '/').reverse ∧
    (dir = [] ∨ dir.getLast? = some '\\' ∨ dir.getLast? = some '/') := by
  have h := List.takeWhile_append_dropWhile (p := fun c : Char => c ≠ '\\' && c ≠ '/') (l := root.reverse)
  refine ⟨(root.reverse.dropWhile fun c => c ≠ '\\' && c ≠ '/').reverse, ?_, ?_⟩
  · conv => lhs; rw [← List.reverse_reverse root, ← h]
    rw [List.reverse_append]
  · rcases hd : root.reverse.dropWhile fun c => c ≠ '\\' && c ≠ '/' with _ | ⟨x, xs⟩
    · exact Or.inl rfl
    · right
      have := List.head?_dropWhile_not (fun c : Char => c ≠ '\\' && c ≠ '/') root.reverse
      rw [hd] at this
      simp only [List.head?_cons] at this
      rw [List.reverse_cons, List.getLast?_append]
      simp only [List.getLast?_singleton, Option.some_or, Option.some.injEq]
      by_cases hx : x = '\\'
      · exact Or.inl hx
      · right
        simpa [hx] using this

theorem hasExtension_split {dir stem e : Str} (hdir : dir = [] ∨ dir.getLast? = some '\\' ∨ dir.getLast? = some '/')
    (hs : '\\' ∉ stem ++ e) (hs' : '/' ∉ stem ++ e) (he : '.' ∉ e) (hc : ∃ c ∈ stem, c ≠ '.') :
    winSplitext (dir ++ stem ++ '.' :: e) = (dir ++ stem, '.' :: e) := by
  unfold winSplitext
  rw [rsplit1_append he]
  simp only
  rw [if_neg, if_pos]
  · rw [List.reverse_append]
    have h1 : (stem.reverse ++ dir.reverse).takeWhile (fun c => c ≠ '\\' && c ≠ '/') = stem.reverse := by
      rw [List.takeWhile_append_of_pos]
      · rcases hdir with rfl | h | h
        · simp
        · rw [← List.head?_reverse] at h
          rcases hr : dir.reverse with _ | ⟨x, xs⟩
          · simp
          · rw [hr] at h
            simp at h
            subst h
            simp
        · rw [← List.head?_reverse] at h
          rcases hr : dir.reverse with _ | ⟨x, xs⟩
          · simp
          · rw [hr] at h
            simp at h
            subst h
            simp
      · intro c hc
        have hc := List.mem_reverse.mp hc
        have h1 : c ≠ '\\' := by rintro rfl; exact hs (List.mem_append_left _ hc)
        have h2 : c ≠ '/' := by rintro rfl; exact hs' (List.mem_append_left _ hc)
        simp [h1, h2]
    rw [h1, List.any_eq_true]
    obtain ⟨c, hc, hne⟩ := hc
    exact ⟨c, List.mem_reverse.mpr hc, by simpa using hne⟩
  · rintro (h | h)
    · exact hs (List.mem_append_right _ h)
    · exact hs' (List.mem_append_right _ h)

/-- The extension of a path. -/
theorem winSplitext_ext (p ext : Str) (hne : ext ≠ []) :
    (winSplitext p).2 = ext ↔ HasExtension p ext := by
  constructor
  · intro h
    unfold winSplitext at h
    split at h
    · exact absurd h.symm hne
    · rename_i root e hr
      obtain ⟨h1, h2⟩ := rsplit1_some hr
      split at h
      · exact absurd h.symm hne
      · rename_i hsep
        split at h
        · rename_i hany
          simp only at h
          subst h
          obtain ⟨dir, hd1, hd2⟩ := takeWhile_last root
          refine ⟨dir, (root.reverse.takeWhile fun c => c ≠ '\\' && c ≠ '/').reverse, e, ?_, rfl, h2, ?_, ?_,
            hd2, ?_⟩
          · rw [h1, ← hd1]
          · intro hm
            rcases List.mem_append.mp hm with hm | hm
            · have := List.all_takeWhile (p := fun c : Char => c ≠ '\\' && c ≠ '/') (l := root.reverse)
              rw [List.all_eq_true] at this
              have := this _ (List.mem_reverse.mp hm)
              simp at this
            · exact hsep (Or.inl hm)
          · intro hm
            rcases List.mem_append.mp hm with hm | hm
            · have := List.all_takeWhile (p := fun c : Char => c ≠ '\\' && c ≠ '/') (l := root.reverse)
              rw [List.all_eq_true] at this
              have := this _ (List.mem_reverse.mp hm)
              simp at this
            · exact hsep (Or.inr hm)
          · rw [List.any_eq_true] at hany
            obtain ⟨c, hc, hx⟩ := hany
            exact ⟨c, List.mem_reverse.mpr hc, by simpa using hx⟩
        · exact absurd h.symm hne
  · rintro ⟨dir, stem, e, rfl, rfl, he, hs, hs', hdir, hc⟩
    rw [hasExtension_split hdir hs hs' he hc]

theorem winSplitext_append (p : Str) : (winSplitext p).1 ++ (winSplitext p).2 = p := by
  unfold winSplitext
  split
  · simp
  · rename_i root e hr
    obtain ⟨h1, h2⟩ := rsplit1_some hr
    split
    · simp
    · split
      · exact h1.symm
      · simp

/-! ### The filters file -/

theorem filterEntries_file (type : Str → Str) (parent s : Str) (rest : List WinTree) :
    filterEntries type parent (.file s :: rest) = ((filterEntries type parent rest).1,
      ⟨type s, s, if parent = [] then none else some parent⟩ :: (filterEntries type parent rest).2) := by
  rw [filterEntries]

theorem filterEntries_folder (type : Str → Str) (parent n : Str) (cs rest : List WinTree) :
    filterEntries type parent (.folder n cs :: rest) =
      ((if parent = [] then n else parent ++ c!"\\" ++ n) ::
        ((filterEntries type (if parent = [] then n else parent ++ c!"\\" ++ n) cs).1 ++
          (filterEntries type parent rest).1),
        (filterEntries type (if parent = [] then n else parent ++ c!"\\" ++ n) cs).2 ++
          (filterEntries type parent rest).2) := by
  rw [filterEntries]

theorem filterEntries_length (type : Str → Str) (parent : Str) (ts : List WinTree) :
    (filterEntries type parent ts).2.length = (treePaths ts).length := by
  induction ts using treePaths.induct generalizing parent with
  | case1 => simp [filterEntries, treePaths_nil]
  | case2 s rest ih => simp [filterEntries_file, treePaths_file, ih]
  | case3 n cs rest ih1 ih2 => simp [filterEntries_folder, treePaths_folder, ih1, ih2]

theorem joinWith_ne_nil {sep : Str} {ws : List Str} (h : ws ≠ []) (hw : ∀ w ∈ ws, w ≠ []) :
    joinWith sep ws ≠ [] := by
  rcases ws with _ | ⟨w, _ | ⟨v, ws⟩⟩
  · exact absurd rfl h
  · simpa [joinWith] using hw w (by simp)
  · simp [joinWith, hw w (by simp)]

theorem joinWith_snoc_ne {sep : Str} {ws : List Str} (h : ws ≠ []) (n : Str) :
    joinWith sep (ws ++ [n]) = joinWith sep ws ++ sep ++ n := by
  induction ws with
  | nil => exact absurd rfl h
  | cons w ws ih =>
    cases ws with
    | nil => simp [joinWith]
    | cons v ws =>
      have := ih (by simp)
      simp only [List.cons_append, joinWith] at this ⊢
      rw [this]
      simp

theorem folder_name (parents : List Str) (hp : ∀ w ∈ parents, w ≠ []) (n : Str) :
    (if joinWith ['\\'] parents = [] then n else joinWith ['\\'] parents ++ c!"\\" ++ n) =
      joinWith ['\\'] (parents ++ [n]) := by
  by_cases h : parents = []
  · subst h
    rfl
  · rw [if_neg (joinWith_ne_nil h hp), joinWith_snoc_ne h]

theorem filterEntries_entries (type : Str → Str) (parents : List Str) (hp : ∀ w ∈ parents, w ≠ [])
    (ts : List WinTree) (ht : ∀ p ∈ treePaths ts, ∀ n ∈ p.1, n ≠ []) :
    (filterEntries type (joinWith ['\\'] parents) ts).2 =
      (treePaths ts).map fun p => ⟨type p.2, p.2, folderText (parents ++ p.1)⟩ := by
  induction ts using treePaths.induct generalizing parents with
  | case1 => simp [filterEntries, treePaths_nil]
  | case2 s rest ih =>
    rw [filterEntries_file, treePaths_file, List.map_cons,
      ih parents hp fun p hp' => ht p (by rw [treePaths_file]; exact List.mem_cons_of_mem _ hp')]
    congr 2
    rw [List.append_nil, folderText]
    by_cases h : parents = []
    · subst h; rfl
    · rw [if_neg (joinWith_ne_nil h hp), if_neg h]
  | case3 n cs rest ih1 ih2 =>
    rw [filterEntries_folder, treePaths_folder, List.map_append, folder_name parents hp]
    rw [ih2 parents hp fun p hp' => ht p (by rw [treePaths_folder]; exact List.mem_append_right _ hp')]
    dsimp only
    congr 1
    by_cases hcs : treePaths cs = []
    · rw [hcs]
      have := filterEntries_length type (joinWith ['\\'] (parents ++ [n])) cs
      rw [hcs] at this
      simpa using List.length_eq_zero_iff.mp this
    · obtain ⟨q, hq⟩ := List.exists_mem_of_ne_nil _ hcs
      have hin : ∀ q ∈ treePaths cs, (n :: q.1, q.2) ∈ treePaths (.folder n cs :: rest) := by
        intro q hq
        rw [treePaths_folder]
        exact List.mem_append_left _ (List.mem_map.mpr ⟨q, hq, rfl⟩)
      have hn : n ≠ [] := ht _ (hin q hq) n (by simp)
      rw [ih1 (parents ++ [n]) (by
          intro w hw
          rcases List.mem_append.mp hw with hw | hw
          · exact hp w hw
          · rw [List.mem_singleton] at hw
            rw [hw]; exact hn)
        fun p hp' m hm => ht _ (hin p hp') m (List.mem_cons_of_mem _ hm)]
      rw [List.map_map]
      apply List.map_congr_left
      intro p _
      simp

theorem filterEntries_declared (type : Str → Str) (parents : List Str) (hp : ∀ w ∈ parents, w ≠ [])
    (ts : List WinTree) (ht : ∀ p ∈ treePaths ts, ∀ n ∈ p.1, n ≠ []) :
    ∀ p ∈ treePaths ts, ∀ front, front ≠ [] → front <+: p.1 →
      joinWith ['\\'] (parents ++ front) ∈ (filterEntries type (joinWith ['\\'] parents) ts).1 := by
  induction ts using treePaths.induct generalizing parents with
  | case1 => simp [treePaths_nil]
  | case2 s rest ih =>
    intro p hp' front hne hpre
    rw [treePaths_file] at hp'
    rw [filterEntries_file]
    rcases List.mem_cons.mp hp' with rfl | hp'
    · exact absurd (List.prefix_nil.mp hpre) hne
    · exact ih parents hp (fun q hq => ht q (by rw [treePaths_file]; exact List.mem_cons_of_mem _ hq)) p hp' front hne hpre
  | case3 n cs rest ih1 ih2 =>
    intro p hp' front hne hpre
    rw [treePaths_folder] at hp'
    rw [filterEntries_folder, folder_name parents hp]
    have hin : ∀ q ∈ treePaths cs, (n :: q.1, q.2) ∈ treePaths (.folder n cs :: rest) := by
      intro q hq
      rw [treePaths_folder]
      exact List.mem_append_left _ (List.mem_map.mpr ⟨q, hq, rfl⟩)
    rcases List.mem_append.mp hp' with hp' | hp'
    · obtain ⟨q, hq, rfl⟩ := List.mem_map.mp hp'
      have hn : n ≠ [] := ht _ (hin q hq) n (by simp)
      rcases front with _ | ⟨m, front⟩
      · exact absurd rfl hne
      · obtain ⟨rfl, hpre'⟩ := List.cons_prefix_cons.mp hpre
        by_cases hf : front = []
        · subst hf
          exact List.mem_cons_self ..
        · refine List.mem_cons_of_mem _ (List.mem_append_left _ ?_)
          have := ih1 (parents ++ [m]) (by
            intro w hw
            rcases List.mem_append.mp hw with hw | hw
            · exact hp w hw
            · rw [List.mem_singleton] at hw
              rw [hw]; exact hn)
            (fun p hp' m hm => ht _ (hin p hp') m (List.mem_cons_of_mem _ hm)) q hq front hf hpre'
          simpa using this
    · exact List.mem_cons_of_mem _ (List.mem_append_right _
        (ih2 parents hp (fun q hq => ht q (by rw [treePaths_folder]; exact List.mem_append_right _ hq)) p hp' front hne hpre))

end Gyp
