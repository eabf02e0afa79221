import Verif.Spec.MacBundle
import Verif.Proofs.XcodeGroups
import Verif.Proofs.SlnFacts
/-
C113: the parts of a bundle are where macOS and iOS look for them.
-/
namespace Gyp
open Gyp.Spec

theorem bundlePath_join {cs : List Str} {b : Str} (hne : cs ≠ []) (h : ∀ c ∈ cs, FileName c) (hb : '/' ∉ b) :
    pathJoin (bundlePath cs) b = bundlePath (cs ++ [b]) := by
  have habs : isAbs b = false := by
    rw [isAbs_false_iff]
    cases b with
    | nil => simp
    | cons x xs =>
      simp only [List.head?_cons, ne_eq, Option.some.injEq]
      intro e
      exact hb (by rw [e]; simp)
  unfold pathJoin
  rw [habs, if_neg (by simp)]
  have h₁ : bundlePath cs ≠ [] := joinWith_parts_ne hne h
  have h₂ : endsWith (bundlePath cs) ['/'] = false := noSlash_endsWith hne h
  rw [if_neg (by simp [h₁, h₂])]
  clear h₁ h₂
  induction cs with
  | nil => exact absurd rfl hne
  | cons c cs ih =>
    cases cs with
    | nil => simp [bundlePath, joinWith]
    | cons d ds =>
      have := ih (by simp) (fun x hx => h x (by simp [hx]))
      simp only [bundlePath, joinWith, List.cons_append, List.append_assoc] at this ⊢
      simp [this]

theorem bundlePath_join_lit {cs : List Str} (b : Str) (hne : cs ≠ []) (h : ∀ c ∈ cs, FileName c)
    (hb : b.all (· ≠ '/') = true) : pathJoin (bundlePath cs) b = bundlePath (cs ++ [b]) :=
  bundlePath_join hne h (by
    intro hm
    have := List.all_eq_true.1 hb _ hm
    simp at this)

theorem wrapper_isBundle {s : BundleSpec} {w : Str} (h : s.wrapper = some w) : s.isBundle = true := by
  by_contra hc
  unfold BundleSpec.wrapper BundleSpec.wrapperExt at h
  rw [if_neg hc] at h
  cases h

theorem contents_kind {s : BundleSpec} {k : BundleKind} {w : Str} (hk : s.type = k.type)
    (hw : s.wrapper = some w) (hwn : FileName w) (hv : FileName (s.frameworkVersion.getD c!"A")) :
    s.contents = some (bundlePath (w :: bundleRoot s.ios k (s.frameworkVersion.getD c!"A"))) := by
  have hb := wrapper_isBundle hw
  unfold BundleSpec.contents
  cases hi : s.ios with
  | true => rw [if_pos rfl, hw]; simp [bundleRoot, bundlePath, joinWith]
  | false =>
    rw [if_neg (by simp)]
    have hw1 : w = bundlePath [w] := by simp [bundlePath, joinWith]
    cases k with
    | framework =>
      rw [if_pos (by rw [hk]; rfl), hw]
      unfold BundleSpec.version
      rw [if_pos hb]
      dsimp only
      rw [hw1, bundlePath_join_lit c!"Versions" (by simp) (by simpa using hwn) (by decide),
        bundlePath_join (by simp) (by simpa [hwn] using ⟨by decide, by decide⟩) hv.2]
      simp [bundleRoot, bundlePath, joinWith]
    | application =>
      rw [if_neg (by rw [hk]; decide), hw, Option.map_some, hw1,
        bundlePath_join_lit c!"Contents" (by simp) (by simpa using hwn) (by decide)]
      simp [bundleRoot, bundlePath, joinWith]
    | plugIn =>
      rw [if_neg (by rw [hk]; decide), hw, Option.map_some, hw1,
        bundlePath_join_lit c!"Contents" (by simp) (by simpa using hwn) (by decide)]
      simp [bundleRoot, bundlePath, joinWith]

theorem root_names {w v : Str} (hw : FileName w) (hv : FileName v) (ios : Bool) (k : BundleKind) :
    ∀ c ∈ w :: bundleRoot ios k v, FileName c := by
  intro c hc
  rcases List.mem_cons.1 hc with rfl | hc
  · exact hw
  · unfold bundleRoot at hc
    split at hc
    · cases hc
    · cases k <;> simp at hc
      · subst hc; exact ⟨by decide, by decide⟩
      · subst hc; exact ⟨by decide, by decide⟩
      · rcases hc with rfl | rfl
        · exact ⟨by decide, by decide⟩
        · exact hv

/-- **C113.**  The parts of a bundle are in the directories of its layout. -/
theorem C113_layout {s : BundleSpec} {k : BundleKind} {w : Str} (hk : s.type = k.type)
    (hw : s.wrapper = some w) (hwn : FileName w) (hv : FileName (s.frameworkVersion.getD c!"A")) :
    let v := s.frameworkVersion.getD c!"A"
    let root := w :: bundleRoot s.ios k v
    s.contents = some (bundlePath root) ∧
    s.resources = some (bundlePath (w :: bundleResourcesAt s.ios k v)) ∧
    s.executables = some (bundlePath (w :: bundleProgramsAt s.ios k v)) ∧
    s.plist = some (bundlePath (w :: bundlePlistAt s.ios k v ++ [c!"Info.plist"])) ∧
    s.java = some (bundlePath (w :: bundleResourcesAt s.ios k v ++ [c!"Java"])) ∧
    s.frameworks = some (bundlePath (root ++ [c!"Frameworks"])) ∧
    s.sharedFrameworks = some (bundlePath (root ++ [c!"SharedFrameworks"])) ∧
    s.sharedSupport = some (bundlePath (if k = .framework then w :: bundleResourcesAt s.ios k v
      else root ++ [c!"SharedSupport"])) ∧
    s.plugIns = some (bundlePath (root ++ [c!"PlugIns"])) ∧
    s.xpcServices = some (bundlePath (root ++ [c!"XPCServices"])) := by
  intro v root
  have hc := contents_kind hk hw hwn hv
  have hb := wrapper_isBundle hw
  have hn := root_names hwn hv s.ios k
  have hj : ∀ b : Str, b.all (· ≠ '/') = true → pathJoin (bundlePath root) b = bundlePath (root ++ [b]) :=
    fun b => bundlePath_join_lit b (by simp [root]) hn
  have hres : s.resources = some (bundlePath (w :: bundleResourcesAt s.ios k v)) := by
    unfold BundleSpec.resources bundleResourcesAt
    rw [hc]
    cases s.ios with
    | true => simp [v]
    | false =>
      rw [if_neg (by simp), Option.map_some]
      have := bundlePath_join_lit (cs := w :: bundleRoot false k (s.frameworkVersion.getD c!"A")) c!"Resources"
        (by simp) (root_names hwn hv false k) (by decide)
      rw [this]
      simp [v]
  have hrn : ∀ c ∈ w :: bundleResourcesAt s.ios k v, FileName c := by
    intro c hc
    unfold bundleResourcesAt at hc
    rw [← List.cons_append, List.mem_append] at hc
    rcases hc with hc | hc
    · exact hn c hc
    · split at hc
      · cases hc
      · rw [List.mem_singleton.1 hc]; exact ⟨by decide, by decide⟩
  refine ⟨hc, hres, ?_, ?_, ?_, ?_, ?_, ?_, ?_, ?_⟩
  · unfold BundleSpec.executables bundleProgramsAt
    rw [hc]
    by_cases hx : s.ios = true ∨ k = .framework
    · rw [if_pos (by rcases hx with h | h
                     · exact .inr h
                     · exact .inl (by rw [hk, h]; rfl)), if_pos hx]
      simp [v]
    · rw [if_neg, if_neg hx, if_pos, Option.map_some]
      · have := hj c!"MacOS" (by decide)
        simp only [root, v] at this
        rw [this]; simp [v]
      · rw [hk]; cases k <;> simp [BundleKind.type] at hx ⊢
      · rw [hk]; cases k <;> simp [BundleKind.type] at hx ⊢
        all_goals simp [hx]
  · unfold BundleSpec.plist bundlePlistAt
    have hfw : k ≠ .framework → (s.type = c!"executable" ∨ s.type = c!"loadable_module" ∨ s.isIosFramework = true) := by
      intro h
      rw [hk]
      cases k with
      | application => exact .inl rfl
      | plugIn => exact .inr (.inl rfl)
      | framework => exact absurd rfl h
    by_cases hkf : k = .framework
    · rw [if_pos hkf]
      have hios : s.isIosFramework = s.ios := by
        unfold BundleSpec.isIosFramework
        rw [hk, hkf, hb]
        simp [BundleKind.type]
      have ht : ¬ (s.type = c!"executable") ∧ ¬ (s.type = c!"loadable_module") := by
        rw [hk, hkf]; decide
      rw [hc, hios]
      cases hi : s.ios with
      | true =>
        rw [if_pos (.inr (.inr rfl)), Option.map_some]
        have := hj c!"Info.plist" (by decide)
        simp only [root, v, hi] at this
        rw [this]
        simp [bundleResourcesAt, v]
      | false =>
        rw [if_neg (by simp [ht]), Option.map_some]
        have h₁ := hj c!"Resources" (by decide)
        simp only [root, v, hi] at h₁
        rw [h₁, bundlePath_join_lit c!"Info.plist" (by simp) (by
          have := hrn
          simp only [bundleResourcesAt, hi] at this
          simpa [v] using this) (by decide)]
        simp [bundleResourcesAt, v]
    · rw [if_neg hkf, if_pos (hfw hkf), hc, Option.map_some]
      have := hj c!"Info.plist" (by decide)
      simp only [root, v] at this
      rw [this]
  · unfold BundleSpec.java
    rw [hres, Option.map_some, bundlePath_join_lit c!"Java" (by simp) hrn (by decide)]
  · unfold BundleSpec.frameworks
    rw [hc, Option.map_some]; exact congrArg some (hj _ (by decide))
  · unfold BundleSpec.sharedFrameworks
    rw [hc, Option.map_some]; exact congrArg some (hj _ (by decide))
  · unfold BundleSpec.sharedSupport
    by_cases hkf : k = .framework
    · rw [if_pos (by rw [hk, hkf]; rfl), if_pos hkf, hres]
    · rw [if_neg (by rw [hk]; cases k <;> simp [BundleKind.type] at hkf ⊢), if_neg hkf, hc, Option.map_some]
      exact congrArg some (hj _ (by decide))
  · unfold BundleSpec.plugIns
    rw [hc, Option.map_some]; exact congrArg some (hj _ (by decide))
  · unfold BundleSpec.xpcServices
    rw [hc, Option.map_some]; exact congrArg some (hj _ (by decide))

/-- **C113.**  The name of a bundle is the name of the product and the extension that was asked for, or
that of its kind. -/
theorem C113_name {s : BundleSpec} {k : BundleKind}
    (hb : s.macBundle = true ∨ s.xctest = true ∨ s.xcuitest = true) (hk : s.type = k.type) :
    s.wrapper = some (s.productName.getD s.targetName ++ c!"." ++
      (s.productExtension.orElse fun _ => if k = .application then none else s.wrapperExtension).getD
        (k.extension (!(s.appExtension || s.watchkitExtension)))) := by
  have hb : s.isBundle = true := by
    unfold BundleSpec.isBundle
    rcases hb with h | h | h <;> simp [h]
  unfold BundleSpec.wrapper BundleSpec.wrapperExt BundleSpec.product
  rw [hb, hk]
  cases k with
  | application =>
    cases s.appExtension || s.watchkitExtension <;> cases s.productExtension <;>
      simp [BundleKind.type, BundleKind.extension]
  | plugIn =>
    cases s.productExtension <;> cases s.wrapperExtension <;> simp [BundleKind.type, BundleKind.extension]
  | framework =>
    cases s.productExtension <;> cases s.wrapperExtension <;> simp [BundleKind.type, BundleKind.extension]

/-- **C113.**  What is no bundle, and is not for tests, has no wrapper. -/
theorem C113_no_bundle {s : BundleSpec} (h₁ : s.macBundle = false) (h₂ : s.xctest = false)
    (h₃ : s.xcuitest = false) : s.wrapper = none := by
  simp [BundleSpec.wrapper, BundleSpec.wrapperExt, BundleSpec.isBundle, h₁, h₂, h₃]

/-- **C113.**  The program of a bundle has the name of the product, in the directory for programs. -/
theorem C113_program {s : BundleSpec} {k : BundleKind} {w : Str} (hk : s.type = k.type)
    (hw : s.wrapper = some w) (hwn : FileName w) (hv : FileName (s.frameworkVersion.getD c!"A"))
    (hp : '/' ∉ s.productName.getD s.targetName) :
    s.executable = some (bundlePath (w :: bundleProgramsAt s.ios k (s.frameworkVersion.getD c!"A") ++
      [s.productName.getD s.targetName])) := by
  unfold BundleSpec.executable BundleSpec.product
  rw [(C113_layout hk hw hwn hv).2.2.1, Option.map_some, bundlePath_join (by simp) ?_ hp]
  intro c hc
  unfold bundleProgramsAt at hc
  rw [← List.cons_append, List.mem_append] at hc
  rcases hc with hc | hc
  · exact root_names hwn hv s.ios k c hc
  · split at hc
    · cases hc
    · rw [List.mem_singleton.1 hc]; exact ⟨by decide, by decide⟩

/-! ### Resources -/

theorem suffix_last {x b t : Str} (ht : '/' ∉ t) : t <:+ (x ++ '/' :: b) ↔ t <:+ b := by
  constructor
  · intro h
    have h' : ('/' :: b) <:+ (x ++ '/' :: b) := List.suffix_append _ _
    rcases List.suffix_or_suffix_of_suffix h h' with h₁ | h₁
    · rcases List.suffix_cons_iff.1 h₁ with e | h₂
      · exact absurd (by rw [e]; simp) ht
      · exact h₂
    · exact absurd (h₁.subset (by simp)) ht
  · intro h
    exact h.trans ((List.suffix_cons _ _).trans (List.suffix_append _ _))

theorem splitext_stem {x stem e : Str} (hs : ∃ c ∈ stem, c ≠ '.') (hsl : '/' ∉ stem) (he : '.' ∉ e)
    (he' : '/' ∉ e) : splitext (x ++ '/' :: (stem ++ '.' :: e)) = (x ++ '/' :: stem, '.' :: e) := by
  unfold splitext
  rw [show x ++ '/' :: (stem ++ '.' :: e) = (x ++ '/' :: stem) ++ '.' :: e by simp, rsplit1_append he]
  dsimp only
  rw [if_neg he', if_pos]
  unfold basename
  rw [rsplit1_append hsl]
  simp only [List.any_eq_true, decide_eq_true_eq]
  exact hs

theorem mbEndsWith_iff {s t : Str} : endsWith s t = true ↔ t <:+ s := by
  unfold endsWith
  exact List.isSuffixOf_iff_suffix

/-- The two last steps of `resourceOutput`. -/
def compiledOutput (output : Str) : Str :=
  let output := if endsWith output c!".xib" then (splitext output).1 ++ c!".nib" else output
  if endsWith output c!".storyboard" then (splitext output).1 ++ c!".storyboardc" else output

theorem compiled_name {x n n' : Str} (hn : '/' ∉ n) (h : ResourceName n n') :
    compiledOutput (x ++ '/' :: n) = x ++ '/' :: n' := by
  unfold compiledOutput
  rcases h with ⟨stem, hs, rfl, rfl⟩ | ⟨stem, hs, rfl, rfl⟩ | ⟨h₁, h₂, h₃⟩
  · have hsl : '/' ∉ stem := fun hm => hn (List.mem_append_left _ hm)
    have h₁ : endsWith (x ++ '/' :: (stem ++ c!".xib")) c!".xib" = true :=
      mbEndsWith_iff.2 ((suffix_last (by decide)).2 (List.suffix_append _ _))
    rw [if_pos h₁, splitext_stem hs hsl (e := c!"xib") (by decide) (by decide)]
    dsimp only
    rw [if_neg]
    · simp
    · rw [mbEndsWith_iff, show (x ++ '/' :: stem) ++ c!".nib" = x ++ '/' :: (stem ++ c!".nib") by simp]
      intro hc
      rcases List.suffix_or_suffix_of_suffix hc
        ((List.suffix_append stem c!".nib").trans ((List.suffix_cons '/' _).trans (List.suffix_append x _))) with h | h
      · exact absurd h (by decide)
      · exact absurd h (by decide)
  · have hsl : '/' ∉ stem := fun hm => hn (List.mem_append_left _ hm)
    have h₁ : ¬ endsWith (x ++ '/' :: (stem ++ c!".storyboard")) c!".xib" = true := by
      rw [mbEndsWith_iff]
      intro hc
      rcases List.suffix_or_suffix_of_suffix hc
        ((List.suffix_append stem c!".storyboard").trans
          ((List.suffix_cons '/' _).trans (List.suffix_append x _))) with h | h
      · exact absurd h (by decide)
      · exact absurd h (by decide)
    have h₂ : endsWith (x ++ '/' :: (stem ++ c!".storyboard")) c!".storyboard" = true :=
      mbEndsWith_iff.2 ((suffix_last (by decide)).2 (List.suffix_append _ _))
    rw [if_neg h₁, if_pos h₂, splitext_stem hs hsl (e := c!"storyboard") (by decide) (by decide)]
    simp
  · have g₁ : ¬ endsWith (x ++ '/' :: n) c!".xib" = true := by
      rw [mbEndsWith_iff, suffix_last (by decide)]; exact h₁
    have g₂ : ¬ endsWith (x ++ '/' :: n) c!".storyboard" = true := by
      rw [mbEndsWith_iff, suffix_last (by decide)]; exact h₂
    rw [if_neg g₁, if_neg g₂, h₃]

/-- **C113.**  A resource goes to the directory of the resources (`dest`), to the directory of its
language if it comes from one, under the name that it has in a bundle. -/
theorem C113_resource {dest res name' : Str} (hd : dest ≠ [] ∧ ¬ c!"/" <:+ dest) (hs : ' ' ∉ res)
    (hn : ResourceName (basename res) name') :
    resourceOutput dest res = some (bundlePath (dest ::
      (if c!".lproj" <:+ basename (dirname res) then [basename (dirname res)] else []) ++ [name'])) := by
  have hb := basename_noSep res
  have hl := basename_noSep (dirname res)
  have hrel : ∀ {b : Str}, '/' ∉ b → isAbs b = false := by
    intro b hb
    rw [isAbs_false_iff]
    cases b with
    | nil => simp
    | cons x xs =>
      simp only [List.head?_cons, ne_eq, Option.some.injEq]
      intro e
      exact hb (by rw [e]; simp)
  have hj : ∀ {a b : Str}, a ≠ [] → ¬ c!"/" <:+ a → '/' ∉ b → pathJoin a b = a ++ '/' :: b := by
    intro a b ha ha' hb
    unfold pathJoin
    rw [hrel hb, if_neg (by simp), if_neg]
    rintro (h | h)
    · exact ha h
    · exact ha' (mbEndsWith_iff.1 h)
  have hu : resourceOutput dest res = some (compiledOutput (pathJoin
      (if endsWith (basename (dirname res)) c!".lproj" then pathJoin dest (basename (dirname res)) else dest)
      (basename res))) := by
    unfold resourceOutput
    rw [if_neg hs]
    rfl
  rw [hu]
  by_cases hlp : c!".lproj" <:+ basename (dirname res)
  · rw [if_pos (mbEndsWith_iff.2 hlp), if_pos hlp, hj hd.1 hd.2 hl, hj (by simp) ?_ hb,
      compiled_name hb hn]
    · simp [bundlePath, joinWith]
    · intro hc
      rcases List.suffix_or_suffix_of_suffix hc
        (hlp.trans ((List.suffix_cons '/' _).trans (List.suffix_append dest _))) with h | h
      · exact absurd h (by decide)
      · exact absurd h (by decide)
  · rw [if_neg (by rw [mbEndsWith_iff]; exact hlp), if_neg hlp, hj hd.1 hd.2 hb, compiled_name hb hn]
    simp [bundlePath, joinWith]

/-- The place of a resource is inside of the directory of the resources, whatever it is called. -/
theorem resource_inside {dest res out : Str} (hd : dest ≠ [] ∧ ¬ c!"/" <:+ dest)
    (h : resourceOutput dest res = some out) : ∃ rest, out = dest ++ '/' :: rest := by
  have hcut : ∀ {o e : Str}, (∃ rest, o = dest ++ '/' :: rest) →
      ∃ rest, (splitext o).1 ++ e = dest ++ '/' :: rest := by
    rintro o e ⟨rest, ho⟩
    obtain ⟨ext, h₁, h₂⟩ := splitext_root o
    have hpre : (dest ++ ['/']) <+: (splitext o).1 ++ ext := by
      rw [← h₁, ho]; exact ⟨rest, by simp⟩
    rcases List.prefix_or_prefix_of_prefix hpre (List.prefix_append (splitext o).1 ext) with g | ⟨z, g⟩
    · obtain ⟨y, hy⟩ := g
      exact ⟨y ++ e, by rw [← hy]; simp⟩
    · cases hz : z with
      | nil => rw [hz, List.append_nil] at g; exact ⟨e, by rw [g]; simp⟩
      | cons a l =>
        exfalso
        have hlast : '/' ∈ z := by
          have := congrArg List.getLast? g
          rw [List.getLast?_append, List.getLast?_append] at this
          rw [hz] at this ⊢
          rw [List.getLast?_cons] at this
          simp only [List.getLast?_singleton, Option.some_or, Option.some.injEq] at this
          rw [← this]
          cases l with
          | nil => simp
          | cons b l => simp [List.getLast?_eq_some_getLast]
        obtain ⟨y, hy⟩ := hpre
        rw [← g, List.append_assoc, List.append_cancel_left_eq] at hy
        exact h₂ (by rw [← hy]; exact List.mem_append_left _ hlast)
  have hrel : ∀ {b : Str}, '/' ∉ b → isAbs b = false := by
    intro b hb
    rw [isAbs_false_iff]
    cases b with
    | nil => simp
    | cons x xs =>
      simp only [List.head?_cons, ne_eq, Option.some.injEq]
      intro e
      exact hb (by rw [e]; simp)
  have hj : ∀ {b : Str}, '/' ∉ b → pathJoin dest b = dest ++ '/' :: b := by
    intro b hb
    unfold pathJoin
    rw [hrel hb, if_neg (by simp), if_neg]
    rintro (h | h)
    · exact hd.1 h
    · exact hd.2 (mbEndsWith_iff.1 h)
  have hfirst : ∃ rest, pathJoin
      (if endsWith (basename (dirname res)) c!".lproj" then pathJoin dest (basename (dirname res)) else dest)
      (basename res) = dest ++ '/' :: rest := by
    split
    · rw [hj (basename_noSep _)]
      unfold pathJoin
      rw [hrel (basename_noSep res), if_neg (by simp)]
      split
      · exact ⟨_, by simp; rfl⟩
      · exact ⟨_, by simp; rfl⟩
    · exact ⟨_, hj (basename_noSep _)⟩
  unfold resourceOutput at h
  split at h
  · cases h
  · dsimp only at h
    obtain rfl := Option.some.inj h
    have h₂ : ∀ {o : Str}, (∃ rest, o = dest ++ '/' :: rest) → ∃ rest,
        (if endsWith o c!".storyboard" then (splitext o).1 ++ c!".storyboardc" else o) = dest ++ '/' :: rest := by
      intro o ho
      split
      · exact hcut ho
      · exact ho
    apply h₂
    revert hfirst
    generalize pathJoin _ (basename res) = o
    intro hfirst
    split
    · exact hcut hfirst
    · exact hfirst

theorem bundlePath_snoc {cs : List Str} (hne : cs ≠ []) (b : Str) : bundlePath (cs ++ [b]) = bundlePath cs ++ '/' :: b := by
  induction cs with
  | nil => exact absurd rfl hne
  | cons c cs ih =>
    cases cs with
    | nil => simp [bundlePath, joinWith]
    | cons d ds =>
      have := ih (by simp)
      simp only [bundlePath, joinWith, List.cons_append] at this ⊢
      simp [this]

theorem pathJoin_pre (pd : Str) : ∃ pre, ∀ x, isAbs x = false → pathJoin pd x = pre ++ x := by
  by_cases h : pd = [] ∨ endsWith pd ['/'] = true
  · exact ⟨pd, fun x hx => by unfold pathJoin; rw [hx, if_neg (by simp), if_pos h]⟩
  · exact ⟨pd ++ ['/'], fun x hx => by unfold pathJoin; rw [hx, if_neg (by simp), if_neg h]; simp⟩

theorem isAbs_bundlePath {w : Str} (hw : FileName w) (rest : List Str) : isAbs (bundlePath (w :: rest)) = false := by
  rw [isAbs_false_iff]
  obtain ⟨h₁, h₂⟩ := hw
  cases w with
  | nil => exact absurd rfl h₁
  | cons x xs =>
    have : (bundlePath ((x :: xs) :: rest)).head? = some x := by
      cases rest <;> simp [bundlePath, joinWith]
    rw [this]
    intro e
    exact h₂ (by rw [← Option.some.inj e]; simp)

/-- **C113.**  Each resource has its place, in the order of the target. -/
theorem C113_resources {pd folder : Str} {s : BundleSpec} {rs : List Str} {l : List (Str × Str)}
    (hf : s.resources = some folder) (h : bundleResources pd s rs = some l) :
    l.map Prod.snd = rs ∧ ∀ o r, (o, r) ∈ l → resourceOutput (pathJoin pd folder) r = some o := by
  unfold bundleResources at h
  rw [hf] at h
  dsimp only at h
  induction rs generalizing l with
  | nil => simp at h; subst h; simp
  | cons r rs ih =>
    rw [List.mapM_cons] at h
    obtain ⟨a, ha, h⟩ := Option.bind_eq_some_iff.1 h
    obtain ⟨l', hl, h⟩ := Option.bind_eq_some_iff.1 h
    obtain rfl := Option.some.inj h
    obtain ⟨o, ho, rfl⟩ := Option.map_eq_some_iff.1 ha
    obtain ⟨h₁, h₂⟩ := ih hl
    refine ⟨by simp [h₁], ?_⟩
    intro o' r' hm
    rcases List.mem_cons.1 hm with e | hm
    · obtain ⟨rfl, rfl⟩ := Prod.mk.inj e; exact ho
    · exact h₂ o' r' hm

/-- **C113.**  On macOS no resource takes the place of the program of the bundle and, but for a framework,
none takes that of its `Info.plist`. -/
theorem C113_apart {s : BundleSpec} {k : BundleKind} {w pd folder res out exe plist : Str}
    (hk : s.type = k.type) (hw : s.wrapper = some w) (hwn : FileName w)
    (hv : FileName (s.frameworkVersion.getD c!"A")) (hp : '/' ∉ s.productName.getD s.targetName)
    (hios : s.ios = false) (hf : s.resources = some folder)
    (hr : resourceOutput (pathJoin pd folder) res = some out)
    (he : s.executable = some exe) (hpl : s.plist = some plist) :
    out ≠ pathJoin pd exe ∧ (k ≠ .framework → out ≠ pathJoin pd plist) := by
  obtain ⟨pre, hpre⟩ := pathJoin_pre pd
  have hlay := C113_layout hk hw hwn hv
  dsimp only at hlay
  have hroot : w :: bundleRoot s.ios k (s.frameworkVersion.getD c!"A") ≠ [] := by simp
  generalize hR : bundlePath (w :: bundleRoot s.ios k (s.frameworkVersion.getD c!"A")) = R at hlay
  have hfold : folder = R ++ '/' :: c!"Resources" := by
    have := hlay.2.1
    rw [hf, Option.some.injEq] at this
    rw [this, bundleResourcesAt, hios, if_neg (by simp), ← List.cons_append, bundlePath_snoc (by simp), ← hR, hios]
  have hfabs : isAbs folder = false := by
    have := hlay.2.1
    rw [hf, Option.some.injEq] at this
    rw [this]; exact isAbs_bundlePath hwn _
  have hprog := C113_program hk hw hwn hv hp
  rw [he, Option.some.injEq] at hprog
  have hd : pathJoin pd folder ≠ [] ∧ ¬ c!"/" <:+ pathJoin pd folder := by
    rw [hpre _ hfabs, hfold]
    refine ⟨by simp, ?_⟩
    intro hc
    rcases List.suffix_or_suffix_of_suffix hc (show c!"Resources" <:+ _ from
      (List.suffix_cons '/' _).trans ((List.suffix_append R _).trans (List.suffix_append pre _))) with h | h
    · exact absurd h (by decide)
    · exact absurd h (by decide)
  obtain ⟨rest, hout⟩ := resource_inside hd hr
  rw [hpre _ hfabs, hfold] at hout
  constructor
  · rw [hprog, hpre _ (by rw [List.cons_append]; exact isAbs_bundlePath hwn _), hout]
    unfold bundleProgramsAt
    rw [hios]
    by_cases hkf : k = .framework
    · rw [if_pos (.inr hkf), List.append_nil, bundlePath_snoc (by simp), ← hios, hR]
      intro e
      simp only [List.append_assoc, List.append_cancel_left_eq, List.cons_append, List.cons.injEq,
        true_and] at e
      exact hp (by rw [← e]; simp)
    · rw [if_neg (by simp [hkf]), bundlePath_snoc (by simp), ← List.cons_append, bundlePath_snoc (by simp), ← hios, hR]
      intro e
      simp only [List.append_assoc, List.append_cancel_left_eq, List.cons_append, List.cons.injEq,
        true_and] at e
      exact absurd e.1 (by decide)
  · intro hkf
    have := hlay.2.2.2.1
    rw [hpl, Option.some.injEq] at this
    rw [this, hpre _ (by rw [List.cons_append]; exact isAbs_bundlePath hwn _), hout]
    unfold bundlePlistAt
    rw [if_neg hkf, bundlePath_snoc (by simp), hR]
    intro e
    simp only [List.append_assoc, List.append_cancel_left_eq, List.cons_append, List.cons.injEq,
      true_and] at e
    exact absurd e.1 (by decide)

/-- **C113.**  Two resources share a place just when they come from directories of the same language (or
both from none), and have the same name in a bundle. -/
theorem C113_same {dest res₁ res₂ n₁ n₂ : Str} (hd : dest ≠ [] ∧ ¬ c!"/" <:+ dest) (h₁ : ' ' ∉ res₁)
    (h₂ : ' ' ∉ res₂) (hn₁ : ResourceName (basename res₁) n₁) (hn₂ : ResourceName (basename res₂) n₂) :
    resourceOutput dest res₁ = resourceOutput dest res₂ ↔
      (if c!".lproj" <:+ basename (dirname res₁) then some (basename (dirname res₁)) else none) =
        (if c!".lproj" <:+ basename (dirname res₂) then some (basename (dirname res₂)) else none) ∧
      n₁ = n₂ := by
  have hsl : ∀ {r n : Str}, ResourceName (basename r) n → '/' ∉ n := by
    intro r n h hm
    have hb := basename_noSep r
    rcases h with ⟨stem, _, e₁, e₂⟩ | ⟨stem, _, e₁, e₂⟩ | ⟨_, _, e⟩
    · rw [e₂, List.mem_append] at hm
      rcases hm with hm | hm
      · exact hb (by rw [e₁]; exact List.mem_append_left _ hm)
      · exact absurd hm (by decide)
    · rw [e₂, List.mem_append] at hm
      rcases hm with hm | hm
      · exact hb (by rw [e₁]; exact List.mem_append_left _ hm)
      · exact absurd hm (by decide)
    · exact hb (by rw [← e]; exact hm)
  have s₁ := hsl hn₁
  have s₂ := hsl hn₂
  have l₁ := basename_noSep (dirname res₁)
  have l₂ := basename_noSep (dirname res₂)
  rw [C113_resource hd h₁ hn₁, C113_resource hd h₂ hn₂, Option.some.injEq]
  have hsplit : ∀ {a b c d : Str}, '/' ∉ a → '/' ∉ c → a ++ '/' :: b = c ++ '/' :: d → a = c ∧ b = d := by
    intro a b c d ha hc e
    have := congrArg (split1 '/') e
    rw [split1_append ha, split1_append hc, Option.some.injEq, Prod.mk.injEq] at this
    exact this
  constructor
  · intro e
    split at e <;> split at e <;> simp only [bundlePath, joinWith, List.cons_append, List.nil_append,
      List.append_assoc, List.append_cancel_left_eq, List.cons.injEq, true_and] at e
    · rename_i g₁ g₂
      obtain ⟨e₁, e₂⟩ := hsplit l₁ l₂ e
      rw [if_pos g₁, if_pos g₂, e₁]
      exact ⟨rfl, e₂⟩
    · exact absurd (by rw [← e]; simp) s₂
    · exact absurd (by rw [e]; simp) s₁
    · rename_i g₁ g₂
      rw [if_neg g₁, if_neg g₂]
      exact ⟨rfl, e⟩
  · rintro ⟨e, rfl⟩
    split at e <;> split at e
    · rename_i g₁ g₂
      rw [if_pos g₁, if_pos g₂, Option.some.inj e]
    · cases e
    · cases e
    · rename_i g₁ g₂
      rw [if_neg g₁, if_neg g₂]

/-! ### It can be met -/

/-- An application with a name of its own. -/
def sampleApp : BundleSpec :=
  { type := c!"executable", targetName := c!"browser", productName := some c!"Browser", macBundle := true }

example : sampleApp.wrapper = some c!"Browser.app" ∧ FileName c!"Browser.app" ∧
    sampleApp.executable = some c!"Browser.app/Contents/MacOS/Browser" ∧
    bundleResources c!"out" sampleApp [c!"res/en.lproj/Main.xib", c!"res/icon.icns"] =
      some [(c!"out/Browser.app/Contents" ++ c!"/Resources/en.lproj/Main.nib", c!"res/en.lproj/Main.xib"),
        (c!"out/Browser.app/Contents" ++ c!"/Resources/icon.icns", c!"res/icon.icns")] := by
  refine ⟨by decide +kernel, ⟨by decide, by decide⟩, by decide +kernel, by decide +kernel⟩

example : ResourceName (basename c!"res/en.lproj/Main.xib") c!"Main.nib" :=
  .inl ⟨c!"Main", ⟨'M', by decide, by decide⟩, by decide, by decide⟩

/-- A framework. -/
def sampleFramework : BundleSpec :=
  { type := c!"shared_library", targetName := c!"Kit", macBundle := true }

example : sampleFramework.plist = some (c!"Kit.framework/Versions/A/" ++ c!"Resources/Info.plist") ∧
    sampleFramework.executable = some c!"Kit.framework/Versions/A/Kit" := by
  constructor <;> decide +kernel

/-- **C113.**  On iOS a resource can take the place of the program, and in a framework on macOS one can
take that of its `Info.plist`. -/
theorem C113_taken :
    (bundleResources c!"out" { sampleApp with ios := true } [c!"res/Browser"]).map (fun l => l.map Prod.fst) =
      ({ sampleApp with ios := true } : BundleSpec).executable.map (fun e => [pathJoin c!"out" e]) ∧
    (bundleResources c!"out" sampleFramework [c!"res/Info.plist"]).map (fun l => l.map Prod.fst) =
      sampleFramework.plist.map (fun e => [pathJoin c!"out" e]) := by
  constructor <;> decide +kernel

end Gyp
