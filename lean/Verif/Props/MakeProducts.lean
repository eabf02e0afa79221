import Verif.Props.MakeBuild
/-
C73: which targets have the same product.
-/
namespace Gyp
open Spec

/-- A target without settings for the name of its product. -/
structure DefaultProduct (m : MkSelf) : Prop where
  type : m.spec.type ∈ [c!"executable", c!"static_library", c!"shared_library", c!"loadable_module", c!"none"]
  dir : m.spec.productDir = none
  pre : m.spec.productPrefix = none
  name : m.spec.productName = none
  ext : m.spec.productExtension = []
  plain : '/' ∉ m.spec.targetName ++ m.spec.toolset ∧ '$' ∉ m.spec.targetName ++ m.spec.toolset ++ m.path
  path : isAbs m.path = false ∧ endsWith m.path c!"/" = false

theorem dropLib_cases (n : Str) : n = dropLib n ∨ n = c!"lib" ++ dropLib n := by
  unfold dropLib
  split
  · rename_i h
    obtain ⟨rest, rfl⟩ := List.isPrefixOf_iff_prefix.mp h
    exact Or.inr rfl
  · exact Or.inl rfl

theorem mem_dropLib {c : Char} {n : Str} (h : c ∈ dropLib n) : c ∈ n := by
  rcases dropLib_cases n with e | e
  · rwa [← e] at h
  · rw [e]; exact List.mem_append_right _ h

/-- The last part of the name of the product. -/
theorem product_base {m : MkSelf} (h : DefaultProduct m) :
    (m.spec.type = c!"executable" ∧ ComputeOutputBasename m = m.spec.targetName) ∨
    (m.spec.type = c!"none" ∧ ComputeOutputBasename m = m.spec.targetName ++ c!".stamp") ∨
    (m.spec.type ∉ [c!"executable", c!"none"] ∧ ∃ ext ∈ [c!".a", c!".x", c!".so"],
      ComputeOutputBasename m = c!"lib" ++ dropLib m.spec.targetName ++ ext) := by
  have ht := h.type
  unfold ComputeOutputBasename
  dsimp only
  rw [h.pre, h.name, h.ext]
  simp only [List.mem_cons, List.not_mem_nil, or_false] at ht
  rcases ht with e | e | e | e | e <;> simp only [e]
  · left; simp
  · right; right; simp
  · right; right
    refine ⟨by simp, ?_⟩
    by_cases h1 : m.flavor = c!"aix"
    · simp [h1]
    · by_cases h2 : m.flavor = c!"zos"
      · simp [h2]
      · simp [h1, h2]
  · right; right
    refine ⟨by simp, ?_⟩
    by_cases h1 : m.flavor = c!"aix"
    · simp [h1]
    · by_cases h2 : m.flavor = c!"zos"
      · simp [h2]
      · simp [h1, h2]
  · right; left; simp

theorem base_noSlash {m : MkSelf} (h : DefaultProduct m) : '/' ∉ ComputeOutputBasename m ∧
    '$' ∉ ComputeOutputBasename m := by
  have hp := h.plain
  simp only [List.mem_append, not_or] at hp
  rcases product_base h with ⟨-, e⟩ | ⟨-, e⟩ | ⟨-, ext, hext, e⟩
  · rw [e]; exact ⟨hp.1.1, hp.2.1.1⟩
  · rw [e]
    simp only [List.mem_append, not_or]
    exact ⟨⟨hp.1.1, by decide⟩, hp.2.1.1, by decide⟩
  · rw [e]
    simp only [List.mem_append, not_or]
    have hx : '/' ∉ ext ∧ '$' ∉ ext := by
      simp only [List.mem_cons, List.not_mem_nil, or_false] at hext
      rcases hext with rfl | rfl | rfl <;> decide
    exact ⟨⟨⟨by decide, fun hc => hp.1.1 (mem_dropLib hc)⟩, hx.1⟩,
      ⟨by decide, fun hc => hp.2.1.1 (mem_dropLib hc)⟩, hx.2⟩

theorem join_rel {a b : Str} (hb : isAbs b = false) (ha : a ≠ []) (he : endsWith a c!"/" = false) :
    pathJoin a b = a ++ c!"/" ++ b := by
  unfold pathJoin
  rw [if_neg (by simp [hb]), if_neg]
  · simp
  · rintro (h | h)
    · exact ha h
    · rw [he] at h; cases h

theorem abs_noSlash {b : Str} (h : '/' ∉ b) : isAbs b = false := by
  cases b with
  | nil => rfl
  | cons x b =>
    simp only [List.mem_cons, not_or] at h
    have hx : ('/' == x) = false := by simpa using h.1
    show (['/'] : Str).isPrefixOf (x :: b) = false
    rw [List.isPrefixOf_cons₂, hx, Bool.false_and]

theorem ends_slash {a : Str} {c : Char} (hc : c ≠ '/') : endsWith (a ++ [c]) c!"/" = false := by
  rw [Bool.eq_false_iff]
  intro h
  obtain ⟨pre, hpre⟩ := List.isSuffixOf_iff_suffix.mp h
  have := List.append_inj_right' hpre rfl
  exact hc (List.cons.inj this).1.symm

theorem ends_noSlash {a b : Str} (hb : '/' ∉ b) (hne : a ++ b ≠ []) (ha : b = [] → endsWith a c!"/" = false) :
    endsWith (a ++ b) c!"/" = false := by
  rcases List.eq_nil_or_concat b with e | ⟨b', c, e⟩
  · rw [e, List.append_nil]; exact ha e
  · subst e
    rw [List.concat_eq_append, ← List.append_assoc]
    refine ends_slash fun hc => hb ?_
    simp [hc]

/-- The name of the product. -/
theorem product_text {m : MkSelf} (h : DefaultProduct m) :
    (m.spec.type = c!"executable" ∧ ComputeOutput m = c!"$(builddir)/" ++ ComputeOutputBasename m) ∨
    (m.spec.type ≠ c!"executable" ∧ ComputeOutput m = c!"$(obj)." ++ m.spec.toolset ++ c!"/" ++
      (if m.path = [] then [] else m.path ++ c!"/") ++ ComputeOutputBasename m) := by
  have hb := abs_noSlash (base_noSlash h).1
  have hp := h.plain
  simp only [List.mem_append, not_or] at hp
  unfold ComputeOutput
  dsimp only
  rw [h.dir]
  by_cases ht : m.spec.type = c!"executable"
  · left
    refine ⟨ht, ?_⟩
    rw [if_pos ht]
    show pathJoin c!"$(builddir)" _ = _
    rw [join_rel hb (by simp) (by decide)]
    simp
  · right
    refine ⟨ht, ?_⟩
    rw [if_neg ht]
    show pathJoin (pathJoin (c!"$(obj)." ++ m.spec.toolset) m.path) _ = _
    have hends : endsWith (c!"$(obj)." ++ m.spec.toolset) c!"/" = false :=
      ends_noSlash hp.1.2 (by simp) fun _ => by decide
    rw [join_rel h.path.1 (by simp) hends]
    by_cases he : m.path = []
    · rw [if_pos he, he]
      have hs : endsWith (c!"$(obj)." ++ m.spec.toolset ++ c!"/" ++ []) c!"/" = true :=
        List.isSuffixOf_iff_suffix.mpr ⟨_, (List.append_nil _).symm⟩
      unfold pathJoin
      rw [if_neg (by simp [hb]), if_pos (Or.inr hs)]
    · rw [if_neg he, join_rel hb (by simp)]
      · simp
      · obtain ⟨p', c, hc⟩ := (List.eq_nil_or_concat m.path).resolve_left he
        rw [List.concat_eq_append] at hc
        rw [hc, ← List.append_assoc]
        refine ends_slash fun e => ?_
        have := h.path.2
        rw [hc, e] at this
        rw [show endsWith (p' ++ ['/']) c!"/" = true from List.isSuffixOf_iff_suffix.mpr ⟨p', rfl⟩] at this
        cases this

theorem slash_cut {a b x y : Str} (ha : '/' ∉ a) (hb : '/' ∉ b) (he : a ++ '/' :: x = b ++ '/' :: y) :
    a = b ∧ x = y := by
  induction a generalizing b with
  | nil =>
    cases b with
    | nil => simpa using he
    | cons c b =>
      simp only [List.nil_append, List.cons_append, List.cons.injEq] at he
      exact absurd (by simp [← he.1]) hb
  | cons c a ih =>
    cases b with
    | nil =>
      simp only [List.nil_append, List.cons_append, List.cons.injEq] at he
      exact absurd (by simp [he.1]) ha
    | cons d b =>
      simp only [List.cons_append, List.cons.injEq] at he
      simp only [List.mem_cons, not_or] at ha hb
      obtain ⟨rfl, h2⟩ := ih ha.2 hb.2 he.2
      exact ⟨by rw [he.1], h2⟩

theorem dir_cut {p₁ p₂ b₁ b₂ : Str} (h₁ : '/' ∉ b₁) (h₂ : '/' ∉ b₂)
    (he : (if p₁ = [] then [] else p₁ ++ c!"/") ++ b₁ = (if p₂ = [] then [] else p₂ ++ c!"/") ++ b₂) :
    p₁ = p₂ ∧ b₁ = b₂ := by
  by_cases e₁ : p₁ = [] <;> by_cases e₂ : p₂ = []
  · rw [if_pos e₁, if_pos e₂] at he
    exact ⟨by rw [e₁, e₂], he⟩
  · rw [if_pos e₁, if_neg e₂] at he
    exact absurd (by rw [show b₁ = _ from he]; simp) h₁
  · rw [if_neg e₁, if_pos e₂] at he
    exact absurd (by rw [show b₂ = _ from he.symm]; simp) h₂
  · rw [if_neg e₁, if_neg e₂] at he
    have h : rsplit1 '/' (p₁ ++ '/' :: b₁) = some (p₁, b₁) := rsplit1_append h₁
    rw [show p₁ ++ '/' :: b₁ = p₂ ++ '/' :: b₂ by simpa using he, rsplit1_append h₂] at h
    simp only [Option.some.injEq, Prod.mk.injEq] at h
    exact ⟨h.1.symm, h.2.symm⟩

theorem last_same {a b x y : Str} (hx : x ≠ []) (hy : y ≠ []) (h : a ++ x = b ++ y) :
    x.getLast? = y.getLast? := by
  have := congrArg List.getLast? h
  rwa [List.getLast?_append_of_ne_nil _ hx, List.getLast?_append_of_ne_nil _ hy] at this

/-- C73: targets of one build have the same product only if they are executables of the same name,
or targets of the same directory and toolset whose names are the same up to a `lib` in front. -/
theorem C73_products (m₁ m₂ : MkSelf) (h₁ : DefaultProduct m₁) (h₂ : DefaultProduct m₂)
    (h : productFile m₁ = productFile m₂) :
    (m₁.spec.type = c!"executable" ∧ m₂.spec.type = c!"executable" ∧
      m₁.spec.targetName = m₂.spec.targetName) ∨
    (m₁.spec.type ≠ c!"executable" ∧ m₂.spec.type ≠ c!"executable" ∧
      m₁.spec.toolset = m₂.spec.toolset ∧ m₁.path = m₂.path ∧
      (m₁.spec.targetName = m₂.spec.targetName ∨ m₁.spec.targetName = c!"lib" ++ m₂.spec.targetName ∨
        m₂.spec.targetName = c!"lib" ++ m₁.spec.targetName)) := by
  have plain : ∀ m, DefaultProduct m → productFile m = ComputeOutput m := by
    intro m h
    have hb := (base_noSlash h).2
    have hp := h.plain.2
    simp only [List.mem_append, not_or] at hp
    refine expand_stable _ (own_header _) ?_
    rcases product_text h with ⟨-, e⟩ | ⟨-, e⟩
    · rw [e]
      exact .ref (n := c!"builddir") (s := c!"/" ++ ComputeOutputBasename m) (by decide) (by decide)
        (.plain (by simp [hb]))
    · rw [e]
      have hd : '$' ∉ (if m.path = [] then [] else m.path ++ c!"/") := by
        split
        · simp
        · simp [hp.2]
      have := RefText.ref (R := headerVars) (n := c!"obj") (s := c!"." ++ m.spec.toolset ++ c!"/" ++
        (if m.path = [] then [] else m.path ++ c!"/") ++ ComputeOutputBasename m) (by decide) (by decide)
        (.plain (by simp only [List.mem_append, not_or]; exact ⟨⟨⟨⟨by decide, hp.1.2⟩, by decide⟩, hd⟩, hb⟩))
      simpa using this
  rw [plain _ h₁, plain _ h₂] at h
  rcases product_text h₁ with ⟨t₁, e₁⟩ | ⟨t₁, e₁⟩ <;> rcases product_text h₂ with ⟨t₂, e₂⟩ | ⟨t₂, e₂⟩
  · left
    refine ⟨t₁, t₂, ?_⟩
    rw [e₁, e₂] at h
    have := List.append_cancel_left h
    rcases product_base h₁ with ⟨-, b₁⟩ | ⟨n, -⟩ | ⟨n, -⟩
    · rcases product_base h₂ with ⟨-, b₂⟩ | ⟨n, -⟩ | ⟨n, -⟩
      · rwa [b₁, b₂] at this
      · rw [t₂] at n; exact absurd n (by decide)
      · rw [t₂] at n; exact absurd (by simp) n
    · rw [t₁] at n; exact absurd n (by decide)
    · rw [t₁] at n; exact absurd (by simp) n
  · rw [e₁, e₂] at h
    simp at h
  · rw [e₁, e₂] at h
    simp at h
  · right
    refine ⟨t₁, t₂, ?_⟩
    rw [e₁, e₂] at h
    simp only [List.append_assoc] at h
    have h := List.append_cancel_left h
    have p₁ := h₁.plain.1
    have p₂ := h₂.plain.1
    simp only [List.mem_append, not_or] at p₁ p₂
    obtain ⟨ht, h⟩ := slash_cut p₁.2 p₂.2 h
    obtain ⟨hp, h⟩ := dir_cut (base_noSlash h₁).1 (base_noSlash h₂).1 h
    refine ⟨ht, hp, ?_⟩
    rcases product_base h₁ with ⟨n, -⟩ | ⟨-, b₁⟩ | ⟨-, x₁, hx₁, b₁⟩
    · exact absurd n t₁
    · rcases product_base h₂ with ⟨n, -⟩ | ⟨-, b₂⟩ | ⟨-, x₂, hx₂, b₂⟩
      · exact absurd n t₂
      · rw [b₁, b₂] at h
        exact Or.inl (List.append_cancel_right h)
      · rw [b₁, b₂] at h
        simp only [List.mem_cons, List.not_mem_nil, or_false] at hx₂
        rcases hx₂ with rfl | rfl | rfl <;>
          exact absurd (last_same (by decide) (by decide) h) (by decide)
    · rcases product_base h₂ with ⟨n, -⟩ | ⟨-, b₂⟩ | ⟨-, x₂, hx₂, b₂⟩
      · exact absurd n t₂
      · rw [b₁, b₂] at h
        simp only [List.mem_cons, List.not_mem_nil, or_false] at hx₁
        rcases hx₁ with rfl | rfl | rfl <;>
          exact absurd (last_same (by decide) (by decide) h) (by decide)
      · rw [b₁, b₂] at h
        have hx : x₁ = x₂ := by
          simp only [List.mem_cons, List.not_mem_nil, or_false] at hx₁ hx₂
          rcases hx₁ with rfl | rfl | rfl <;> rcases hx₂ with rfl | rfl | rfl <;>
            first
            | rfl
            | exact absurd (last_same (by decide) (by decide) h) (by decide)
        rw [hx] at h
        have hl := List.append_cancel_left (List.append_cancel_right h)
        rcases dropLib_cases m₁.spec.targetName with d₁ | d₁ <;>
          rcases dropLib_cases m₂.spec.targetName with d₂ | d₂
        · left; rw [d₁, hl, ← d₂]
        · right; right; rw [d₂, ← hl, ← d₁]
        · right; left; rw [d₁, hl, ← d₂]
        · left; rw [d₁, hl, ← d₂]

theorem exampleTarget_default : DefaultProduct exampleTarget :=
  ⟨by decide, rfl, rfl, rfl, rfl, by decide, by decide⟩

theorem exampleUtil_default : DefaultProduct exampleUtil :=
  ⟨by decide, rfl, rfl, rfl, rfl, by decide, by decide⟩

example : productFile exampleTarget ≠ productFile exampleUtil := fun h => by
  rcases C73_products _ _ exampleTarget_default exampleUtil_default h with h | h
  · exact absurd h.2.1 (by decide)
  · exact absurd rfl h.1

/-- C73, what the code does not do: programs for the host and for the target have the same
product, and so have the libraries `x` and `libx` of one directory. -/
theorem C73_same_product :
    (∃ m₁ m₂ : MkSelf, DefaultProduct m₁ ∧ DefaultProduct m₂ ∧ m₁.spec.toolset ≠ m₂.spec.toolset ∧
      productFile m₁ = productFile m₂) ∧
    ∃ m₁ m₂ : MkSelf, DefaultProduct m₁ ∧ DefaultProduct m₂ ∧
      m₁.spec.targetName ≠ m₂.spec.targetName ∧ productFile m₁ = productFile m₂ :=
  ⟨⟨exampleTarget, { exampleTarget with spec := { exampleTarget.spec with toolset := c!"host" } },
    exampleTarget_default, ⟨by decide, rfl, rfl, rfl, rfl, by decide, by decide⟩, by decide, by decide⟩,
   exampleUtil, { exampleUtil with spec := { utilSpec with targetName := c!"libutil" } },
    exampleUtil_default, ⟨by decide, rfl, rfl, rfl, rfl, by decide, by decide⟩, by decide, by decide⟩

end Gyp
