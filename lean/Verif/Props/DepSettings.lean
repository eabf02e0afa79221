import Verif.Proofs.DepQueries
/-
C13, C14, C15: which targets contribute settings to a target.
-/
namespace Gyp
open Spec

/-- C13: the deep dependencies of a target are exactly the targets reachable through one
or more dependency edges, each once and each after its own dependencies. -/
theorem C13_deep_dependencies (targets : Targets) (hn : targets.names.Nodup) (fuel0 : Nat)
    (g : DepGraph) (flat : List Str) (hb : BuildDependencyList targets fuel0 = .ok (g, flat))
    (t : Str) (ht : t ∈ targets.names) (fuel : Nat) (hf : targets.length ≤ fuel) :
    ∃ deep, DeepDependencies g fuel (some t) [] = some deep ∧ deep.Nodup ∧
      (∀ d, d ∈ deep ↔ Relation.TransGen targets.DependsOn t d) ∧
      (∀ a ∈ deep, ∀ b, targets.DependsOn a b → Before deep b a) := by
  have h := build_accepted hn hb
  have hrel : (fun x y => y ∈ targets.edges x) = targets.DependsOn := by
    funext a b; exact propext (Targets.mem_edges hn a b)
  obtain ⟨r, e, h1, -, h3, h4⟩ := deep_post h fuel t ht
    (Nat.lt_of_lt_of_le (h.idx_lt hn ht) hf) [] ⟨by simp, by simp⟩
  refine ⟨r, e, h1.nodup, ?_, fun a ha b hab =>
    h1.order a ha b ((Targets.mem_edges hn a b).mpr hab)⟩
  intro d
  rw [← hrel]
  constructor
  · intro hd
    exact (h3 d hd).resolve_left (by simp)
  · intro hd
    induction hd with
    | single e => exact h4 _ e
    | tail _ e ih => exact (h1.order _ ih _ e).mem_left

example : (BuildDependencyList diamond 20).toOption.bind
    (fun r => DeepDependencies r.1 4 (some c!"app") []) = some [c!"base", c!"a", c!"b"] := by decide

/-! ### C14 -/

theorem foldl_listAdd_eq_unify {α : Type} [DecidableEq α] (l : List α) :
    l.foldl listAdd [] = Unify l := by
  have : ∀ (l seen out : List α), (∀ x, x ∈ seen ↔ x ∈ out) →
      l.foldl listAdd out = (l.foldl (fun (st : List α × List α) e =>
        if e ∈ st.1 then st else (e :: st.1, st.2 ++ [e])) (seen, out)).2 := by
    intro l
    induction l with
    | nil => intro seen out _; rfl
    | cons e l ih =>
      intro seen out hs
      rw [List.foldl_cons, List.foldl_cons]
      by_cases he : e ∈ out
      · rw [listAdd_of_mem he, if_pos ((hs e).mpr he)]
        exact ih seen out hs
      · rw [listAdd_of_notMem he, if_neg (fun h => he ((hs e).mp h))]
        refine ih _ _ fun x => ?_
        rw [List.mem_cons, List.mem_append, List.mem_singleton, hs x]
        tauto
  exact this l [] [] (by simp)

theorem imported_outcome (targets : Targets) (hn : targets.names.Nodup)
    (g : DepGraph) (flat : List Str) (h : Accepted targets g flat)
    (t : Str) (ht : t ∈ targets.names) (fuel : Nat) (hf : targets.length < fuel) :
    (∃ l, DirectAndImportedDependencies targets g fuel t = .ok l ∧ l.Nodup ∧
      (∀ d, d ∈ l ↔ targets.Imported t d) ∧ (∀ d ∈ l, d ∈ targets.names) ∧
      (Unify (targets.edges t)).Sublist l ∧
      (∀ d ∈ l, targets.DependsOn t d ∨ ∃ e, targets.Exports e d ∧ Before l e d)) ∨
    (∃ x, DirectAndImportedDependencies targets g fuel t = .error (.keyError x) ∧
      targets.Imported t x ∧ x ∉ targets.names) := by
  have hd : DirectDependencies g t = Unify (targets.edges t) := by
    rw [direct_eq h.ok ht, foldl_listAdd_eq_unify]
  obtain ⟨u1, u2, -⟩ := C09_unify (targets.edges t)
  unfold DirectAndImportedDependencies
  rw [hd]
  have hinit : IInv (targets.Imported t) targets 0 (Unify (targets.edges t)) :=
    ⟨u1, fun x hx => .direct ((Targets.mem_edges hn t x).mp ((u2 x).mp hx)),
      by intros; omega, by intros; omega, by omega⟩
  rcases importLoop_spec (targets.Imported t) targets hn (fun _ _ a b => .export a b) fuel 0 _ hinit
    hf with ⟨r, r1, r2, r3, r4, r5, r6, r7⟩ | herr
  · left
    refine ⟨r, r1, r2, ?_, fun d hd => (r3 d hd).2, r6, ?_⟩
    · intro d
      refine ⟨fun hd => (r3 d hd).1, fun hd => ?_⟩
      induction hd with
      | direct h => exact r4 _ ((u2 _).mpr ((Targets.mem_edges hn t _).mpr h))
      | «export» _ he ih => exact r5 _ ih _ he
    · intro d hd
      rcases r7 d hd with h1 | h1
      · exact Or.inl ((Targets.mem_edges hn t d).mp ((u2 d).mp h1))
      · exact Or.inr h1
  · exact Or.inr herr

/-- C14: the targets whose direct-dependent settings a target receives are its direct
dependencies and what these re-export, each once.  The direct dependencies keep their
order, and a re-exported target comes after a target exporting it. -/
theorem C14_direct_and_imported (targets : Targets) (hn : targets.names.Nodup) (fuel0 : Nat)
    (g : DepGraph) (flat : List Str) (hb : BuildDependencyList targets fuel0 = .ok (g, flat))
    (t : Str) (ht : t ∈ targets.names) (fuel : Nat) (hf : targets.length < fuel)
    (hk : ∀ d, targets.Imported t d → d ∈ targets.names) :
    ∃ l, DirectAndImportedDependencies targets g fuel t = .ok l ∧ l.Nodup ∧
      (∀ d, d ∈ l ↔ targets.Imported t d) ∧
      (∀ a b, targets.DependsOn t a → targets.DependsOn t b →
        (Unify (targets.edges t)).idxOf a < (Unify (targets.edges t)).idxOf b → Before l a b) ∧
      (∀ d ∈ l, targets.DependsOn t d ∨ ∃ e, targets.Exports e d ∧ Before l e d) := by
  have h := build_accepted hn hb
  rcases imported_outcome targets hn g flat h t ht fuel hf with
    ⟨l, h1, h2, h3, -, h4, h5⟩ | ⟨x, -, h2, h3⟩
  · refine ⟨l, h1, h2, h3, ?_, h5⟩
    intro a b ha hb hlt
    obtain ⟨u1, u2, -⟩ := C09_unify (targets.edges t)
    have hbm : b ∈ Unify (targets.edges t) := (u2 b).mpr ((Targets.mem_edges hn t b).mpr hb)
    have ham : a ∈ Unify (targets.edges t) := (u2 a).mpr ((Targets.mem_edges hn t a).mpr ha)
    refine before_of_sublist (List.Sublist.trans ?_ h4)
    generalize Unify (targets.edges t) = m at ham hbm hlt
    clear h4 u1 u2 h1 h2 h3 h5
    induction m with
    | nil => simp at ham
    | cons y ys ih =>
      by_cases hya : y = a
      · subst hya
        refine List.Sublist.cons_cons _ (List.singleton_sublist.mpr ?_)
        rcases List.mem_cons.mp hbm with rfl | hbm
        · simp at hlt
        · exact hbm
      · by_cases hyb : y = b
        · subst hyb; simp at hlt
        · refine List.Sublist.cons _ (ih ?_ ?_ ?_)
          · exact (List.mem_cons.mp ham).resolve_left (Ne.symm hya)
          · exact (List.mem_cons.mp hbm).resolve_left (Ne.symm hyb)
          · rw [List.idxOf_cons_ne _ hya, List.idxOf_cons_ne _ hyb] at hlt
            omega
  · exact absurd (hk x h2) h3

/-- C14: without any re-export declaration among them, the result is just the direct
dependencies. -/
theorem C14_without_exports (targets : Targets) (hn : targets.names.Nodup) (fuel0 : Nat)
    (g : DepGraph) (flat : List Str) (hb : BuildDependencyList targets fuel0 = .ok (g, flat))
    (t : Str) (ht : t ∈ targets.names) (fuel : Nat) (hf : targets.length < fuel)
    (hno : ∀ d e, targets.DependsOn t d → ¬ targets.Exports d e) :
    DirectAndImportedDependencies targets g fuel t = .ok (Unify (targets.edges t)) := by
  have h := build_accepted hn hb
  have himp : ∀ d, targets.Imported t d → targets.DependsOn t d := by
    intro d hd
    induction hd with
    | direct h => exact h
    | «export» _ he ih => exact absurd he (hno _ _ ih)
  rcases imported_outcome targets hn g flat h t ht fuel hf with
    ⟨l, h1, h2, h3, -, h4, h5⟩ | ⟨x, -, h2, h3⟩
  · rw [h1]
    congr 1
    obtain ⟨u1, u2, -⟩ := C09_unify (targets.edges t)
    refine (h4.eq_of_length_le ?_).symm
    refine nodup_length_le h2 fun x hx => ?_
    exact (u2 x).mpr ((Targets.mem_edges hn t x).mpr (himp x ((h3 x).mp hx)))
  · exact absurd (h.edge_mem ((Targets.mem_edges hn t x).mpr (himp x h2))) h3

/-- C14: a re-export of something that is not a target is an error. -/
theorem C14_unknown_export (targets : Targets) (hn : targets.names.Nodup) (fuel0 : Nat)
    (g : DepGraph) (flat : List Str) (hb : BuildDependencyList targets fuel0 = .ok (g, flat))
    (t : Str) (ht : t ∈ targets.names) (fuel : Nat) (hf : targets.length < fuel)
    (d : Str) (hd : targets.Imported t d) (hdn : d ∉ targets.names) :
    ∃ x, DirectAndImportedDependencies targets g fuel t = .error (.keyError x) ∧
      targets.Imported t x ∧ x ∉ targets.names := by
  have h := build_accepted hn hb
  rcases imported_outcome targets hn g flat h t ht fuel hf with ⟨l, h1, h2, h3, hk, -⟩ | herr
  · exact absurd (hk d ((h3 d).mpr hd)) hdn
  · exact herr

/-- `app` uses `gui`, which passes on the settings of `core`, which passes on `base`;
`log` is not passed on. -/
def exporting : Targets :=
  [(c!"app", { type := c!"executable", dependencies := some [c!"gui", c!"net"] }),
   (c!"gui", { type := c!"static_library", dependencies := some [c!"core", c!"log"],
               exports := [c!"core"] }),
   (c!"core", { type := c!"static_library", dependencies := some [c!"base"],
                exports := [c!"base"] }),
   (c!"base", { type := c!"static_library" }),
   (c!"log", { type := c!"static_library" }),
   (c!"net", { type := c!"shared_library" })]

example : exporting.names.Nodup ∧ (BuildDependencyList exporting 30).toOption.bind
    (fun r => (DirectAndImportedDependencies exporting r.1 7 c!"app").toOption) =
    some [c!"gui", c!"core", c!"base", c!"net"] := by decide

/-! ### C15 -/

theorem link_set (targets : Targets) (hn : targets.names.Nodup) (g : DepGraph) (flat : List Str)
    (h : Accepted targets g flat) (shared : Bool) (t : Str) (s : TSpec) (hs : (t, s) ∈ targets)
    (hl : s.type ∈ linkedProducts) (fuel : Nat) (hf : targets.length < fuel) :
    ∃ l, linkDepsInternal targets g shared fuel true [] (some t) = .ok (t :: l) ∧
      (t :: l).Nodup ∧ ∀ d, d ∈ t :: l ↔ targets.LinkSet shared t d := by
  have ht : t ∈ targets.names := List.mem_map_of_mem (f := Prod.fst) hs
  have hget := (Targets.get?_eq_some hn t s).mpr hs
  obtain ⟨k, rfl⟩ : ∃ k, fuel = k + 1 := ⟨fuel - 1, by omega⟩
  have hnone : ¬ (s.type = c!"none" ∧ (!s.traverse) = true) := by
    rintro ⟨e, -⟩; rw [e] at hl; exact absurd hl (by decide)
  have hstart : KInv targets shared t [t] [t] :=
    ⟨by simp, by intro x hx; rw [List.mem_singleton] at hx; rw [hx]; exact .self, by simp, by simp⟩
  have loop : ∀ (l : List Str) (deps : List Str), (∀ d ∈ l, d ∈ targets.edges t) →
      KInv targets shared t [t] deps →
      ∃ r, (l.map some).foldlM (linkDepsInternal targets g shared k false) deps = .ok r ∧
        KInv targets shared t [t] r ∧ (∀ x ∈ deps, x ∈ r) ∧
        (∀ d ∈ l, targets.Linked shared d → d ∈ r) ∧ (∃ new, r = deps ++ new) := by
    intro l
    induction l with
    | nil => intro deps _ hd; exact ⟨deps, rfl, hd, fun _ hx => hx, by simp, [], by simp⟩
    | cons d l ihl =>
      intro deps hl' hd
      have hdn := hl' d (by simp)
      have hlt := (h.order t d hdn).idxOf h.nodup
      have hlt2 := h.idx_lt hn ht
      obtain ⟨r1, a0, a1, a2, a3, new1, a4⟩ := linkDeps_sub hn h t k d (h.edge_mem hdn)
        (by omega) [t] deps hd ⟨t, .self, Or.inl rfl, (Targets.mem_edges hn t d).mp hdn⟩
      obtain ⟨r2, b0, b1, b2, b3, new2, b4⟩ := ihl r1 (fun x hx => hl' x (by simp [hx])) a1
      refine ⟨r2, ?_, b1, fun x hx => b2 x (a2 x hx), ?_, new1 ++ new2, by rw [b4, a4]; simp⟩
      · rw [List.map_cons, List.foldlM_cons, a0]
        exact b0
      · intro x hx hxl
        rcases List.mem_cons.mp hx with rfl | hx
        · exact b2 _ (a3 hxl)
        · exact b3 x hx hxl
  have hfold : ∃ r, (g.dependencies (some t)).foldlM
      (linkDepsInternal targets g shared k false) [t] = .ok r ∧
      KInv targets shared t [t] r ∧ (∀ d ∈ targets.edges t, targets.Linked shared d → d ∈ r) ∧
      (∃ new, r = [t] ++ new) := by
    rw [h.ok.deps t ht]
    by_cases he : targets.edges t = []
    · rw [if_pos he]
      refine ⟨[t], ?_, hstart, by simp [he], [], by simp⟩
      cases k <;> simp [linkDepsInternal, pure, Except.pure, bind, Except.bind]
    · rw [if_neg he]
      obtain ⟨r, r0, r1, -, r3, r4⟩ := loop _ [t] (fun _ hx => hx) hstart
      exact ⟨r, r0, r1, r3, r4⟩
  obtain ⟨r, r0, r1, r2, l, rfl⟩ := hfold
  refine ⟨l, ?_, r1.nodup, ?_⟩
  · unfold linkDepsInternal
    have hl : s.type ∈ linkableTypes := hl
    simp only [hget, hl, decide_true, Bool.not_true, Bool.and_false, Bool.false_eq_true, if_false,
      if_neg hnone, false_and, Bool.or_false, List.not_mem_nil, if_true]
    exact r0
  · intro d
    refine ⟨r1.sound d, fun hd => ?_⟩
    induction hd with
    | self => simp
    | @dep a b _ hth hdep hb iha =>
      rcases r1.closed a iha with h1 | h1
      · rw [List.mem_singleton] at h1
        subst h1
        exact r2 b ((Targets.mem_edges hn a b).mpr hdep) hb
      · exact h1 hth b hdep hb

/-- C15: the targets linked into a linkable target are itself and exactly those that can
be linked and are reached through dependencies that are not linked products themselves;
each once. -/
theorem C15_link_against (targets : Targets) (hn : targets.names.Nodup) (fuel0 : Nat)
    (g : DepGraph) (flat : List Str) (hb : BuildDependencyList targets fuel0 = .ok (g, flat))
    (t : Str) (s : TSpec) (hs : (t, s) ∈ targets) (hl : s.type ∈ linkedProducts)
    (fuel : Nat) (hf : targets.length < fuel) :
    ∃ l, DependenciesToLinkAgainst targets g fuel t = .ok (t :: l) ∧ (t :: l).Nodup ∧
      (∀ d, d ∈ t :: l ↔ targets.LinkSet true t d) :=
  link_set targets hn g flat (build_accepted hn hb) true t s hs hl fuel hf

/-- C15: the same for the propagation of link settings, where shared libraries count
only if the target did not forbid it. -/
theorem C15_link_settings (targets : Targets) (hn : targets.names.Nodup) (fuel0 : Nat)
    (g : DepGraph) (flat : List Str) (hb : BuildDependencyList targets fuel0 = .ok (g, flat))
    (t : Str) (s : TSpec) (hs : (t, s) ∈ targets) (hl : s.type ∈ linkedProducts)
    (fuel : Nat) (hf : targets.length < fuel) :
    ∃ l, DependenciesForLinkSettings targets g fuel t = .ok (t :: l) ∧ (t :: l).Nodup ∧
      (∀ d, d ∈ t :: l ↔ targets.LinkSet s.propagate t d) := by
  obtain ⟨l, h1, h2, h3⟩ :=
    link_set targets hn g flat (build_accepted hn hb) s.propagate t s hs hl fuel hf
  refine ⟨l, ?_, h2, h3⟩
  unfold DependenciesForLinkSettings
  rw [(Targets.get?_eq_some hn t s).mpr hs]
  exact h1

/-- C15: a target that is not linked has no link dependencies. -/
theorem C15_not_linkable (targets : Targets) (hn : targets.names.Nodup) (g : DepGraph)
    (t : Str) (s : TSpec) (hs : (t, s) ∈ targets) (hl : s.type ∉ linkedProducts)
    (fuel : Nat) (hf : 0 < fuel) :
    DependenciesToLinkAgainst targets g fuel t = .ok [] ∧
    DependenciesForLinkSettings targets g fuel t = .ok [] := by
  have hl : s.type ∉ linkableTypes := hl
  obtain ⟨k, rfl⟩ : ∃ k, fuel = k + 1 := ⟨fuel - 1, by omega⟩
  have hget := (Targets.get?_eq_some hn t s).mpr hs
  constructor
  · unfold DependenciesToLinkAgainst linkDepsInternal
    simp [hget, hl]
  · unfold DependenciesForLinkSettings
    rw [hget]
    simp only
    unfold linkDepsInternal
    simp [hget, hl]

/-- C15: executables, loadable modules, kernel extensions and drivers are never linked
into anything else. -/
theorem C15_final_products (targets : Targets) (hn : targets.names.Nodup) (fuel0 : Nat)
    (g : DepGraph) (flat : List Str) (hb : BuildDependencyList targets fuel0 = .ok (g, flat))
    (t : Str) (s : TSpec) (hs : (t, s) ∈ targets) (hl : s.type ∈ linkedProducts)
    (fuel : Nat) (hf : targets.length < fuel) (l : List Str)
    (h : DependenciesToLinkAgainst targets g fuel t = .ok l) :
    ∀ d sd, d ∈ l → d ≠ t → (d, sd) ∈ targets →
      sd.type ∉ [c!"executable", c!"loadable_module", c!"mac_kernel_extension",
        c!"windows_driver"] := by
  obtain ⟨l', h1, -, h3⟩ := C15_link_against targets hn fuel0 g flat hb t s hs hl fuel hf
  rw [h] at h1
  obtain rfl := Except.ok.inj h1
  intro d sd hd hne hsd
  cases (h3 d).mp hd with
  | self => exact absurd rfl hne
  | dep _ _ _ hb =>
    obtain ⟨s', hs', h4, -⟩ := hb
    have e1 := (Targets.get?_eq_some hn d s').mpr hs'
    have e2 := (Targets.get?_eq_some hn d sd).mpr hsd
    rw [e1] at e2
    obtain rfl := Option.some.inj e2
    exact h4

/-- An executable over static and shared libraries, a tool and two `none` targets. -/
def linking : Targets :=
  [(c!"app", { type := c!"executable", dependencies := some [c!"a", c!"tool", c!"grp", c!"stop"] }),
   (c!"a", { type := c!"static_library", dependencies := some [c!"b", c!"so"] }),
   (c!"b", { type := c!"static_library" }),
   (c!"so", { type := c!"shared_library", dependencies := some [c!"inner"] }),
   (c!"inner", { type := c!"static_library" }),
   (c!"tool", { type := c!"executable", dependencies := some [c!"inner"] }),
   (c!"grp", { type := c!"none", dependencies := some [c!"c"] }),
   (c!"c", { type := c!"static_library" }),
   (c!"stop", { type := c!"none", dependencies := some [c!"d"], traverse := false }),
   (c!"d", { type := c!"static_library" })]

example : linking.names.Nodup ∧ (BuildDependencyList linking 40).toOption.bind
    (fun r => (DependenciesToLinkAgainst linking r.1 11 c!"app").toOption) =
    some [c!"app", c!"a", c!"b", c!"so", c!"grp", c!"c", c!"stop"] := by decide

end Gyp
