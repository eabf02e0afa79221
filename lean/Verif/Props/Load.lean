import Verif.Model.Load
import Verif.Props.DepSettings
import Verif.Spec.Targets
/-
C27 (included files), C35 (pruning to requested targets).
-/
namespace Gyp
open Spec

/-! ### C27 -/

/-- The include lists, absent entries read as empty. -/
def includeEdges (aux : Str → Option (List Str)) (f : Str) : List Str := (aux f).getD []

structure GInv (aux : Str → Option (List Str)) (stack l : List Str) : Prop where
  nodup : l.Nodup
  known : ∀ x ∈ l, (aux x).isSome
  closed : ∀ x ∈ l, x ∈ stack ∨ ∀ y ∈ includeEdges aux x, y ∈ l

theorem included_post (aux : Str → Option (List Str)) (U : List Str)
    (hU : Closed (includeEdges aux) U) (fuel : Nat) (l stack : List Str) (f : Str)
    (h : GInv aux stack l) (hl : ∀ x ∈ l, x ∈ U) (hf : f ∈ U)
    (hfuel : U.length < fuel + l.length) :
    (∃ new, GetIncludedBuildFiles aux fuel l f = .ok (l ++ new) ∧ GInv aux stack (l ++ new) ∧
      f ∈ l ++ new ∧ (∀ x ∈ new, Reach (includeEdges aux) f x ∧ x ∈ U) ∧
      (f ∉ l → new.head? = some f)) ∨
    (∃ x, GetIncludedBuildFiles aux fuel l f = .error (.keyError x) ∧
      Reach (includeEdges aux) f x ∧ aux x = none) := by
  induction fuel generalizing l stack f with
  | zero =>
    have := nodup_length_le h.nodup hl
    omega
  | succ fuel ih =>
    unfold GetIncludedBuildFiles
    by_cases hm : f ∈ l
    · rw [if_pos hm]
      exact Or.inl ⟨[], by simp, by simpa using h, by simpa using hm, by simp, fun h => absurd hm h⟩
    rw [if_neg hm]
    cases ha : aux f with
    | none => exact Or.inr ⟨f, rfl, .refl, ha⟩
    | some kids =>
      simp only
      have hedge : includeEdges aux f = kids := by simp [includeEdges, ha]
      have hstart : GInv aux (f :: stack) (l ++ [f]) := by
        refine ⟨?_, ?_, ?_⟩
        · rw [List.nodup_append]
          refine ⟨h.nodup, by simp, ?_⟩
          intro a haa b hb e
          rw [List.mem_singleton] at hb
          rw [e, hb] at haa
          exact hm haa
        · intro x hx
          rcases List.mem_append.mp hx with hx | hx
          · exact h.known x hx
          · rw [List.mem_singleton] at hx; rw [hx, ha]; rfl
        · intro x hx
          rcases List.mem_append.mp hx with hx | hx
          · rcases h.closed x hx with h1 | h1
            · exact Or.inl (by simp [h1])
            · exact Or.inr fun y hy => List.mem_append_left _ (h1 y hy)
          · rw [List.mem_singleton] at hx; exact Or.inl (by simp [hx])
      have hlU : ∀ x ∈ l ++ [f], x ∈ U := by
        intro x hx
        rcases List.mem_append.mp hx with hx | hx
        · exact hl x hx
        · rw [List.mem_singleton] at hx; rw [hx]; exact hf
      have loop : ∀ (ks : List Str) (l' : List Str), (∀ k ∈ ks, k ∈ kids) →
          GInv aux (f :: stack) l' → (∀ x ∈ l', x ∈ U) → U.length < fuel + l'.length →
          (∃ new, ks.foldlM (GetIncludedBuildFiles aux fuel) l' = .ok (l' ++ new) ∧
            GInv aux (f :: stack) (l' ++ new) ∧ (∀ k ∈ ks, k ∈ l' ++ new) ∧
            (∀ x ∈ new, Reach (includeEdges aux) f x ∧ x ∈ U)) ∨
          (∃ x, ks.foldlM (GetIncludedBuildFiles aux fuel) l' = .error (.keyError x) ∧
            Reach (includeEdges aux) f x ∧ aux x = none) := by
        intro ks
        induction ks with
        | nil => intro l' _ hi _ _; exact Or.inl ⟨[], by simp; rfl, by simpa using hi, by simp, by simp⟩
        | cons k ks ihk =>
          intro l' hks hi hlu hlen
          have hkf : k ∈ includeEdges aux f := by rw [hedge]; exact hks k (by simp)
          rw [List.foldlM_cons]
          rcases ih l' (f :: stack) k hi hlu (hU f hf k hkf) hlen with
            ⟨new, e, i1, i2, i3, -⟩ | ⟨x, e, hr, hx⟩
          · rw [e]
            rcases ihk (l' ++ new) (fun x hx => hks x (by simp [hx])) i1 (by
              intro x hx
              rcases List.mem_append.mp hx with hx | hx
              · exact hlu x hx
              · exact (i3 x hx).2) (by simp; omega) with ⟨new2, e2, j1, j2, j3⟩ | ⟨x, e2, hr, hx⟩
            · left
              refine ⟨new ++ new2, by rw [← List.append_assoc]; exact e2, by
                rw [← List.append_assoc]; exact j1, ?_, ?_⟩
              · intro y hy
                rw [← List.append_assoc]
                rcases List.mem_cons.mp hy with rfl | hy
                · exact List.mem_append_left _ i2
                · exact j2 y hy
              · intro y hy
                rcases List.mem_append.mp hy with hy | hy
                · exact ⟨.head hkf (i3 y hy).1, (i3 y hy).2⟩
                · exact j3 y hy
            · exact Or.inr ⟨x, e2, hr, hx⟩
          · rw [e]
            exact Or.inr ⟨x, rfl, .head hkf hr, hx⟩
      rcases loop kids (l ++ [f]) (fun _ hk => hk) hstart hlU (by simp; omega) with
        ⟨new, e, i1, i2, i3⟩ | herr
      · left
        rw [List.append_assoc] at e i1 i2
        refine ⟨[f] ++ new, e, ?_, by simp, ?_, by simp⟩
        · refine ⟨i1.nodup, i1.known, ?_⟩
          intro x hx
          rcases i1.closed x hx with h1 | h1
          · rcases List.mem_cons.mp h1 with rfl | h1
            · exact Or.inr fun y hy => i2 y (by rw [hedge] at hy; exact hy)
            · exact Or.inl h1
          · exact Or.inr h1
        · intro x hx
          rcases List.mem_append.mp hx with hx | hx
          · rw [List.mem_singleton] at hx
            rw [hx]; exact ⟨.refl, hf⟩
          · exact i3 x hx
      · exact Or.inr herr

/-- C27: the reported inputs of a build file are the file itself, first, and exactly the
files reachable by includes, each once; inclusion cycles do no harm. -/
theorem C27_included (aux : Str → Option (List Str)) (U : List Str)
    (hU : Closed (includeEdges aux) U) (f : Str) (hf : f ∈ U) (fuel : Nat)
    (hfuel : U.length < fuel) (hk : ∀ x, Reach (includeEdges aux) f x → (aux x).isSome) :
    ∃ l, GetIncludedBuildFiles aux fuel [] f = .ok (f :: l) ∧ (f :: l).Nodup ∧
      ∀ x, x ∈ f :: l ↔ Reach (includeEdges aux) f x := by
  rcases included_post aux U hU fuel [] [] f ⟨by simp, by simp, by simp⟩ (by simp) hf
    (by simpa using hfuel) with ⟨new, e, h1, h2, h3, h4⟩ | ⟨x, -, hr, hx⟩
  · have hh := h4 (by simp)
    cases new with
    | nil => simp at hh
    | cons y l =>
      simp only [List.head?_cons, Option.some.injEq] at hh
      subst hh
      simp only [List.nil_append] at e h1 h2
      refine ⟨l, e, h1.nodup, fun x => ⟨fun hx => (h3 x hx).1, fun hx => ?_⟩⟩
      induction hx with
      | refl => simp
      | tail _ e ih => exact (h1.closed _ ih).resolve_left (by simp) _ e
  · have := hk x hr
    rw [hx] at this; simp at this

/-- C27: a reachable file without an entry is an error. -/
theorem C27_missing_entry (aux : Str → Option (List Str)) (U : List Str)
    (hU : Closed (includeEdges aux) U) (f : Str) (hf : f ∈ U) (fuel : Nat)
    (hfuel : U.length < fuel) (x : Str) (hx : Reach (includeEdges aux) f x) (hn : aux x = none) :
    ∃ y, GetIncludedBuildFiles aux fuel [] f = .error (.keyError y) ∧
      Reach (includeEdges aux) f y ∧ aux y = none := by
  rcases included_post aux U hU fuel [] [] f ⟨by simp, by simp, by simp⟩ (by simp) hf
    (by simpa using hfuel) with ⟨new, e, h1, h2, h3, h4⟩ | h
  · simp only [List.nil_append] at h1 h2
    have : x ∈ new := by
      clear hn
      induction hx with
      | refl => exact h2
      | tail _ e ih => exact (h1.closed _ ih).resolve_left (by simp) _ e
    have := h1.known x this
    rw [hn] at this; simp at this
  · exact h

/-- `a` includes `b` and `c`, `b` includes `c` and again `a`. -/
def sampleAux (f : Str) : Option (List Str) :=
  if f = c!"a.gyp" then some [c!"b.gypi", c!"c.gypi"]
  else if f = c!"b.gypi" then some [c!"c.gypi", c!"a.gyp"]
  else if f = c!"c.gypi" then some [] else none

example : GetIncludedBuildFiles sampleAux 4 [] c!"a.gyp" =
    .ok [c!"a.gyp", c!"b.gypi", c!"c.gypi"] := by decide

example : Closed (includeEdges sampleAux) [c!"a.gyp", c!"b.gypi", c!"c.gypi"] := by
  unfold Closed; decide

/-! ### C35 -/

/-- `q` is a target whose plain name was requested. -/
def Requested (flat roots : List Str) (q : Str) : Prop :=
  q ∈ flat ∧ ∃ r ∈ roots, (ParseQualifiedTarget q).2.1 = pyStrip r

theorem qualifyRoots_spec (flat roots : List Str) :
    (∃ qs, qualifyRoots flat roots = .ok qs ∧ (∀ q, q ∈ qs ↔ Requested flat roots q) ∧
      ∀ r ∈ roots, ∃ q ∈ flat, (ParseQualifiedTarget q).2.1 = pyStrip r) ∨
    (∃ r ∈ roots, qualifyRoots flat roots = .error (.notFound (pyStrip r)) ∧
      ∀ q ∈ flat, (ParseQualifiedTarget q).2.1 ≠ pyStrip r) := by
  induction roots with
  | nil => exact Or.inl ⟨[], rfl, by simp [Requested], by simp⟩
  | cons r roots ih =>
    unfold qualifyRoots
    simp only
    have hmem : ∀ q, q ∈ FindQualifiedTargets (pyStrip r) flat ↔
        q ∈ flat ∧ (ParseQualifiedTarget q).2.1 = pyStrip r := by
      intro q; simp [FindQualifiedTargets]
    by_cases hq : FindQualifiedTargets (pyStrip r) flat = []
    · rw [if_pos hq]
      refine Or.inr ⟨r, by simp, rfl, ?_⟩
      intro q hq' e
      have := (hmem q).mpr ⟨hq', e⟩
      rw [hq] at this; simp at this
    · rw [if_neg hq]
      obtain ⟨q0, hq0⟩ := List.exists_mem_of_ne_nil _ hq
      rcases ih with ⟨qs, e, h1, h2⟩ | ⟨r', hr', e, h1⟩
      · left
        refine ⟨FindQualifiedTargets (pyStrip r) flat ++ qs, by rw [e]; rfl, ?_, ?_⟩
        · intro q
          rw [List.mem_append, hmem, h1]
          unfold Requested
          constructor
          · rintro (⟨a, b⟩ | ⟨a, r', hr', b⟩)
            · exact ⟨a, r, by simp, b⟩
            · exact ⟨a, r', by simp [hr'], b⟩
          · rintro ⟨a, r', hr', b⟩
            rcases List.mem_cons.mp hr' with rfl | hr'
            · exact Or.inl ⟨a, b⟩
            · exact Or.inr ⟨a, r', hr', b⟩
        · intro r' hr'
          rcases List.mem_cons.mp hr' with rfl | hr'
          · exact ⟨q0, (hmem q0).mp hq0⟩
          · exact h2 r' hr'
      · refine Or.inr ⟨r', by simp [hr'], by rw [e]; rfl, h1⟩

theorem wantAdd_ok {targets wanted : Targets} {n : Str} (hn : n ∈ targets.names) (hw : wanted.names.Nodup)
    (hsub : ∀ e ∈ wanted, targets.get? e.1 = some e.2) :
    ∃ w', wantAdd targets wanted n = .ok w' ∧ w'.names.Nodup ∧
      (∀ e ∈ w', targets.get? e.1 = some e.2) ∧ ∀ m, m ∈ w'.names ↔ m ∈ wanted.names ∨ m = n := by
  obtain ⟨s, hs⟩ := Option.isSome_iff_exists.mp ((Targets.get?_isSome (ts := targets) n).mpr hn)
  unfold wantAdd
  rw [hs]
  by_cases hm : n ∈ wanted.map Prod.fst
  · refine ⟨wanted, by simp only [if_pos hm], hw, hsub, fun m => ⟨Or.inl, ?_⟩⟩
    rintro (h | rfl)
    · exact h
    · exact hm
  · refine ⟨wanted ++ [(n, s)], by simp only [if_neg hm], ?_, ?_, ?_⟩
    · unfold Targets.names at *
      rw [List.map_append, List.nodup_append]
      refine ⟨hw, by simp, ?_⟩
      intro a ha b hb e
      simp at hb
      rw [e, hb] at ha
      exact hm ha
    · intro e he
      rcases List.mem_append.mp he with he | he
      · exact hsub e he
      · rw [List.mem_singleton] at he; rw [he]; exact hs
    · intro m; simp [Targets.names]

theorem wantAdd_list {targets : Targets} (l : List Str) (wanted : Targets)
    (hl : ∀ n ∈ l, n ∈ targets.names) (hw : wanted.names.Nodup)
    (hsub : ∀ e ∈ wanted, targets.get? e.1 = some e.2) :
    ∃ w', l.foldlM (wantAdd targets) wanted = .ok w' ∧ w'.names.Nodup ∧
      (∀ e ∈ w', targets.get? e.1 = some e.2) ∧ ∀ m, m ∈ w'.names ↔ m ∈ wanted.names ∨ m ∈ l := by
  induction l generalizing wanted with
  | nil => exact ⟨wanted, rfl, hw, hsub, by simp⟩
  | cons n l ih =>
    obtain ⟨w1, e1, a1, a2, a3⟩ := wantAdd_ok (hl n (by simp)) hw hsub
    obtain ⟨w2, e2, b1, b2, b3⟩ := ih w1 (fun x hx => hl x (by simp [hx])) a1 a2
    refine ⟨w2, by rw [List.foldlM_cons, e1]; exact e2, b1, b2, fun m => ?_⟩
    rw [b3, a3, List.mem_cons, or_assoc]

/-- C35: with every request matching something, the result holds exactly the requested
targets and their transitive dependencies, with their dictionaries unchanged; the flat
list and the target list of each build file keep exactly those, in order. -/
theorem C35_pruned (targets : Targets) (hn : targets.names.Nodup) (fuel0 : Nat)
    (g : DepGraph) (flat : List Str) (hb : BuildDependencyList targets fuel0 = .ok (g, flat))
    (roots : List Str) (data : List (Str × Option (List FileTarget)))
    (fuel : Nat) (hf : targets.length ≤ fuel)
    (hfound : ∀ r ∈ roots, ∃ q ∈ flat, (ParseQualifiedTarget q).2.1 = pyStrip r) :
    ∃ wanted wflat wdata,
      PruneUnwantedTargets targets flat g fuel roots data = .ok (wanted, wflat, wdata) ∧
      wanted.names.Nodup ∧ (∀ e ∈ wanted, e ∈ targets) ∧
      (∀ t, t ∈ wanted.names ↔
        ∃ q, Requested flat roots q ∧ Relation.ReflTransGen targets.DependsOn q t) ∧
      wflat.Sublist flat ∧ (∀ t, t ∈ wflat ↔ t ∈ wanted.names) ∧
      wdata.map Prod.fst = data.map Prod.fst ∧
      ∀ i (h1 : i < data.length) (h2 : i < wdata.length),
        match data[i].2, wdata[i].2 with
        | none, none => True
        | some old, some new => new.Sublist old ∧ ∀ t, t ∈ new ↔ t ∈ old ∧
            QualifiedTarget data[i].1 t.target_name (some t.toolset) ∈ wanted.names
        | _, _ => False := by
  have hacc := build_accepted hn hb
  rcases qualifyRoots_spec flat roots with ⟨qs, e, h1, -⟩ | ⟨r, hr, -, hno⟩
  swap
  · obtain ⟨q, hq, he⟩ := hfound r hr
    exact absurd he (hno q hq)
  have hqs : ∀ q ∈ qs, q ∈ targets.names := fun q hq => (hacc.mem q).mp ((h1 q).mp hq).1
  -- the loop over the qualified roots
  have loop : ∀ (l : List Str) (wanted : Targets), (∀ n ∈ l, n ∈ targets.names) →
      wanted.names.Nodup → (∀ e ∈ wanted, targets.get? e.1 = some e.2) →
      ∃ w', l.foldlM (wantRoot targets g fuel) wanted = .ok w' ∧
        w'.names.Nodup ∧ (∀ e ∈ w', targets.get? e.1 = some e.2) ∧
        ∀ m, m ∈ w'.names ↔ m ∈ wanted.names ∨
          ∃ q ∈ l, Relation.ReflTransGen targets.DependsOn q m := by
    intro l
    induction l with
    | nil => intro w _ hw hsub; exact ⟨w, rfl, hw, hsub, by simp⟩
    | cons n l ih =>
      intro w hl hw hsub
      have hnn := hl n (by simp)
      obtain ⟨w1, e1, a1, a2, a3⟩ := wantAdd_ok hnn hw hsub
      obtain ⟨deep, d1, -, d3, -⟩ := C13_deep_dependencies targets hn fuel0 g flat hb n hnn fuel hf
      have hdeep : ∀ d ∈ deep, d ∈ targets.names := by
        intro d hd
        have := (d3 d).mp hd
        cases this with
        | single e => exact hacc.edge_mem ((Targets.mem_edges hn _ _).mpr e)
        | tail _ e => exact hacc.edge_mem ((Targets.mem_edges hn _ _).mpr e)
      obtain ⟨w2, e2, b1, b2, b3⟩ := wantAdd_list deep w1 hdeep a1 a2
      obtain ⟨w3, e3, c1, c2, c3⟩ := ih w2 (fun x hx => hl x (by simp [hx])) b1 b2
      refine ⟨w3, ?_, c1, c2, fun m => ?_⟩
      · rw [List.foldlM_cons]
        have hstep : wantRoot targets g fuel w n = .ok w2 := by
          unfold wantRoot
          simp only [e1, bind, Except.bind, d1, e2]
        rw [hstep]
        exact e3
      · rw [c3, b3, a3, d3]
        constructor
        · rintro (((h | rfl) | h) | ⟨q, hq, h⟩)
          · exact Or.inl h
          · exact Or.inr ⟨m, by simp, .refl⟩
          · exact Or.inr ⟨n, by simp, h.to_reflTransGen⟩
          · exact Or.inr ⟨q, by simp [hq], h⟩
        · rintro (h | ⟨q, hq, h⟩)
          · exact Or.inl (Or.inl (Or.inl h))
          · rcases List.mem_cons.mp hq with rfl | hq
            · rcases Relation.reflTransGen_iff_eq_or_transGen.mp h with h | h
              · exact Or.inl (Or.inl (Or.inr h))
              · exact Or.inl (Or.inr h)
            · exact Or.inr ⟨q, hq, h⟩
  obtain ⟨w, e2, w1, w2, w3⟩ := loop qs [] hqs (by simp [Targets.names]) (by simp)
  refine ⟨w, flat.filter (· ∈ w.map Prod.fst),
    data.map fun e => (e.1, e.2.map (pruneFile w e.1)), ?_, w1, ?_, ?_, ?_, ?_, ?_, ?_⟩
  · unfold PruneUnwantedTargets collectWanted
    rw [e]
    simp only [bind, Except.bind, e2]
  · intro x hx
    exact (Targets.get?_eq_some hn x.1 x.2).mp (w2 x hx)
  · intro t
    rw [w3]
    simp only [Targets.names, List.map_nil, List.not_mem_nil, false_or]
    constructor
    · rintro ⟨q, hq, h⟩; exact ⟨q, (h1 q).mp hq, h⟩
    · rintro ⟨q, hq, h⟩; exact ⟨q, (h1 q).mpr hq, h⟩
  · exact List.filter_sublist
  · intro t
    rw [List.mem_filter]
    simp only [decide_eq_true_eq]
    refine ⟨fun h => h.2, fun h => ⟨?_, h⟩⟩
    rw [hacc.mem]
    obtain ⟨x, hx, rfl⟩ := List.mem_map.mp h
    exact (Targets.get?_isSome x.1).mp (by rw [w2 x hx]; rfl)
  · rw [List.map_map]; rfl
  · intro i hi1 hi2
    rw [List.getElem_map]
    cases hd : data[i].2 with
    | none => simp
    | some old =>
      simp only [Option.map_some]
      refine ⟨List.filter_sublist, fun t => ?_⟩
      simp [pruneFile, Targets.names]

/-- C35: a request that matches no target is an error. -/
theorem C35_unknown (targets : Targets) (g : DepGraph) (flat : List Str)
    (roots : List Str) (data : List (Str × Option (List FileTarget))) (fuel : Nat)
    (r : Str) (hr : r ∈ roots) (hno : ∀ q ∈ flat, (ParseQualifiedTarget q).2.1 ≠ pyStrip r) :
    ∃ r' ∈ roots, PruneUnwantedTargets targets flat g fuel roots data =
      .error (.notFound (pyStrip r')) ∧
      ∀ q ∈ flat, (ParseQualifiedTarget q).2.1 ≠ pyStrip r' := by
  rcases qualifyRoots_spec flat roots with ⟨qs, -, -, h2⟩ | ⟨r', hr', e, h⟩
  · obtain ⟨q, hq, he⟩ := h2 r hr
    exact absurd he (hno q hq)
  · refine ⟨r', hr', ?_, h⟩
    unfold PruneUnwantedTargets
    rw [e]; rfl

/-- Two applications over a common library; only one is requested. -/
def pruneSample : Targets :=
  [(c!"a.gyp:x#target", { type := c!"executable", dependencies := some [c!"b.gyp:lib#target"] }),
   (c!"a.gyp:y#target", { type := c!"executable", dependencies := some [c!"b.gyp:lib#target"] }),
   (c!"b.gyp:lib#target", { type := c!"static_library" })]

example : pruneSample.names.Nodup ∧ ((BuildDependencyList pruneSample 20).toOption.bind fun r =>
    (PruneUnwantedTargets pruneSample r.2 r.1 3 [c!" y"]
      [(c!"a.gyp", some [⟨c!"x", c!"target"⟩, ⟨c!"y", c!"target"⟩])]).toOption).map
      (fun r => (r.2.1, r.2.2)) =
    some ([c!"b.gyp:lib#target", c!"a.gyp:y#target"],
      [(c!"a.gyp", some [⟨c!"y", c!"target"⟩])]) := by decide

end Gyp
