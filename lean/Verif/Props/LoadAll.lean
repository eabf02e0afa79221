import Verif.Proofs.LoadAll
import Verif.Spec.LoadAll
import Verif.Props.Expand
import Verif.Props.Conditions
/-
C104: all passes of loading together.
-/
namespace Gyp
open Spec

/-! ### Dependencies, from what is written to the order -/

/-- What the passes over dependencies leave of a plain dependency. -/
theorem dependency_survives {env : LoadEnv} {data : FileData} {t : Table}
    (h : dependencyPasses env data = .ok t) (hc : ∀ c ∈ env.cwd, validName c)
    {file name toolset : Str} {d : Dict} (hm : (QualifiedTarget file name (some toolset), d) ∈ allNames data)
    (hwf : Ref.wf ⟨some file, name, some toolset⟩) (hts : d.get? c!"toolset" = some (.str toolset))
    (hne : toolset ≠ []) (hstar : toolset ≠ c!"*") {deps : List Str}
    (hd : d.get? c!"dependencies" = some (strVals deps)) (hx1 : d.get? c!"dependencies!" = none)
    (hx2 : d.get? c!"dependencies/" = none) {r : Ref} (hr : r.wf) (hw : ¬ IsWildcard r)
    (hin : r.text ∈ deps) :
    ∃ q, Qualified env.cwd env.multiple file toolset r.text q ∧
      ((q = QualifiedTarget file name (some toolset) ∧ VariableSet d c!"prune_self_dependency") ∨
       (TypeNone d ∧ ∃ dq, (q, dq) ∈ allNames data ∧ VariableSet dq c!"link_dependency") ∨
       ∃ d' deps', (QualifiedTarget file name (some toolset), d') ∈ t ∧
         d'.get? c!"dependencies" = some (strVals deps') ∧ q ∈ deps') := by
  obtain ⟨t0, t1, t2, t3, t4, t5, h0, h1, h2, h3, h4, h5, h6⟩ := dependencyPasses_ok h
  obtain rfl := (C34_build_targets data).2 _ h0
  have f1 := C17_qualified env.cwd hc env.multiple _ _ h1
  have f2 := C18_self _ _ h2
  have f3 := C16_expansion _ _ _ h3
  have f4 := C18_link _ _ h4
  have f5 := filterAll_ok h5
  have f6 := C16_unique _ _ h6
  generalize ha : QualifiedTarget file name (some toolset) = a at hm ⊢
  have hbf : BuildFile a = some file := by
    unfold BuildFile
    rw [← ha, C01_qualified_roundtrip file name toolset hwf.1 hwf.2.2 hwf.2.1 hne]
  obtain ⟨e1, m1, n1, ts, hts', q1, fr1⟩ := forall₂_mem_left f1 hm
  obtain ⟨e2, m2, n2, s2, fr2⟩ := forall₂_mem_left f2 m1
  obtain ⟨e3, m3, n3, s3, fr3⟩ := forall₂_mem_left f3 m2
  obtain ⟨e4, m4, n4, s4, fr4⟩ := forall₂_mem_left f4 m3
  obtain ⟨e5, m5, n5, s5⟩ := forall₂_mem_left f5 m4
  obtain ⟨e6, m6, n6, s6, fr6⟩ := forall₂_mem_left f6 m5
  rw [hts] at hts'
  cases hts'
  dsimp only at n1 q1 fr1
  rw [hbf] at q1
  obtain ⟨qs, gq, hq, -⟩ := (q1 c!"dependencies" (by simp)).1 deps hd
  have hq := hq hne
  obtain ⟨q, hqm, hqq⟩ := forall₂_mem_left hq hin
  refine ⟨q, hqq, ?_⟩
  -- the reference as it is now
  obtain ⟨qf, qt, eq, etq, -, -⟩ := hqq r hr rfl
  have hrw : Ref.wf ⟨some qf, r.target, some qt⟩ ∧ ¬ IsWildcard ⟨some qf, r.target, some qt⟩ := by
    obtain ⟨rf, rt, rs⟩ := r
    have hown : (Ref.wf ⟨some qf, rt, some toolset⟩ ∧ ¬ IsWildcard ⟨some qf, rt, some toolset⟩) :=
      ⟨⟨hr.1, hwf.2⟩, by
        rintro (e | e)
        · exact hw (Or.inl e)
        · exact hstar (Option.some.inj e)⟩
    rw [etq]
    cases env.multiple with
    | false => exact hown
    | true =>
      cases rs with
      | none => exact hown
      | some l =>
        cases l with
        | nil => exact hown
        | cons c cs =>
          refine ⟨hr, ?_⟩
          rintro (e | e)
          · exact hw (Or.inl e)
          · exact hw (Or.inr e)
  have hqt : q = Ref.text ⟨some qf, r.target, some qt⟩ := by rw [eq]; simp [Ref.text]
  -- removing what a target says of itself
  by_cases hself : VariableSet d c!"prune_self_dependency" ∧ q = a
  · exact Or.inl ⟨hself.2, hself.1⟩
  have hv1 : VariableSet e1.2 c!"prune_self_dependency" ↔ VariableSet d c!"prune_self_dependency" := by
    unfold VariableSet; rw [fr1 _ (by decide)]
  have g2 : ∃ d2, e2.2.get? c!"dependencies" = some (strVals d2) ∧ q ∈ d2 := by
    by_cases hp : VariableSet e1.2 c!"prune_self_dependency"
    · refine ⟨_, s2 _ (by simp) _ gq hp, ?_⟩
      rw [List.mem_filter]
      refine ⟨hqm, ?_⟩
      simp only [decide_eq_true_eq]
      intro e
      rw [n1] at e
      exact hself ⟨hv1.mp hp, e⟩
    · refine ⟨qs, ?_, hqm⟩
      rw [fr2 _ (Or.inr (Or.inr hp))]
      exact gq
  obtain ⟨d2, g2, q2⟩ := g2
  -- wildcards
  obtain ⟨parts, hparts, g3⟩ := (s3 _ (by simp)).1 d2 g2
  obtain ⟨part, hpm, hpart⟩ := forall₂_mem_left hparts q2
  have hpe : part = [q] := (hpart _ hrw.1 hqt).1 hrw.2
  have q3 : q ∈ parts.flatten := List.mem_flatten.mpr ⟨part, hpm, by simp [hpe]⟩
  -- what targets of the type none link
  have hty : TypeNone e3.2 ↔ TypeNone d := by
    unfold TypeNone
    rw [fr3 _ (by decide), fr2 _ (Or.inl (by decide)), fr1 _ (by decide)]
  by_cases hl : TypeNone d ∧ ∃ dq, (q, dq) ∈ allNames data ∧ VariableSet dq c!"link_dependency"
  · exact Or.inr (Or.inl hl)
  have g4 : ∃ d4, e4.2.get? c!"dependencies" = some (strVals d4) ∧ q ∈ d4 := by
    by_cases hn : TypeNone e3.2
    · obtain ⟨P, hP, g4⟩ := s4 _ (by simp) _ g3 hn
      refine ⟨_, g4, ?_⟩
      rw [List.mem_filter]
      refine ⟨q3, ?_⟩
      obtain ⟨dq, hdq, hPq⟩ := hP q q3
      cases hPv : P q with
      | false => rfl
      | true =>
        exfalso
        apply hl
        refine ⟨hty.mp hn, ?_⟩
        have hset := hPq.mp hPv
        obtain ⟨x2, y2, z2, -, w2⟩ := forall₂_mem_right f3 (table_get?_mem hdq)
        obtain ⟨x1, y1, z1, -, w1⟩ := forall₂_mem_right f2 y2
        obtain ⟨x0, y0, z0, -, -, -, w0⟩ := forall₂_mem_right f1 y1
        refine ⟨x0.2, ?_, ?_⟩
        · have : (q, x0.2) = x0 := by
            rw [show q = x0.1 from by rw [← z0, ← z1, ← z2]]
          rw [this]; exact y0
        · unfold VariableSet at hset ⊢
          rw [w2 _ (by decide), w1 _ (Or.inl (by decide)), w0 _ (by decide)] at hset
          exact hset
    · refine ⟨_, ?_, q3⟩
      rw [fr4 _ (Or.inr (Or.inr hn))]
      exact g3
  obtain ⟨d4, g4, q4⟩ := g4
  -- filters
  have k1 : e4.2.get? c!"dependencies!" = none := by
    rw [fr4 _ (Or.inl (by decide)), fr3 _ (by decide), fr2 _ (Or.inl (by decide))]
    exact (q1 _ (by simp)).2 hx1
  have k2 : e4.2.get? c!"dependencies/" = none := by
    rw [fr4 _ (Or.inl (by decide)), fr3 _ (by decide), fr2 _ (Or.inl (by decide))]
    exact (q1 _ (by simp)).2 hx2
  have g5 := (filterDependencies_ok s5).2 d4 (List.ne_nil_of_mem q4) g4 k1 k2
  obtain ⟨d6, g6, -, hmem, -⟩ := s6 _ (by simp) _ g5
  refine Or.inr (Or.inr ⟨e6.2, d6, ?_, g6, (hmem q).mpr q4⟩)
  rw [show a = e6.1 from by rw [n6, n5, n4, n3, n2, n1]]
  exact m6

theorem passes_names {env : LoadEnv} {data : FileData} {t : Table} (hc : ∀ c ∈ env.cwd, validName c)
    (h : dependencyPasses env data = .ok t) :
    t.map Prod.fst = (allNames data).map Prod.fst ∧ ((allNames data).map Prod.fst).Nodup := by
  obtain ⟨t0, t1, t2, t3, t4, t5, h0, h1, h2, h3, h4, h5, h6⟩ := dependencyPasses_ok h
  have hn := (C34_build_targets data).1.mp ⟨_, h0⟩
  obtain rfl := (C34_build_targets data).2 _ h0
  refine ⟨?_, hn⟩
  rw [forall₂_names (fun _ _ h => h.1) (C16_unique _ _ h6), forall₂_names (fun _ _ h => h.1) (filterAll_ok h5),
    forall₂_names (fun _ _ h => h.1) (C18_link _ _ h4), forall₂_names (fun _ _ h => h.1) (C16_expansion _ _ _ h3),
    forall₂_names (fun _ _ h => h.1) (C18_self _ _ h2),
    forall₂_names (fun _ _ h => h.1) (C17_qualified env.cwd hc env.multiple _ _ h1)]

/-- What the graph passes give: the order and the wanted targets. -/
theorem graphPasses_order {env : LoadEnv} {table table' : Table} {g : DepGraph} {flat : List Str}
    (hn : (akeys table).Nodup) (hf : table.length ≤ env.fuel)
    (h : graphPasses env table = .ok (g, flat, table')) :
    ∃ targets, specsOf table = some targets ∧ targets.names = akeys table ∧ flat.Nodup ∧
      (∀ t ∈ flat, t ∈ akeys table) ∧
      (∀ a q, targets.DependsOn a q → a ∈ flat → Before flat q a) ∧
      (env.roots = [] → ∀ t, t ∈ flat ↔ t ∈ akeys table) ∧
      (env.roots ≠ [] → ∀ t, t ∈ flat ↔ ∃ q, Requested (akeys table) env.roots q ∧
        Relation.ReflTransGen targets.DependsOn q t) ∧
      (∀ r ∈ env.roots, ∃ q ∈ flat, (ParseQualifiedTarget q).2.1 = pyStrip r) ∧
      VerifyNoCollidingTargets flat = .ok () := by
  obtain ⟨targets, flat0, hs, hb, hcase, hv⟩ := graphPasses_ok h
  have hnames : targets.names = akeys table := (specs_get hs []).2
  have hlen : targets.length = table.length := by
    have := congrArg List.length hnames
    simpa [Targets.names, akeys] using this
  obtain ⟨o1, o2, o3⟩ := C10_order targets (by rw [hnames]; exact hn) env.fuel g flat0 hb
  refine ⟨targets, hs, hnames, ?_⟩
  rcases hcase with ⟨hr, rfl, -⟩ | ⟨hr, wanted, wdata, hp, -⟩
  · refine ⟨o1, fun t ht => by rw [← hnames]; exact (o2 t).mp ht, fun a q h _ => o3 a q h,
      fun _ t => by rw [← hnames]; exact o2 t, fun h => absurd hr h, by rw [hr]; simp, hv⟩
  · have hfound : ∀ r ∈ env.roots, ∃ q ∈ flat0, (ParseQualifiedTarget q).2.1 = pyStrip r := by
      intro r hrm
      by_contra hno
      push Not at hno
      obtain ⟨r', -, he, -⟩ := C35_unknown targets g flat0 env.roots [] env.fuel r hrm hno
      rw [he] at hp
      exact absurd hp (by simp)
    obtain ⟨w, wf, wd, p1, p2, p3, p4, p5, p6, -⟩ := C35_pruned targets (by rw [hnames]; exact hn) env.fuel g flat0
      hb env.roots [] env.fuel (by omega) hfound
    rw [hp] at p1
    cases p1
    have hreq : ∀ q, Requested flat0 env.roots q ↔ Requested (akeys table) env.roots q := by
      intro q
      unfold Requested
      rw [o2 q, hnames]
    have hwf : ∀ t, t ∈ flat ↔ ∃ q, Requested (akeys table) env.roots q ∧
        Relation.ReflTransGen targets.DependsOn q t := by
      intro t
      rw [p6 t, p4 t]
      simp only [hreq]
    refine ⟨p5.nodup o1, ?_, ?_, fun h => absurd h hr, fun _ => hwf, ?_, hv⟩
    · intro t ht
      rw [← hnames]
      exact (o2 t).mp (p5.subset ht)
    · intro a q hd ha
      refine before_in_sublist p5 o1 (o3 a q hd) ?_ ha
      obtain ⟨x, hx, hxa⟩ := (hwf a).mp ha
      exact (hwf q).mpr ⟨x, hx, hxa.tail hd⟩
    · intro r hrm
      obtain ⟨q, hq, he⟩ := hfound r hrm
      refine ⟨q, (hwf q).mpr ⟨q, ?_, .refl⟩, he⟩
      exact (hreq q).mp ⟨hq, r, hrm, he⟩

/-- **C104 (order).** When loading succeeds, a dependency written in a target — by its plain name or
with a file and a toolset — stands before the target in the list of targets; the name is read from the
target's own file and toolset.  The only exceptions: a dependency on itself in a target that asks to have
these removed, and one that a target of the type `none` would have to link. -/
theorem C104_order (env : LoadEnv) (data : FileData) (flat : List Str) (out : Table)
    (hc : ∀ c ∈ env.cwd, validName c) (hf : (allNames data).length ≤ env.fuel)
    (h : loadTargets env data = .ok (flat, out))
    (file name toolset : Str) (ts : List (Str × Str × Dict)) (d : Dict) (hfile : (file, ts) ∈ data)
    (hd : (name, toolset, d) ∈ ts) (hwf : Ref.wf ⟨some file, name, some toolset⟩)
    (hts : d.get? c!"toolset" = some (.str toolset)) (hne : toolset ≠ []) (hstar : toolset ≠ c!"*")
    (hflat : QualifiedTarget file name (some toolset) ∈ flat)
    (deps : List Str) (hdeps : d.get? c!"dependencies" = some (strVals deps))
    (hx1 : d.get? c!"dependencies!" = none) (hx2 : d.get? c!"dependencies/" = none)
    (r : Ref) (hr : r.wf) (hw : ¬ IsWildcard r) (hin : r.text ∈ deps) :
    ∃ q, Qualified env.cwd env.multiple file toolset r.text q ∧
      (Before flat q (QualifiedTarget file name (some toolset)) ∨
       (q = QualifiedTarget file name (some toolset) ∧ VariableSet d c!"prune_self_dependency") ∨
       (TypeNone d ∧ ∃ dq, (q, dq) ∈ allNames data ∧ VariableSet dq c!"link_dependency")) := by
  obtain ⟨t0, g, t1, t2, t3, t4, t5, t6, t7, t8, h0, h1, -⟩ := loadTargets_ok h
  obtain ⟨n1, n2⟩ := passes_names hc h0
  have hn : (akeys t0).Nodup := by
    show (t0.map Prod.fst).Nodup
    rw [n1]; exact n2
  have hlen : t0.length = (allNames data).length := by
    have := congrArg List.length n1
    simpa using this
  have hm : (QualifiedTarget file name (some toolset), d) ∈ allNames data := by
    unfold allNames
    rw [List.mem_flatMap]
    exact ⟨(file, ts), hfile, List.mem_map.mpr ⟨(name, toolset, d), hd, rfl⟩⟩
  obtain ⟨q, hq, hcase⟩ := dependency_survives h0 hc hm hwf hts hne hstar hdeps hx1 hx2 hr hw hin
  refine ⟨q, hq, ?_⟩
  rcases hcase with hself | hlink | ⟨d', deps', hm', hd', hqd⟩
  · exact Or.inr (Or.inl hself)
  · exact Or.inr (Or.inr hlink)
  · refine Or.inl ?_
    obtain ⟨targets, hs, hnames, -, -, hord, -⟩ := graphPasses_order hn (by omega) h1
    refine hord _ _ ?_ hflat
    have hget := (specs_get hs (QualifiedTarget file name (some toolset))).1
    rw [aget_of_mem hn hm'] at hget
    have hsome : (targets.get? (QualifiedTarget file name (some toolset))).isSome := by
      rw [Targets.get?_isSome, hnames]
      exact List.mem_map_of_mem (f := Prod.fst) hm'
    obtain ⟨s, hsg⟩ := Option.isSome_iff_exists.mp hsome
    have hso : specOf d' = some s := by rw [← hsg, hget]; rfl
    refine ⟨s, (Targets.get?_eq_some (by rw [hnames]; exact hn) _ _).mp hsg, ?_⟩
    have hl : depList d' c!"dependencies" = .ok (some deps') := depList_some.mpr hd'
    unfold specOf at hso
    rw [hl] at hso
    split at hso
    · rename_i hx _
      cases hso
      cases hx
      exact hqd
    · exact absurd hso (by simp)

/-- In `data`, the target `a` of a file lists the target `b` of the same file by its plain name (and
neither asks for self-dependencies to be removed nor has the type `none`). -/
def AsksFor (data : FileData) (a b : Str) : Prop :=
  ∃ (file name toolset other : Str) (ts : List (Str × Str × Dict)) (d : Dict) (deps : List Str),
    (file, ts) ∈ data ∧ (name, toolset, d) ∈ ts ∧ a = file ++ c!":" ++ name ++ c!"#" ++ toolset ∧
    b = file ++ c!":" ++ other ++ c!"#" ++ toolset ∧
    ':' ∉ name ∧ '#' ∉ toolset ∧ ':' ∉ toolset ∧ toolset ≠ [] ∧ toolset ≠ c!"*" ∧
    d.get? c!"toolset" = some (.str toolset) ∧ d.get? c!"dependencies" = some (strVals deps) ∧
    other ∈ deps ∧ ':' ∉ other ∧ '#' ∉ other ∧ other ≠ c!"*" ∧
    d.get? c!"dependencies!" = none ∧ d.get? c!"dependencies/" = none ∧
    ¬ VariableSet d c!"prune_self_dependency" ∧ ¬ TypeNone d

theorem asks_before {env : LoadEnv} {data : FileData} {flat : List Str} {out : Table}
    (hc : ∀ c ∈ env.cwd, validName c) (hf : (allNames data).length ≤ env.fuel)
    (h : loadTargets env data = .ok (flat, out)) {a b : Str} (hab : AsksFor data a b) (ha : a ∈ flat) :
    Before flat b a := by
  obtain ⟨file, name, toolset, other, ts, d, deps, h1, h2, rfl, rfl, h3, h4, h5, h6, h7, h8, h9, h10, h11, h12,
    h13, h14, h15, h16, h17⟩ := hab
  have hq : QualifiedTarget file name (some toolset) = file ++ c!":" ++ name ++ c!"#" ++ toolset := by
    simp [QualifiedTarget, h6]
  obtain ⟨q, q1, q2⟩ := C104_order env data flat out hc hf h file name toolset ts d h1 h2 ⟨h3, h4, h5⟩ h8 h6 h7
    (by rw [hq]; exact ha) deps h9 h14 h15 ⟨none, other, none⟩ ⟨h11, h12⟩
    (by rintro (e | e)
        · exact h13 e
        · exact absurd e (by simp)) (by simpa [Ref.text] using h10)
  obtain ⟨qf, qt, rfl, e2, e3, -⟩ := q1 ⟨none, other, none⟩ ⟨h11, h12⟩ rfl
  have e2' : qt = toolset := by rw [e2]; cases env.multiple <;> rfl
  rw [e3 (Or.inl rfl), e2'] at q2
  rw [hq] at q2
  rcases q2 with q2 | q2 | q2
  · exact q2
  · exact absurd q2.2 h16
  · exact absurd q2.1 h17

/-- **C104 (cycles).** If targets of a file ask for each other in a circle, loading fails (when all
targets are wanted). -/
theorem C104_circular (env : LoadEnv) (data : FileData) (hc : ∀ c ∈ env.cwd, validName c)
    (hf : (allNames data).length ≤ env.fuel) (hroots : env.roots = []) (a : Str)
    (hcyc : Relation.TransGen (AsksFor data) a a) (flat : List Str) (out : Table) :
    loadTargets env data ≠ .ok (flat, out) := by
  intro h
  have h' := h
  obtain ⟨t0, g, t1, t2, t3, t4, t5, t6, t7, t8, h0, h1, -⟩ := loadTargets_ok h
  obtain ⟨n1, n2⟩ := passes_names hc h0
  have hn : (akeys t0).Nodup := by
    show (t0.map Prod.fst).Nodup
    rw [n1]; exact n2
  have hlen : t0.length = (allNames data).length := by
    have := congrArg List.length n1
    simpa using this
  obtain ⟨targets, hs, hnames, hnod, -, -, hall, -⟩ := graphPasses_order hn (by omega) h1
  have hmem : ∀ x y, AsksFor data x y → x ∈ flat := by
    rintro x y ⟨file, name, toolset, other, ts, d, deps, h1, h2, rfl, -, -, -, -, h6, -⟩
    rw [hall hroots]
    show _ ∈ t0.map Prod.fst
    rw [n1]
    refine List.mem_map.mpr ⟨(QualifiedTarget file name (some toolset), d), ?_, by simp [QualifiedTarget, h6]⟩
    unfold allNames
    rw [List.mem_flatMap]
    exact ⟨(file, ts), h1, List.mem_map.mpr ⟨(name, toolset, d), h2, rfl⟩⟩
  have key : ∀ y, Relation.TransGen (AsksFor data) a y → Before flat y a := by
    intro y hy
    induction hy with
    | single e => exact asks_before hc hf h' e (hmem _ _ e)
    | tail _ e ih => exact (asks_before hc hf h' e (hmem _ _ e)).trans hnod ih
  exact (key a hcyc).ne hnod rfl

/-- **C104 (which targets).** The list of targets holds nothing twice and only targets of the build
files — all of them if no names are given to restrict it, otherwise those that are named and what they
depend on; every name given is found.  No two of them have the same directory, name and toolset. -/
theorem C104_targets (env : LoadEnv) (data : FileData) (flat : List Str) (out : Table)
    (hc : ∀ c ∈ env.cwd, validName c) (hf : (allNames data).length ≤ env.fuel)
    (h : loadTargets env data = .ok (flat, out)) :
    flat.Nodup ∧ (∀ t ∈ flat, t ∈ (allNames data).map Prod.fst) ∧
    (env.roots = [] → ∀ t ∈ (allNames data).map Prod.fst, t ∈ flat) ∧
    (∀ r ∈ env.roots, ∃ t ∈ flat, (ParseQualifiedTarget t).2.1 = pyStrip r) ∧
    (∀ t ∈ (allNames data).map Prod.fst, ∀ r ∈ env.roots, (ParseQualifiedTarget t).2.1 = pyStrip r → t ∈ flat) ∧
    (env.roots ≠ [] → ∃ table targets, dependencyPasses env data = .ok table ∧ specsOf table = some targets ∧
      ∀ t ∈ flat, ∃ q ∈ (allNames data).map Prod.fst, (∃ r ∈ env.roots, (ParseQualifiedTarget q).2.1 = pyStrip r) ∧
        Relation.ReflTransGen targets.DependsOn q t) ∧
    flat.Pairwise (fun a b => placeOf a ≠ placeOf b) := by
  obtain ⟨t0, g, t1, t2, t3, t4, t5, t6, t7, t8, h0, h1, -⟩ := loadTargets_ok h
  obtain ⟨n1, n2⟩ := passes_names hc h0
  have hk : akeys t0 = (allNames data).map Prod.fst := n1
  have hn : (akeys t0).Nodup := by rw [hk]; exact n2
  have hlen : t0.length = (allNames data).length := by
    have := congrArg List.length n1
    simpa using this
  obtain ⟨targets, hs, hnames, hnod, hsub, -, hall, hreq, hroots, hv⟩ := graphPasses_order hn (by omega) h1
  rw [hk] at hsub hall hreq
  refine ⟨hnod, hsub, fun hr t ht => (hall hr t).mpr ht, hroots, ?_, ?_, ((C34_no_collision flat).mp hv).2⟩
  · intro t ht r hr e
    exact (hreq (List.ne_nil_of_mem hr) t).mpr ⟨t, ⟨ht, r, hr, e⟩, .refl⟩
  · intro hr
    refine ⟨t0, targets, h0, hs, ?_⟩
    intro t ht
    obtain ⟨q, ⟨q1, q2⟩, q3⟩ := (hreq hr t).mp ht
    exact ⟨q, q1, q2, q3⟩

/-! ### What a target is at the end -/

theorem inside_written {x v : Val} (h : FoundIn x v) : ∀ u, NumbersWritten u v → ∀ i, x ≠ .int i := by
  have hl : ∀ (l l0 : List Val), ListWritten l0 l → ∀ v ∈ l, ∃ u, NumbersWritten u v := by
    intro l
    induction l with
    | nil => intro _ _ v hv; exact absurd hv (by simp)
    | cons w l ih =>
      intro l0 h v hv
      cases h with
      | cons h1 h2 =>
        rcases List.mem_cons.mp hv with rfl | hv
        · exact ⟨_, h1⟩
        · exact ih _ h2 v hv
  have hd : ∀ (d d0 : List (Str × Val)), DictWritten d0 d → ∀ k v, (k, v) ∈ d → ∃ u, NumbersWritten u v := by
    intro d
    induction d with
    | nil => intro _ _ k v hv; exact absurd hv (by simp)
    | cons w d ih =>
      intro d0 h k v hv
      cases h with
      | cons h1 h2 =>
        rcases List.mem_cons.mp hv with e | hv
        · cases e; exact ⟨_, h1⟩
        · exact ih _ h2 k v hv
  induction h with
  | self =>
    intro u hu i e
    subst e
    cases hu
  | list hm _ ih =>
    intro u hu
    cases hu with
    | list hw =>
      obtain ⟨u', hu'⟩ := hl _ _ hw _ hm
      exact ih u' hu'
  | dict hm _ ih =>
    intro u hu
    cases hu with
    | dict hw =>
      obtain ⟨u', hu'⟩ := hd _ _ hw _ _ hm
      exact ih u' hu'

theorem turn_get (d : Dict) (k : Str) : Dict.get? (TurnIntIntoStrInDict d) k = (Dict.get? d k).map turnInt := by
  induction d with
  | nil => rfl
  | cons e d ih =>
    obtain ⟨j, v⟩ := e
    rw [show TurnIntIntoStrInDict ((j, v) :: d) = (j, turnInt v) :: TurnIntIntoStrInDict d from by
      simp [TurnIntIntoStrInDict]]
    unfold Dict.get?
    by_cases hj : j = k
    · simp [hj]
    · simp only [if_neg hj]; exact ih

theorem aget_map_snd {α β : Type} (f : α → β) (t : List (Str × α)) (x : Str) :
    aget (t.map fun e => (e.1, f e.2)) x = (aget t x).map f := by
  induction t with
  | nil => rfl
  | cons e t ih =>
    obtain ⟨k, v⟩ := e
    unfold aget
    simp only [List.map_cons]
    by_cases hk : k = x
    · simp [hk]
    · simp only [if_neg hk]; exact ih

/-- No key appears in a phase without conditions. -/
theorem phase_no_new {env : ExpEnv} {fuel : Nat} {key : Option Str} {vars d d' : Dict}
    (hcond : env.condKey = none) (h : ProcessVariablesAndConditionsInDict env fuel key vars d = .ok d') {k : Str}
    (hk : k ≠ c!"variables") (hn : d.get? k = none) : d'.get? k = none := by
  cases fuel with
  | zero => exact absurd h (by simp [ProcessVariablesAndConditionsInDict, recs])
  | succ f =>
    have h : procDictStep env (recs env f) key vars d = .ok d' := h
    unfold procDictStep at h
    split at h
    · exact absurd h (by simp)
    rename_i vars1 d1 h1
    split at h
    · exact absurd h (by simp)
    split at h
    · exact absurd h (by simp)
    rename_i d2 h2
    split at h
    · exact absurd h (by simp)
    split at h
    · exact absurd h (by simp)
    rename_i d3 h3
    split at h
    · exact absurd h (by simp)
    have e1 : Dict.get? d1 k = none := by
      unfold procVariables at h1
      split at h1
      · cases h1; exact hn
      · dsimp only at h1
        split at h1
        · exact absurd h1 (by simp)
        · cases h1
          rw [Dict.get?_set_ne _ _ hk]
          exact hn
      · exact absurd h1 (by simp)
    have e2 := (mapM_get expandEntry_key h2 k).1 e1
    have e3 : d3 = d2 := by
      unfold ProcessConditionsInDict at h3
      rw [hcond] at h3
      cases h3; rfl
    rw [e3] at h
    exact (mapM_get procEntry_key h k).1 e2

/-- What happens to a target after the graph is known. -/
theorem target_chain {env : LoadEnv} {data : FileData} {flat : List Str} {out : Table}
    (hc : ∀ c ∈ env.cwd, validName c) (hf : (allNames data).length ≤ env.fuel)
    (h : loadTargets env data = .ok (flat, out)) {t : Str} (ht : t ∈ flat) :
    ∃ d4 d5 d6 d7 d8, configPass env t d4 = .ok d5 ∧ filterPass env t d5 = .ok d6 ∧
      latelatePass env t d6 = .ok d7 ∧ validateTarget env.extra d7 = .ok d8 ∧
      aget out t = some (TurnIntIntoStrInDict d8) := by
  have hnod := (C104_targets env data flat out hc hf h).1
  obtain ⟨t0, g, t1, t2, t3, t4, t5, t6, t7, t8, -, -, -, -, h4, h5, h6, h7, h8, rfl⟩ := loadTargets_ok h
  obtain ⟨d4, d5, a4, b5, a5⟩ := (eachTarget_ok hnod h5).1 t ht
  obtain ⟨d5', d6, a5', b6, a6⟩ := (eachTarget_ok hnod h6).1 t ht
  obtain ⟨d6', d7, a6', b7, a7⟩ := (eachTarget_ok hnod h7).1 t ht
  obtain ⟨d7', d8, a7', b8, a8⟩ := (eachTarget_ok hnod h8).1 t ht
  rw [a5] at a5'; cases a5'
  rw [a6] at a6'; cases a6'
  rw [a7] at a7'; cases a7'
  refine ⟨d4, d5, d6, d7, d8, b5, b6, b7, failAs_ok b8, ?_⟩
  rw [aget_map_snd, a8]; rfl

/-- **C104 (finished targets).** Every listed target is in the result.  It has one of the known types, it
has passed all checks, and no number is left in it at any depth. -/
theorem C104_finished (env : LoadEnv) (data : FileData) (flat : List Str) (out : Table)
    (hc : ∀ c ∈ env.cwd, validName c) (hf : (allNames data).length ≤ env.fuel)
    (h : loadTargets env data = .ok (flat, out)) (t : Str) (ht : t ∈ flat) :
    ∃ d, aget out t = some d ∧ (∃ ty, d.get? c!"type" = some (.str ty) ∧ KnownType ty) ∧
      (∃ checked given, validateTarget env.extra given = .ok checked ∧ DictWritten checked d) ∧
      ∀ i, ¬ FoundIn (.int i) (.dict d) := by
  obtain ⟨d4, d5, d6, d7, d8, -, -, -, hv, ho⟩ := target_chain hc hf h ht
  have hw : DictWritten d8 (TurnIntIntoStrInDict d8) := (C70_numbers _ _).mp rfl
  refine ⟨_, ho, ?_, ⟨d8, d7, hv, hw⟩, fun i hi => inside_written hi (.dict d8) (.dict hw) i rfl⟩
  obtain ⟨v1, v2, -⟩ := C70_target.mp hv
  obtain ⟨ty, g1, g2, -⟩ := (C70_types d7).mp v1
  refine ⟨ty, ?_, g2⟩
  rw [turn_get, C70_rest v2 (by decide), g1]
  rfl

/-- **C104 (settings for others).** Whatever a target was to pass on to others is gone from it in the
end, also if target conditions put it there again: none of the three sections is left. -/
theorem C104_settings_gone (env : LoadEnv) (data : FileData) (flat : List Str) (out : Table)
    (hc : ∀ c ∈ env.cwd, validName c) (hf : (allNames data).length ≤ env.fuel)
    (hcfg : c!"configurations" ∈ env.nonConfig) (hdef : c!"default_configuration" ∈ env.nonConfig)
    (hlast : ∀ file, (env.latelate file).condKey = none)
    (h : loadTargets env data = .ok (flat, out)) (t : Str) (ht : t ∈ flat) (key : Str)
    (hkey : key ∈ [c!"all_dependent_settings", c!"direct_dependent_settings", c!"link_settings"])
    (hnc : key ∉ env.nonConfig) :
    ∃ d, aget out t = some d ∧ d.get? key = none := by
  obtain ⟨d4, d5, d6, d7, d8, h5, h6, h7, hv, ho⟩ := target_chain hc hf h ht
  refine ⟨_, ho, ?_⟩
  have hfacts : key ≠ c!"configurations" ∧ key ≠ c!"default_configuration" ∧ key ≠ c!"variables" ∧
      key ≠ c!"rules" ∧ keyBase key = key ∧ key.getLast? = some 's' := by
    simp only [List.mem_cons, List.not_mem_nil, or_false] at hkey
    rcases hkey with rfl | rfl | rfl <;> decide
  obtain ⟨k1, k2, k3, k4, k5, k6⟩ := hfacts
  obtain ⟨-, -, -, -, hg⟩ := C25_setup _ _ _ _ _ _ _ hcfg hdef (failAs_ok h5)
  have e5 : d5.get? key = none := by rw [hg key k1 k2, k5, if_neg hnc]
  have e6 : d6.get? key = none := by
    rw [Dict.get?_eq_none] at e5 ⊢
    unfold filterPass at h6
    split at h6
    · exact absurd h6 (by simp)
    · rename_i dd hp
      cases h6
      intro hx
      rcases (processListFilters_keys hp).1 key hx with hx | ⟨b, hb⟩
      · exact e5 hx
      · rw [hb] at k6
        simp at k6
    · exact absurd h6 (by simp)
  have e7 : d7.get? key = none := phase_no_new (hlast _) (failAs_ok h7) k3 e6
  rw [turn_get, C70_rest (C70_target.mp hv).2.1 k4, e7]
  rfl

/-! ### Samples -/

/-- Loading with the keys of the code and expressions that are `yes` or `no`. -/
def loadSampleEnv : LoadEnv where
  cwd := [c!"src"]
  pathSections := basePathSections
  nonConfig := baseNonConfigurationKeys
  invalid := invalidConfigurationKeys
  multiple := false
  late := fun _ => { sampleEnv with sym := '>', condKey := some c!"target_conditions" }
  latelate := fun _ => { sampleEnv with sym := '^', condKey := none }
  vars := []
  filters := plainFilters
  circularCheck := true
  roots := []
  adjust := true
  sort := false
  extra := []
  fuel := 40

/-- An application that is listed before the library it uses; `more` is put into the library. -/
def loadSample (more : Dict) : FileData :=
  [(c!"a.gyp", [
    (c!"app", c!"target", [(c!"target_name", .str c!"app"), (c!"toolset", .str c!"target"),
      (c!"type", .str c!"executable"), (c!"dependencies", .list [.str c!"lib"]), (c!"priority", .int 3)]),
    (c!"lib", c!"target", [(c!"target_name", .str c!"lib"), (c!"toolset", .str c!"target"),
      (c!"type", .str c!"static_library"),
      (c!"direct_dependent_settings", .dict [(c!"defines", .list [.str c!"USE_LIB"])])] ++ more)])]

/-- Number and definition in the only configuration of a target. -/
def onlyConfiguration (d : Dict) : Option (Str × Str × Str) :=
  match d.get? c!"configurations" with
  | some (.dict [(name, .dict [(_, .str number), (_, .list [.str definition])])]) => some (name, number, definition)
  | _ => none

/-- The library comes first, its settings are in the application, and the number is a text. -/
example : (loadTargets loadSampleEnv (loadSample [])).toOption.map (fun r =>
      (r.1, (aget r.2 c!"a.gyp:app#target").bind onlyConfiguration)) =
    some ([c!"a.gyp:lib#target", c!"a.gyp:app#target"], some (c!"Default", c!"3", c!"USE_LIB")) := by
  decide +kernel

/-- All hypotheses of the order are met. -/
example : (∀ c ∈ loadSampleEnv.cwd, validName c) ∧ (allNames (loadSample [])).length ≤ loadSampleEnv.fuel ∧
    Ref.wf ⟨some c!"a.gyp", c!"app", some c!"target"⟩ ∧ Ref.wf ⟨none, c!"lib", none⟩ ∧
    ¬ IsWildcard ⟨none, c!"lib", none⟩ ∧ Ref.text ⟨none, c!"lib", none⟩ ∈ [c!"lib"] ∧
    c!"configurations" ∈ loadSampleEnv.nonConfig ∧ c!"default_configuration" ∈ loadSampleEnv.nonConfig ∧
    c!"link_settings" ∉ loadSampleEnv.nonConfig ∧ (∀ file, (loadSampleEnv.latelate file).condKey = none) := by
  refine ⟨by decide, by decide, by decide, by decide, ?_, by decide, by decide, by decide, by decide, fun _ => rfl⟩
  rintro (h | h)
  · exact absurd h (by decide)
  · exact absurd h (by decide)

/-- Only the library is asked for. -/
example : (loadTargets { loadSampleEnv with roots := [c!"lib"] } (loadSample [])).toOption.map (·.1) =
    some [c!"a.gyp:lib#target"] := by decide +kernel

/-- The library uses the application: a circle. -/
example : Relation.TransGen (AsksFor (loadSample [(c!"dependencies", .list [.str c!"app"])]))
    c!"a.gyp:app#target" c!"a.gyp:app#target" := by
  have h1 : AsksFor (loadSample [(c!"dependencies", .list [.str c!"app"])]) c!"a.gyp:app#target" c!"a.gyp:lib#target" := by
    refine ⟨c!"a.gyp", c!"app", c!"target", c!"lib", _, _, [c!"lib"], List.mem_cons_self, List.mem_cons_self, rfl, rfl,
      by decide, by decide, by decide, by decide, by decide, rfl, rfl, by decide, by decide, by decide, by decide,
      rfl, rfl, ?_, ?_⟩
    · rintro ⟨_, _, h, -⟩; exact absurd h (by simp [Dict.get?])
    · intro h; exact absurd h (by simp [TypeNone, Dict.get?])
  have h2 : AsksFor (loadSample [(c!"dependencies", .list [.str c!"app"])]) c!"a.gyp:lib#target" c!"a.gyp:app#target" := by
    refine ⟨c!"a.gyp", c!"lib", c!"target", c!"app", _, _, [c!"app"], List.mem_cons_self,
      List.mem_cons_of_mem _ List.mem_cons_self, rfl, rfl,
      by decide, by decide, by decide, by decide, by decide, rfl, rfl, by decide, by decide, by decide, by decide,
      rfl, rfl, ?_, ?_⟩
    · rintro ⟨_, _, h, -⟩; exact absurd h (by simp [Dict.get?])
    · intro h; exact absurd h (by simp [TypeNone, Dict.get?])
  exact .tail (.single h1) h2

/-- Target conditions come too late for settings for others: these are refused. -/
theorem C104_late_settings_witness :
    (loadTargets loadSampleEnv (loadSample [(c!"target_conditions", .list [.list [.str c!"yes",
      .dict [(c!"link_settings", .dict [(c!"libraries", .list [.str c!"-lz"])])]]])])).toOption.isNone := by
  decide +kernel

end Gyp
