import Verif.Proofs.MsvsProject
/-
C87: in a Visual Studio project every property has, in each configuration, the value given for
it, with the references in it replaced by the values the other properties end up with.
-/
namespace Gyp

open Spec

/-- The value of one property of the list, with those before it evaluated. -/
theorem names_eval {actives : List Str} {calls : List PropGiven} (hc : ClearProps actives calls)
    {active : Str} (ha : active ∈ actives) {ord : List Str → List Str} (ho : ∀ l, (ord l).Perm l)
    {names : List Str} (hmem : ∀ n, n ∈ names ↔ ∃ g ∈ calls, g.name = n) (hnd : names.Nodup)
    (hord : ∀ x ∈ names, ∀ y ∈ propEdges ord (propTable calls) x, Before names y x)
    {env : Str → Str} :
    let final := evalGroup active env (names.flatMap fun name =>
      propElements actives.length name ((aget (propTable calls) name).getD []))
    (∀ g ∈ calls, g.condition = conditionFor active →
      final g.name = expandProps (fun r => if foldName r = foldName g.name then env r else final r) g.value) ∧
    ∀ name, (∀ g ∈ calls, g.condition = conditionFor active → foldName g.name ≠ foldName name) →
      final name = env name := by
  intro final
  have hother : ∀ (ns : List Str) (E : Str → Str) (x : Str), (∀ n ∈ ns, foldName x ≠ foldName n) →
      evalGroup active E (ns.flatMap fun name =>
        propElements actives.length name ((aget (propTable calls) name).getD [])) x = E x := by
    intro ns E x hx
    apply evalGroup_other
    intro e he
    rw [List.mem_flatMap] at he
    obtain ⟨n, hn, he⟩ := he
    rw [propElements_name he]
    exact hx n hn
  have hsplit : ∀ (pre post : List Str), evalGroup active env ((pre ++ post).flatMap fun name =>
      propElements actives.length name ((aget (propTable calls) name).getD [])) =
      evalGroup active (evalGroup active env (pre.flatMap fun name =>
        propElements actives.length name ((aget (propTable calls) name).getD [])))
        (post.flatMap fun name => propElements actives.length name ((aget (propTable calls) name).getD [])) := by
    intro pre post
    unfold evalGroup
    rw [List.flatMap_append, List.foldl_append]
  have hfold : ∀ x ∈ names, ∀ y ∈ names, foldName x = foldName y → x = y := by
    intro x hx y hy hxy
    obtain ⟨g, hg, rfl⟩ := (hmem x).mp hx
    obtain ⟨h, hh, rfl⟩ := (hmem y).mp hy
    exact hc.spelled g hg h hh hxy
  constructor
  · intro g hg hgc
    have hgn : g.name ∈ names := (hmem _).mpr ⟨g, hg, rfl⟩
    obtain ⟨pre, post, hnames⟩ := List.append_of_mem hgn
    have hnd' := hnd
    rw [hnames, List.nodup_append] at hnd'
    obtain ⟨hnpre, hnpost, hdis⟩ := hnd'
    rw [List.nodup_cons] at hnpost
    set E := evalGroup active env (pre.flatMap fun name =>
        propElements actives.length name ((aget (propTable calls) name).getD [])) with hE
    have hfinal : final = evalGroup active
        (fun x => if foldName x = foldName g.name then expandProps E g.value else E x)
        (post.flatMap fun name => propElements actives.length name ((aget (propTable calls) name).getD [])) := by
      show evalGroup active env (names.flatMap _) = _
      rw [hnames, hsplit pre (g.name :: post), List.flatMap_cons]
      rw [← block_given hc ha hg hgc E]
      unfold evalGroup
      rw [List.foldl_append]
      rfl
    have hfoldpost : ∀ n ∈ post, foldName g.name ≠ foldName n := by
      intro n hn heq
      have := hfold g.name hgn n (by rw [hnames]; simp [hn]) heq
      exact hnpost.1 (this ▸ hn)
    have hfoldpre : ∀ n ∈ pre, foldName g.name ≠ foldName n := by
      intro n hn heq
      have := hfold g.name hgn n (by rw [hnames]; simp [hn]) heq
      exact hdis n hn g.name (by simp) this.symm
    rw [hfinal, hother post _ g.name hfoldpost, if_pos rfl]
    apply expandProps_congr
    intro r hr
    by_cases hself : foldName r = foldName g.name
    · rw [if_pos hself, hE]
      rw [hother pre env r fun n hn heq => hfoldpre n hn (hself.symm.trans heq)]
    · rw [if_neg hself, ← hfinal]
      by_cases hprop : ∃ h ∈ calls, foldName r = foldName h.name
      · obtain ⟨h, hh, hrh⟩ := hprop
        have hrn : r = h.name := hc.referred g hg h hh r hr hrh
        have hplain : PlainName r := hrn ▸ hc.plain h hh
        have hedge : r ∈ propEdges ord (propTable calls) g.name :=
          (mem_propEdges ho).mpr ⟨⟨g, hg, rfl, (mem_msvsReferences hplain).mpr hr⟩, ⟨h, hh, hrn.symm⟩,
            fun heq => hself (by rw [heq])⟩
        obtain ⟨p, q, s, hb⟩ := hord g.name hgn r hedge
        have hrpre : r ∈ pre := by
          have h1 : names = (p ++ r :: q) ++ g.name :: s := by rw [hb]; simp
          have h2 := hnames
          rw [h1] at h2
          have hnot : g.name ∉ p ++ r :: q := by
            intro hin
            rw [h1, List.nodup_append] at hnd
            exact hnd.2.2 _ hin g.name (by simp) rfl
          have hnot' : g.name ∉ pre := fun hin => hdis _ hin g.name (by simp) rfl
          have : p ++ r :: q = pre := by
            have hpre : ∀ (a b c d : List Str) (x : Str), x ∉ a → x ∉ c → a ++ x :: b = c ++ x :: d → a = c := by
              intro a
              induction a with
              | nil =>
                intro b c d x _ hxc heq
                cases c with
                | nil => rfl
                | cons y c =>
                  simp only [List.nil_append, List.cons_append, List.cons.injEq] at heq
                  exact absurd (by rw [heq.1]; simp) hxc
              | cons y a ih =>
                intro b c d x hxa hxc heq
                cases c with
                | nil =>
                  simp only [List.nil_append, List.cons_append, List.cons.injEq] at heq
                  exact absurd (by rw [heq.1]; simp) hxa
                | cons z c =>
                  simp only [List.cons_append, List.cons.injEq] at heq
                  rw [heq.1, ih b c d x (fun h => hxa (by simp [h])) (fun h => hxc (by simp [h])) heq.2]
            exact hpre _ _ _ _ _ hnot hnot' h2
          rw [← this]
          simp
        rw [hfinal, hother post _ r, if_neg hself]
        intro n hn heq
        have h1 := hfold r (by rw [hnames]; simp [hrpre]) n (by rw [hnames]; simp [hn]) heq
        exact hdis r hrpre n (by simp [hn]) h1
      · have hno : ∀ n ∈ names, foldName r ≠ foldName n := by
          intro n hn heq
          obtain ⟨h, hh, rfl⟩ := (hmem n).mp hn
          exact hprop ⟨h, hh, heq⟩
        have h1 : E r = env r := hother pre env r fun n hn => hno n (by rw [hnames]; simp [hn])
        have h2 : final r = env r := hother names env r hno
        rw [h1, h2]
  · intro name hno
    have : ∀ (ns : List Str) (E : Str → Str), (∀ n ∈ ns, n ∈ names) →
        evalGroup active E (ns.flatMap fun name =>
          propElements actives.length name ((aget (propTable calls) name).getD [])) name = E name := by
      intro ns
      induction ns with
      | nil => intro E _; rfl
      | cons n ns ih =>
        intro E hns
        have h1 : evalGroup active E ((n :: ns).flatMap fun name =>
          propElements actives.length name ((aget (propTable calls) name).getD [])) =
          evalGroup active (evalGroup active E (propElements actives.length n ((aget (propTable calls) n).getD [])))
            (ns.flatMap fun name => propElements actives.length name ((aget (propTable calls) name).getD [])) := by
          unfold evalGroup
          rw [List.flatMap_cons, List.foldl_append]
        rw [h1, ih _ fun m hm => hns m (by simp [hm])]
        by_cases hf : foldName n = foldName name
        · rw [block_absent hc ha]
          intro g hg hgc hgn
          exact hno g hg hgc (by rw [hgn]; exact hf)
        · apply evalGroup_other
          intro e he
          rw [propElements_name he]
          exact fun h => hf h.symm
    exact this names env fun _ h => h

/-- Each property ends up with the value its configuration gives, in which a reference stands
for what that property ends up with, and a reference to itself for what it was before; a property
the configuration does not give stays what it was. -/
theorem C87_values {actives : List Str} {calls : List PropGiven} (hc : ClearProps actives calls)
    {active : Str} (ha : active ∈ actives) {ord : List Str → List Str} (ho : ∀ l, (ord l).Perm l)
    {depth : Nat} (hd : calls.length < depth) {group : List PropElement}
    (hg : propertyGroup ord depth actives.length (propTable calls) = .ok group)
    (env : Str → Str) :
    (∀ g ∈ calls, g.condition = conditionFor active →
      evalGroup active env group g.name =
        expandProps (fun r => if foldName r = foldName g.name then env r else evalGroup active env group r)
          g.value) ∧
    ∀ name, (∀ g ∈ calls, g.condition = conditionFor active → foldName g.name ≠ foldName name) →
      evalGroup active env group name = env name := by
  unfold propertyGroup at hg
  rcases C07_sorted_or_cycle (akeys (propTable calls)) (propEdges ord (propTable calls))
    (akeys (propTable calls)) (propEdges_closed ho calls) (fun _ h => h) depth
    (lt_of_le_of_lt (propTable_length calls) hd) with ⟨l, hl, hnd, hmem, hord⟩ | ⟨nodes, hl, _⟩
  · rw [hl] at hg
    obtain rfl := (Except.ok.inj hg).symm
    refine names_eval hc ha ho ?_ (List.nodup_reverse.mpr hnd) ?_
    · intro n
      rw [List.mem_reverse, hmem n, ← propTable_keys]
      constructor
      · rintro ⟨x, hx, hr⟩
        induction hr with
        | refl => exact hx
        | tail _ e ih => exact propEdges_closed ho calls _ ih _ e
      · intro h
        exact ⟨n, h, Relation.ReflTransGen.refl⟩
    · intro x hx y hy
      obtain ⟨p, q, r, hb⟩ := hord x (List.mem_reverse.mp hx) y hy
      exact ⟨r.reverse, q.reverse, p.reverse, by rw [hb]; simp⟩
  · rw [hl] at hg
    cases hg

/-- The value of one property has a reference to another. -/
def RefersTo (calls : List PropGiven) (x y : Str) : Prop :=
  x ≠ y ∧ (∃ g ∈ calls, g.name = x ∧ y ∈ propRefs g.value) ∧ ∃ h ∈ calls, h.name = y

/-- The group is made unless properties refer to each other in a circle. -/
theorem C87_made {calls : List PropGiven} (hplain : ∀ g ∈ calls, PlainName g.name)
    {ord : List Str → List Str} (ho : ∀ l, (ord l).Perm l) {depth : Nat} (hd : calls.length < depth) (n : Nat) :
    ((∃ group, propertyGroup ord depth n (propTable calls) = .ok group) ↔
      ¬ ∃ x, Relation.TransGen (RefersTo calls) x x) ∧
    ((∃ nodes, propertyGroup ord depth n (propTable calls) = .error (.cycle nodes)) ↔
      ∃ x, Relation.TransGen (RefersTo calls) x x) := by
  have hedge : ∀ x y, y ∈ propEdges ord (propTable calls) x ↔ RefersTo calls x y := by
    intro x y
    rw [mem_propEdges ho]
    unfold RefersTo
    constructor
    · rintro ⟨⟨g, hg, hgn, hy⟩, ⟨h, hh, rfl⟩, hne⟩
      exact ⟨hne.symm, ⟨g, hg, hgn, (mem_msvsReferences (hplain h hh)).mp hy⟩, h, hh, rfl⟩
    · rintro ⟨hne, ⟨g, hg, hgn, hy⟩, h, hh, rfl⟩
      exact ⟨⟨g, hg, hgn, (mem_msvsReferences (hplain h hh)).mpr hy⟩, ⟨h, hh, rfl⟩, hne.symm⟩
  have hrel : (fun x y => y ∈ propEdges ord (propTable calls) x) = RefersTo calls := by
    funext x y
    exact propext (hedge x y)
  have hcyc := C07_cycle_iff (akeys (propTable calls)) (propEdges ord (propTable calls))
    (akeys (propTable calls)) (propEdges_closed ho calls) (fun _ h => h) depth
    (lt_of_le_of_lt (propTable_length calls) hd)
  have hiff : (∃ g ∈ akeys (propTable calls), ∃ v, Reach (propEdges ord (propTable calls)) g v ∧
      OnCycle (propEdges ord (propTable calls)) v) ↔ ∃ x, Relation.TransGen (RefersTo calls) x x := by
    unfold OnCycle Reach1
    rw [hrel]
    constructor
    · rintro ⟨g, _, v, _, h⟩
      exact ⟨v, h⟩
    · rintro ⟨x, h⟩
      refine ⟨x, ?_, x, Relation.ReflTransGen.refl, h⟩
      obtain ⟨y, hxy, _⟩ := Relation.TransGen.head'_iff.mp h
      obtain ⟨g, hg, hgn, _⟩ := hxy.2.1
      exact (propTable_keys calls x).mpr ⟨g, hg, hgn⟩
  rw [hiff] at hcyc
  rw [← hcyc]
  unfold propertyGroup
  rcases C07_sorted_or_cycle (akeys (propTable calls)) (propEdges ord (propTable calls))
    (akeys (propTable calls)) (propEdges_closed ho calls) (fun _ h => h) depth
    (lt_of_le_of_lt (propTable_length calls) hd) with ⟨l, hl, _⟩ | ⟨nodes, hl, _⟩
  · rw [hl]
    simp
  · rw [hl]
    simp

/-! ### The properties of a target -/

theorem all_of_count {α β : Type} (l : List α) (f : α → List β) (p : β → Bool)
    (h : ∀ a ∈ l, ((f a).filter p).length ≤ 1) :
    ((l.flatMap f).filter p).length ≤ l.length ∧
    (((l.flatMap f).filter p).length = l.length → ∀ a ∈ l, ∃ x ∈ f a, p x = true) := by
  induction l with
  | nil => simp
  | cons a l ih =>
    obtain ⟨h1, h2⟩ := ih fun x hx => h x (by simp [hx])
    have ha := h a (by simp)
    rw [List.flatMap_cons, List.filter_append, List.length_append, List.length_cons]
    refine ⟨by omega, fun heq x hx => ?_⟩
    have hl : ((f a).filter p).length = 1 := by omega
    have hr : ((l.flatMap f).filter p).length = l.length := by omega
    rcases List.mem_cons.mp hx with rfl | hx
    · obtain ⟨y, hy⟩ := List.exists_mem_of_length_pos (l := (f x).filter p) (by omega)
      exact ⟨y, (List.mem_filter.mp hy).1, (List.mem_filter.mp hy).2⟩
    · exact h2 hr x hx

theorem propRefs_noDollar {s : Str} (h : '$' ∉ s) : propRefs s = [] := by
  induction s with
  | nil => rfl
  | cons c cs ih =>
    have hc : propRef (c :: cs) = none := by
      cases hr : propRef (c :: cs) with
      | none => rfl
      | some name =>
        obtain ⟨rest, he⟩ := propRef_some hr
        rw [he] at h
        exact absurd (by simp) h
    rw [propRefs, hc, ih fun hm => h (by simp [hm])]
    rfl

/-- What a usual target says about properties is clear, as long as references are spelled as
the names are. -/
theorem C87_clear {w : WinPaths} {t : WinProduct} {toolset dirs : Str}
    {configurations : List (Str × WinConfig × WinProject)} {details globals : List PropGiven}
    (h : projectCalls w t toolset dirs configurations = some (details, globals))
    (hu : UsualTarget t toolset configurations)
    (hrefs : ∀ g ∈ globals, ∀ h ∈ globals, ∀ r ∈ propRefs g.value, foldName r = foldName h.name → r = h.name) :
    ClearProps (configurations.map fun c => activeText toolset c.1 c.2.1) globals := by
  obtain ⟨hsome, hglob⟩ := projectCalls_globals h hu.converted
  have hmem : ∀ g, g ∈ globals ↔ ∃ c ∈ configurations, g ∈ globalCalls (cygwinPaths w dirs)
      (conditionFor (activeText toolset c.1 c.2.1)) (attrsOf w t c.2.2) c.2.2.settings := by
    intro g
    rw [hglob, List.mem_flatMap]
    simp only [(pySorted_perm _ _).mem_iff]
  have hinj : ∀ a b, conditionFor a = conditionFor b → a = b := by
    intro a b hab
    unfold conditionFor at hab
    exact List.append_cancel_left (List.append_cancel_right hab)
  have hsame : ∀ c ∈ configurations, ∀ d ∈ configurations,
      conditionFor (activeText toolset c.1 c.2.1) = conditionFor (activeText toolset d.1 d.2.1) → c = d :=
    fun c hc d hd he => List.inj_on_of_nodup_map hu.apart hc hd (hinj _ _ he)
  have hnames : ∀ c ∈ configurations, ∀ s ∈ c.2.2.settings, foldName s.1 ∉ ownNames :=
    fun c hc s hs => (hu.names c hc s hs).2
  obtain ⟨e, he, hext⟩ := hu.extension
  have hextval : ∀ c ∈ configurations, aget (attrsOf w t c.2.2) c!"TargetExt" =
      if e ≠ [] then some e else t.productExtension.map fun e => c!"." ++ e := by
    intro c hc
    obtain ⟨q, hq⟩ := hsome c hc
    rw [(converted_attrs (hu.converted c hc) hq).1, hext c hc]
  have hextCall : ∀ c ∈ configurations, ∀ v, aget (attrsOf w t c.2.2) c!"TargetExt" = some v →
      (⟨conditionFor (activeText toolset c.1 c.2.1), c!"TargetExt", v⟩ : PropGiven) ∈ globals := by
    intro c hc v hv
    rw [hmem]
    refine ⟨c, hc, ?_⟩
    unfold globalCalls
    simp only [List.mem_append, List.mem_map]
    refine Or.inl (Or.inl (Or.inl (Or.inl (Or.inr ⟨v, ?_, rfl⟩))))
    rw [hv]
    simp
  refine ⟨?_, ?_, ?_, ?_, ?_, ?_, hrefs⟩
  · intro g hg
    obtain ⟨c, hc, hg⟩ := (hmem g).mp hg
    exact ⟨_, List.mem_map_of_mem hc, globalCalls_condition hg⟩
  · intro g hg k hk hcond hname
    obtain ⟨c, hc, hg⟩ := (hmem g).mp hg
    obtain ⟨d, hd, hk⟩ := (hmem k).mp hk
    have hcd := hsame c hc d hd (by rw [← globalCalls_condition hg, ← globalCalls_condition hk, hcond])
    subst hcd
    exact globalCalls_once (hu.unique c hc) (hnames c hc) hg hk hname
  · intro g hg hcount a ha
    rw [List.mem_map] at ha
    obtain ⟨d, hd, rfl⟩ := ha
    obtain ⟨c, hc, hgc⟩ := (hmem g).mp hg
    by_cases hx : g.name = c!"TargetExt"
    · have hv := globalCalls_ext (hnames c hc) hgc hx
      rw [hx]
      apply hextCall d hd
      rw [hextval d hd, ← hextval c hc, hv]
    · rw [hglob, List.length_map, ← (pySorted_perm (fun a b => strLe a.1 b.1) configurations).length_eq] at hcount
      have hle : ∀ c ∈ pySorted (fun a b => strLe a.1 b.1) configurations,
          ((globalCalls (cygwinPaths w dirs) (conditionFor (activeText toolset c.1 c.2.1)) (attrsOf w t c.2.2)
            c.2.2.settings).filter fun k => k.name = g.name ∧ k.value = g.value).length ≤ 1 := by
        intro c hc
        have hc' := (pySorted_perm _ _).mem_iff.mp hc
        have hnd := globalCalls_nodup (paths := cygwinPaths w dirs)
          (condition := conditionFor (activeText toolset c.1 c.2.1)) (attrs := attrsOf w t c.2.2)
          (hu.unique c hc') (hnames c hc')
        have h1 := List.nodup_iff_count_le_one.mp hnd g.name
        refine le_trans ?_ h1
        rw [List.count_eq_countP, List.countP_map, List.countP_filter, ← List.countP_eq_length_filter]
        refine List.countP_mono_left fun k _ hk => ?_
        simp only [decide_eq_true_eq] at hk
        simp only [Function.comp_apply, Bool.and_eq_true, beq_iff_eq, decide_eq_true_eq]
        exact ⟨hk.1, by rw [hk.1]; exact hx⟩
      obtain ⟨k, hk, hk'⟩ := (all_of_count _ _ _ hle).2 hcount d ((pySorted_perm _ _).mem_iff.mpr hd)
      simp only [decide_eq_true_eq] at hk'
      have hkc := globalCalls_condition hk
      rw [hmem]
      refine ⟨d, hd, ?_⟩
      have hkg : k = ⟨conditionFor (activeText toolset d.1 d.2.1), g.name, g.value⟩ := by
        cases k
        simp only at hkc hk'
        rw [hkc, hk'.1, hk'.2]
      rw [← hkg]
      exact hk
  · intro g hg hcount r hr
    obtain ⟨c, hc, hgc⟩ := (hmem g).mp hg
    by_cases hx : g.name = c!"TargetExt"
    · have hv := globalCalls_ext (hnames c hc) hgc hx
      rw [hextval c hc] at hv
      have hno : '$' ∉ g.value := by
        split at hv
        · rw [← Option.some.inj hv]; exact he
        · rw [Option.map_eq_some_iff] at hv
          obtain ⟨e', he', hv⟩ := hv
          rw [← hv]
          simpa using hu.product e' he'
      rw [propRefs_noDollar hno] at hr
      cases hr
    · exfalso
      have hnd : (globals.filter fun k => k.name ≠ c!"TargetExt").Nodup := by
        rw [hglob, List.filter_flatMap, List.nodup_flatMap]
        constructor
        · intro d hd
          have hd' := (pySorted_perm _ _).mem_iff.mp hd
          exact List.Nodup.of_map _ (globalCalls_nodup (hu.unique d hd') (hnames d hd'))
        · have hp : (pySorted (fun a b => strLe a.1 b.1) configurations).Pairwise fun c d =>
              activeText toolset c.1 c.2.1 ≠ activeText toolset d.1 d.2.1 := by
            have := (((pySorted_perm (fun a b => strLe a.1 b.1) configurations).map
              fun c => activeText toolset c.1 c.2.1).nodup_iff).mpr hu.apart
            exact List.pairwise_map.mp this
          refine hp.imp fun {c d} hcd => ?_
          intro k hk hk'
          have h1 := globalCalls_condition (List.mem_of_mem_filter hk)
          have h2 := globalCalls_condition (List.mem_of_mem_filter hk')
          exact hcd (hinj _ _ (h1.symm.trans h2))
      have h1 := List.nodup_iff_count_le_one.mp hnd g
      rw [List.count_filter (by simpa using hx)] at h1
      omega
  · intro g hg
    obtain ⟨c, hc, hgc⟩ := (hmem g).mp hg
    rcases globalCalls_kind hgc with h1 | ⟨s, hs, h1⟩
    · have : ∀ n ∈ [c!"IntDir", c!"OutDir", c!"TargetName", c!"TargetExt", c!"TargetPath", c!"ExecutablePath"],
          PlainName n := by decide
      exact this _ h1
    · rw [h1]; exact (hu.names c hc s hs).1
  · intro g hg k hk hf
    obtain ⟨c, hc, hgc⟩ := (hmem g).mp hg
    obtain ⟨d, hd, hkd⟩ := (hmem k).mp hk
    have hown : ∀ n ∈ [c!"IntDir", c!"OutDir", c!"TargetName", c!"TargetExt", c!"TargetPath", c!"ExecutablePath"],
        foldName n ∈ ownNames := by decide
    rcases globalCalls_kind hgc with h1 | ⟨s, hs, h1⟩
    · rcases globalCalls_kind hkd with h2 | ⟨s', hs', h2⟩
      · have : ∀ n ∈ [c!"IntDir", c!"OutDir", c!"TargetName", c!"TargetExt", c!"TargetPath", c!"ExecutablePath"],
          ∀ m ∈ [c!"IntDir", c!"OutDir", c!"TargetName", c!"TargetExt", c!"TargetPath", c!"ExecutablePath"],
            foldName n = foldName m → n = m := by decide
        exact this _ h1 _ h2 hf
      · exact absurd (by rw [← h2, ← hf]; exact hown _ h1) (hnames d hd s' hs')
    · rcases globalCalls_kind hkd with h2 | ⟨s', hs', h2⟩
      · exact absurd (by rw [← h1, hf]; exact hown _ h2) (hnames c hc s hs)
      · rw [h1, h2]
        exact hu.spelled c hc s hs d hd s' hs' (by rw [← h1, ← h2]; exact hf)

/-- Where a target that does not say otherwise is built, in each of its configurations: the product
in the directory of the configuration next to the solution, under its own name and extension, and
everything else in a directory of the project's own. -/
theorem C87_directories {w : WinPaths} {t : WinProduct} {toolset dirs : Str}
    {configurations : List (Str × WinConfig × WinProject)} {details globals : List PropGiven}
    (h : projectCalls w t toolset dirs configurations = some (details, globals))
    (hu : UsualTarget t toolset configurations)
    (hrefs : ∀ g ∈ globals, ∀ h ∈ globals, ∀ r ∈ propRefs g.value, foldName r = foldName h.name → r = h.name)
    {ord : List Str → List Str} (ho : ∀ l, (ord l).Perm l) {depth : Nat} (hd : globals.length < depth)
    {group : List PropElement}
    (hg : propertyGroup ord depth configurations.length (propTable globals) = .ok group)
    (hw : ∀ s ∈ [c!"$(SolutionDir)$(ConfigurationName)", c!"$(ConfigurationName)\\obj\\$(ProjectName)"], w.norm s = s)
    {c : Str × WinConfig × WinProject} (hc : c ∈ configurations)
    (hdef : c.2.2.msvsAttributes = [] ∧ c.2.2.msvsProps = [] ∧ c.2.2.externalDir = none)
    (hkeep : ∀ d ∈ configurations, ∀ s ∈ d.2.2.settings,
      foldName s.1 ∉ [c!"solutiondir", c!"configuration", c!"projectname"])
    (env : Str → Str) :
    let final := evalGroup (activeText toolset c.1 c.2.1) env group
    final c!"OutDir" = env c!"SolutionDir" ++ env c!"Configuration" ++ c!"\\" ∧
    final c!"IntDir" = env c!"Configuration" ++ c!"\\obj\\" ++ env c!"ProjectName" ++ c!"\\" ∧
    (∀ name, t.productName = some name → '$' ∉ t.productPrefix ++ name →
      final c!"TargetName" = t.productPrefix ++ name) ∧
    (∀ ext, t.productExtension = some ext → c.2.2.toolExt = [] ∨ c.2.2.toolExt = '.' :: ext →
      final c!"TargetExt" = '.' :: ext) := by
  intro final
  have hclear := C87_clear h hu hrefs
  obtain ⟨hsome, hglob⟩ := projectCalls_globals h hu.converted
  have hmem : ∀ g, g ∈ globals ↔ ∃ c ∈ configurations, g ∈ globalCalls (cygwinPaths w dirs)
      (conditionFor (activeText toolset c.1 c.2.1)) (attrsOf w t c.2.2) c.2.2.settings := by
    intro g
    rw [hglob, List.mem_flatMap]
    simp only [(pySorted_perm _ _).mem_iff]
  have hlen : configurations.length = (configurations.map fun c => activeText toolset c.1 c.2.1).length := by simp
  rw [hlen] at hg
  obtain ⟨hval, hkeep'⟩ := C87_values hclear (List.mem_map_of_mem hc) ho hd hg env
  have henv : ∀ n, foldName n ∈ [c!"solutiondir", c!"configuration", c!"projectname"] → final n = env n := by
    intro n hn
    apply hkeep'
    intro g hgm _ hf
    obtain ⟨d, hd, hgd⟩ := (hmem g).mp hgm
    rw [← hf] at hn
    rcases globalCalls_kind hgd with h1 | ⟨s, hs, h1⟩
    · have : ∀ n ∈ [c!"IntDir", c!"OutDir", c!"TargetName", c!"TargetExt", c!"TargetPath", c!"ExecutablePath"],
        foldName n ∉ [c!"solutiondir", c!"configuration", c!"projectname"] := by decide
      exact this _ h1 hn
    · rw [h1] at hn
      exact hkeep d hd s hs hn
  obtain ⟨q, hq⟩ := hsome c hc
  obtain ⟨hx, hn, type, conv, htype, hconv, hint, hout⟩ := converted_attrs (hu.converted c hc) hq
  have hcall : ∀ n v, (n, v) ∈ [(c!"IntDir", aget (attrsOf w t c.2.2) c!"IntermediateDirectory"),
      (c!"OutDir", aget (attrsOf w t c.2.2) c!"OutputDirectory"),
      (c!"TargetName", aget (attrsOf w t c.2.2) c!"TargetName"),
      (c!"TargetExt", aget (attrsOf w t c.2.2) c!"TargetExt")] → ∀ x, v = some x →
      final n = expandProps (fun r => if foldName r = foldName n then env r else final r) x := by
    intro n v hnv x hx
    refine hval ⟨conditionFor (activeText toolset c.1 c.2.1), n, x⟩ ?_ rfl
    rw [hmem]
    refine ⟨c, hc, ?_⟩
    unfold globalCalls
    simp only [List.mem_cons, List.not_mem_nil, or_false, Prod.mk.injEq] at hnv
    simp only [List.mem_append, List.mem_map, Option.mem_toList]
    rcases hnv with ⟨rfl, rfl⟩ | ⟨rfl, rfl⟩ | ⟨rfl, rfl⟩ | ⟨rfl, rfl⟩
    · exact Or.inl (Or.inl (Or.inl (Or.inl (Or.inl (Or.inl (Or.inl ⟨x, hx, rfl⟩))))))
    · exact Or.inl (Or.inl (Or.inl (Or.inl (Or.inl (Or.inl (Or.inr ⟨x, hx, rfl⟩))))))
    · exact Or.inl (Or.inl (Or.inl (Or.inl (Or.inl (Or.inr ⟨x, hx, rfl⟩)))))
    · exact Or.inl (Or.inl (Or.inl (Or.inl (Or.inr ⟨x, hx, rfl⟩))))
  have hfix : ∀ s ∈ [c!"$(SolutionDir)$(ConfigurationName)", c!"$(ConfigurationName)\\obj\\$(ProjectName)"],
      fixPath w s = s := by
    intro s hs
    have hn := hw s hs
    have hparts : s.head? = some '$' ∧ replaceChar '/' ['\\'] s = s ∧ s.getLast? ≠ some '\\' := by
      simp only [List.mem_cons, List.not_mem_nil, or_false] at hs
      rcases hs with rfl | rfl <;> decide
    unfold fixPath
    have hfrom : fromProject w s = s := by
      unfold fromProject
      rw [if_neg]
      rintro ⟨_, _, _, h, _⟩
      exact h hparts.1
    rw [hfrom, hparts.2.1]
    have : normalizedSource w s = s := by
      unfold normalizedSource
      rw [hn, if_pos rfl]
    rw [this, dropLastSep, if_neg hparts.2.2]
  have hconv' : aget conv c!"IntermediateDirectory" = some c!"$(Configuration)\\obj\\$(ProjectName)\\" ∧
      aget conv c!"OutputDirectory" = some c!"$(SolutionDir)$(Configuration)\\" := by
    have hattrs : msvsAttributesOf w c.2.2 type = [(c!"ConfigurationType", type),
        (c!"OutputDirectory", c!"$(SolutionDir)$(ConfigurationName)\\"),
        (c!"IntermediateDirectory", c!"$(ConfigurationName)\\obj\\$(ProjectName)\\")] := by
      unfold msvsAttributesOf
      rw [hdef.1, hdef.2.1]
      simp only [List.foldl_nil, ne_eq, not_true_eq_false, if_false]
      have h1 : aget (aset [] c!"ConfigurationType" type) c!"OutputDirectory" = none := rfl
      rw [h1, Option.getD_none, hfix _ (by simp)]
      have h2 : aget (aset (aset [] c!"ConfigurationType" type) c!"OutputDirectory"
        (c!"$(SolutionDir)$(ConfigurationName)" ++ c!"\\")) c!"IntermediateDirectory" = none := rfl
      rw [h2, hfix _ (by simp)]
      rfl
    unfold convertedAttributes at hconv
    rw [hattrs] at hconv
    simp only [List.foldlM_cons, List.foldlM_nil, Option.bind_eq_bind, Option.bind_eq_some_iff,
      Option.pure_def, Option.some.injEq] at hconv
    obtain ⟨d1, h1, d2, h2, d3, h3, rfl⟩ := hconv
    have e1 : ConvertVCMacrosToMSBuild c!"$(SolutionDir)$(ConfigurationName)\\" = c!"$(SolutionDir)$(Configuration)\\" := by
      decide +kernel
    have e2 : ConvertVCMacrosToMSBuild c!"$(ConfigurationName)\\obj\\$(ProjectName)\\" =
        c!"$(Configuration)\\obj\\$(ProjectName)\\" := by decide +kernel
    unfold convertAttribute at h2 h3
    rw [if_pos (by simp)] at h2 h3
    simp only [e1, e2] at h2 h3
    rw [if_pos (by decide)] at h2 h3
    cases h2
    cases h3
    simp only [aget_aset]
    refine ⟨by rw [if_pos trivial], ?_⟩
    rw [if_neg (by decide), if_pos trivial]
  rw [hdef.2.2] at hout
  simp only at hout
  have hplain : ∀ (E : Str → Str) (s : Str), '$' ∉ s → expandProps E s = s := by
    intro E s hs
    unfold expandProps
    induction s with
    | nil => rfl
    | cons x xs ih =>
      have hr : propRef (x :: xs) = none := by
        cases hr : propRef (x :: xs) with
        | none => rfl
        | some name =>
          obtain ⟨rest, he⟩ := propRef_some hr
          rw [he] at hs
          exact absurd (by simp) hs
      rw [expandPropsFrom, hr]
      simp only
      rw [ih fun hm => hs (by simp [hm])]
  refine ⟨?_, ?_, ?_, ?_⟩
  · rw [hcall c!"OutDir" _ (by simp) _ (hout.trans hconv'.2)]
    have : ∀ E : Str → Str, expandProps E c!"$(SolutionDir)$(Configuration)\\" =
      E c!"SolutionDir" ++ (E c!"Configuration" ++ c!"\\") := fun E => rfl
    rw [this, if_neg (by decide), if_neg (by decide), henv _ (by decide), henv _ (by decide), List.append_assoc]
  · rw [hcall c!"IntDir" _ (by simp) _ (hint.trans hconv'.1)]
    have : ∀ E : Str → Str, expandProps E c!"$(Configuration)\\obj\\$(ProjectName)\\" =
      E c!"Configuration" ++ (c!"\\obj\\" ++ (E c!"ProjectName" ++ c!"\\")) := fun E => rfl
    rw [this, if_neg (by decide), if_neg (by decide), henv _ (by decide), henv _ (by decide)]
    simp only [List.append_assoc]
  · intro name hname hno
    rw [hcall c!"TargetName" _ (by simp) _ hn, hname, Option.getD_some]
    exact hplain _ _ hno
  · intro ext hext htool
    have hv : aget (attrsOf w t c.2.2) c!"TargetExt" = some ('.' :: ext) := by
      rw [hx, hext]
      rcases htool with h0 | h0
      · rw [h0]; rfl
      · rw [h0, if_pos (by simp)]
    rw [hcall c!"TargetExt" _ (by simp) _ hv]
    apply hplain
    have := hu.product ext hext
    simpa using this

/-- The search path of a target with a Cygwin directory is what it was and two directories of
the project more. -/
theorem C87_search_path {w : WinPaths} {t : WinProduct} {toolset dirs : Str}
    {configurations : List (Str × WinConfig × WinProject)} {details globals : List PropGiven}
    (h : projectCalls w t toolset dirs configurations = some (details, globals))
    (hu : UsualTarget t toolset configurations)
    (hrefs : ∀ g ∈ globals, ∀ h ∈ globals, ∀ r ∈ propRefs g.value, foldName r = foldName h.name → r = h.name)
    {ord : List Str → List Str} (ho : ∀ l, (ord l).Perm l) {depth : Nat} (hd : globals.length < depth)
    {group : List PropElement}
    (hg : propertyGroup ord depth configurations.length (propTable globals) = .ok group)
    {c : Str × WinConfig × WinProject} (hc : c ∈ configurations)
    (hkeep : ∀ d ∈ configurations, ∀ s ∈ d.2.2.settings, foldName s.1 ≠ c!"msbuildprojectdirectory")
    {front : Str} (hdirs : dirs ≠ []) (hfix : fixPath w dirs = front ++ c!"cygwin") (hfront : '$' ∉ front)
    (honce : replaceStr c!"cygwin\\bin" c!"python_26" (c!"$(MSBuildProjectDirectory)\\" ++ front ++ c!"cygwin\\bin\\") =
      c!"$(MSBuildProjectDirectory)\\" ++ front ++ c!"python_26\\")
    (env : Str → Str) :
    evalGroup (activeText toolset c.1 c.2.1) env group c!"ExecutablePath" =
      env c!"ExecutablePath" ++ c!";" ++ env c!"MSBuildProjectDirectory" ++ c!"\\" ++ front ++ c!"cygwin\\bin\\;" ++
        env c!"MSBuildProjectDirectory" ++ c!"\\" ++ front ++ c!"python_26\\" := by
  have hclear := C87_clear h hu hrefs
  obtain ⟨hsome, hglob⟩ := projectCalls_globals h hu.converted
  have hmem : ∀ g, g ∈ globals ↔ ∃ c ∈ configurations, g ∈ globalCalls (cygwinPaths w dirs)
      (conditionFor (activeText toolset c.1 c.2.1)) (attrsOf w t c.2.2) c.2.2.settings := by
    intro g
    rw [hglob, List.mem_flatMap]
    simp only [(pySorted_perm _ _).mem_iff]
  have hlen : configurations.length = (configurations.map fun c => activeText toolset c.1 c.2.1).length := by simp
  rw [hlen] at hg
  obtain ⟨hval, hkeep'⟩ := C87_values hclear (List.mem_map_of_mem hc) ho hd hg env
  have henv : evalGroup (activeText toolset c.1 c.2.1) env group c!"MSBuildProjectDirectory" =
      env c!"MSBuildProjectDirectory" := by
    apply hkeep'
    intro g hgm _ hf
    obtain ⟨d, hd, hgd⟩ := (hmem g).mp hgm
    rcases globalCalls_kind hgd with h1 | ⟨s, hs, h1⟩
    · have : ∀ n ∈ [c!"IntDir", c!"OutDir", c!"TargetName", c!"TargetExt", c!"TargetPath", c!"ExecutablePath"],
        foldName n ≠ foldName c!"MSBuildProjectDirectory" := by decide
      exact this _ h1 hf
    · rw [h1] at hf
      exact hkeep d hd s hs (hf.trans (by decide))
  have hpaths : cygwinPaths w dirs = c!"$(ExecutablePath);" ++ (c!"$(MSBuildProjectDirectory)\\" ++ (front ++
      (c!"cygwin\\bin\\;" ++ (c!"$(MSBuildProjectDirectory)\\" ++ (front ++ c!"python_26\\"))))) := by
    unfold cygwinPaths
    rw [if_neg hdirs]
    simp only [hfix]
    have : c!"$(MSBuildProjectDirectory)\\" ++ (front ++ c!"cygwin") ++ c!"\\bin\\" =
        c!"$(MSBuildProjectDirectory)\\" ++ front ++ c!"cygwin\\bin\\" := by simp
    rw [this, honce]
    simp
  have hcall : (⟨conditionFor (activeText toolset c.1 c.2.1), c!"ExecutablePath", cygwinPaths w dirs⟩ : PropGiven) ∈
      globals := by
    rw [hmem]
    refine ⟨c, hc, ?_⟩
    unfold globalCalls
    have hne : cygwinPaths w dirs ≠ [] := by rw [hpaths]; simp
    rw [if_neg hne]
    simp only [List.mem_append, List.mem_singleton]
    exact Or.inl (Or.inr trivial)
  rw [hval _ hcall rfl]
  simp only
  rw [hpaths]
  have hskip : ∀ (E : Str → Str) (a b : Str), '$' ∉ a → expandPropsFrom E 0 (a ++ b) = a ++ expandPropsFrom E 0 b := by
    intro E a b ha
    induction a with
    | nil => rfl
    | cons x xs ih =>
      have hr : propRef (x :: (xs ++ b)) = none := by
        cases hr : propRef (x :: (xs ++ b)) with
        | none => rfl
        | some name =>
          obtain ⟨rest, he⟩ := propRef_some hr
          obtain ⟨rfl, _⟩ := List.cons.inj he
          exact absurd (by simp) ha
      rw [List.cons_append, expandPropsFrom, hr]
      simp only
      rw [ih fun hm => ha (by simp [hm])]
      rfl
  have he1 : ∀ (E : Str → Str) (b : Str), expandPropsFrom E 0 (c!"$(ExecutablePath);" ++ b) =
      E c!"ExecutablePath" ++ ';' :: expandPropsFrom E 0 b := fun E b => rfl
  have he2 : ∀ (E : Str → Str) (b : Str), expandPropsFrom E 0 (c!"$(MSBuildProjectDirectory)\\" ++ b) =
      E c!"MSBuildProjectDirectory" ++ '\\' :: expandPropsFrom E 0 b := fun E b => rfl
  unfold expandProps
  rw [he1, he2, hskip _ _ _ hfront, hskip _ _ _ (by decide), he2, hskip _ _ _ hfront, if_pos rfl,
    if_neg (by decide), henv]
  have hlast : ∀ E : Str → Str, expandPropsFrom E 0 c!"python_26\\" = c!"python_26\\" := fun E => rfl
  rw [hlast]
  simp

/-- What kind of thing a target of a type is for MSBuild. -/
def projectKinds : List (Str × Str) :=
  [(c!"executable", c!"Application"), (c!"shared_library", c!"DynamicLibrary"),
   (c!"loadable_module", c!"DynamicLibrary"), (c!"static_library", c!"StaticLibrary"),
   (c!"windows_driver", c!"Driver"), (c!"none", c!"Utility")]

/-- A text without references stays as it is. -/
theorem expandProps_plain {s : Str} (h : '$' ∉ s) (E : Str → Str) : expandProps E s = s := by
  unfold expandProps
  induction s with
  | nil => rfl
  | cons x xs ih =>
    have hr : propRef (x :: xs) = none := by
      cases hr : propRef (x :: xs) with
      | none => rfl
      | some name =>
        obtain ⟨rest, he⟩ := propRef_some hr
        obtain ⟨rfl, _⟩ := List.cons.inj he
        exact absurd (by simp) h
    rw [expandPropsFrom, hr]
    simp only
    rw [ih fun hm => h (by simp [hm])]

/-- A detail that a configuration has is what the first group gives for it. -/
theorem details_eval {w : WinPaths} {t : WinProduct} {toolset dirs : Str}
    {configurations : List (Str × WinConfig × WinProject)} {details globals : List PropGiven}
    (h : projectCalls w t toolset dirs configurations = some (details, globals))
    (hu : UsualTarget t toolset configurations) {group : List PropElement} {depth : Nat}
    {ord : List Str → List Str} (ho : ∀ l, (ord l).Perm l)  (hd : details.length < depth)
    (hg : propertyGroup ord depth configurations.length (propTable details) = .ok group)
    {c : Str × WinConfig × WinProject} (hc : c ∈ configurations) {N raw value type : Str}
    (hN : N ∈ [c!"ConfigurationType", c!"SpectreMitigation", c!"CharacterSet", c!"VCToolsVersion"])
    (htype : configurationType t.type = some type)
    (hraw : aget (msvsAttributesOf w c.2.2 type) N = some raw)
    (hone : ∀ d, convertAttribute d (N, raw) = some (aset d N value)) (hne : value ≠ [])
    (hplain : ∀ g ∈ details, '$' ∉ g.value) (env : Str → Str) :
    evalGroup (activeText toolset c.1 c.2.1) env group N = value := by
  obtain ⟨hsome, _⟩ := projectCalls_globals h hu.converted
  have hdet : details = configurations.flatMap fun c =>
      detailCalls (conditionFor (activeText toolset c.1 c.2.1)) (attrsOf w t c.2.2) := by
    unfold projectCalls at h
    simp only [Option.bind_eq_bind, Option.bind_eq_some_iff, Option.some.injEq, Prod.mk.injEq] at h
    obtain ⟨first, h1, second, h2, hd, _⟩ := h
    obtain ⟨e1, s1⟩ := mapM_some_map _ ([], {}) h1
    rw [← hd, e1, ← List.map_prod_left_eq_zip, List.map_map, List.flatMap_def]
    congr 1
    apply List.map_congr_left
    intro c hc
    obtain ⟨q, hq⟩ := hsome c hc
    simp only [Function.comp_apply, hq, Option.getD_some]
    rw [condition_active]
  have hnames : ∀ c : Str × WinConfig × WinProject, ((detailCalls (conditionFor (activeText toolset c.1 c.2.1)) (attrsOf w t c.2.2)).map
      (·.name)).Sublist [c!"ConfigurationType", c!"SpectreMitigation", c!"CharacterSet", c!"VCToolsVersion"] := by
    intro c
    have h1 : [c!"ConfigurationType", c!"SpectreMitigation", c!"CharacterSet", c!"VCToolsVersion"] =
      [c!"ConfigurationType"] ++ [c!"SpectreMitigation"] ++ [c!"CharacterSet"] ++ [c!"VCToolsVersion"] := rfl
    unfold detailCalls
    rw [h1]
    simp only [List.map_append]
    refine List.Sublist.append (List.Sublist.append (List.Sublist.append ?_ ?_) ?_) ?_
    · exact toList_names _ _ _
    · exact filter_names _ (optFilter_length _ _) _ _
    · exact filter_names _ (optFilter_length _ _) _ _
    · exact filter_names _ (optFilter_length _ _) _ _
  have hcond : ∀ c : Str × WinConfig × WinProject, ∀ g ∈ detailCalls (conditionFor (activeText toolset c.1 c.2.1)) (attrsOf w t c.2.2),
      g.condition = conditionFor (activeText toolset c.1 c.2.1) := by
    intro c g hg
    unfold detailCalls at hg
    simp only [List.mem_append, List.mem_map] at hg
    rcases hg with ((⟨_, _, rfl⟩ | ⟨_, _, rfl⟩) | ⟨_, _, rfl⟩) | ⟨_, _, rfl⟩ <;> rfl
  have hinj : ∀ a b, conditionFor a = conditionFor b → a = b := by
    intro a b hab
    unfold conditionFor at hab
    exact List.append_cancel_left (List.append_cancel_right hab)
  have hnd : ∀ c : Str × WinConfig × WinProject, ((detailCalls (conditionFor (activeText toolset c.1 c.2.1)) (attrsOf w t c.2.2)).map
      (·.name)).Nodup := fun c => (hnames c).nodup (by decide)
  have hmem : ∀ g, g ∈ details ↔ ∃ c ∈ configurations, g ∈ detailCalls
      (conditionFor (activeText toolset c.1 c.2.1)) (attrsOf w t c.2.2) := by
    intro g
    rw [hdet, List.mem_flatMap]
  have hname : ∀ g ∈ details, g.name ∈ [c!"ConfigurationType", c!"SpectreMitigation", c!"CharacterSet", c!"VCToolsVersion"] := by
    intro g hg
    obtain ⟨d, _, hg⟩ := (hmem g).mp hg
    exact (hnames d).subset (List.mem_map_of_mem hg)
  have hclear : ClearProps (configurations.map fun c => activeText toolset c.1 c.2.1) details := by
    refine ⟨?_, ?_, ?_, ?_, ?_, ?_, ?_⟩
    · intro g hg
      obtain ⟨c, hc, hg⟩ := (hmem g).mp hg
      exact ⟨_, List.mem_map_of_mem hc, hcond c g hg⟩
    · intro g hg k hk hgk hn
      obtain ⟨c, hc, hg⟩ := (hmem g).mp hg
      obtain ⟨d, hd, hk⟩ := (hmem k).mp hk
      have hcd := List.inj_on_of_nodup_map hu.apart hc hd
        (hinj _ _ (by rw [← hcond c g hg, ← hcond d k hk, hgk]))
      subst hcd
      rw [List.inj_on_of_nodup_map (hnd c) hg hk hn]
    · intro g hg hcount a ha
      rw [List.mem_map] at ha
      obtain ⟨d, hd, rfl⟩ := ha
      rw [hdet, List.length_map] at hcount
      have hle : ∀ c ∈ configurations, ((detailCalls (conditionFor (activeText toolset c.1 c.2.1))
          (attrsOf w t c.2.2)).filter fun k => decide (k.name = g.name ∧ k.value = g.value)).length ≤ 1 := by
        intro c _
        refine le_trans ?_ (List.nodup_iff_count_le_one.mp (hnd c) g.name)
        rw [List.count_eq_countP, List.countP_map, ← List.countP_eq_length_filter]
        refine List.countP_mono_left fun k _ hk => ?_
        simp only [decide_eq_true_eq] at hk
        simp only [Function.comp_apply, beq_iff_eq]
        exact hk.1
      obtain ⟨k, hk, hk'⟩ := (all_of_count _ _ _ hle).2 hcount d hd
      simp only [decide_eq_true_eq] at hk'
      have hkc := hcond d k hk
      rw [hmem]
      refine ⟨d, hd, ?_⟩
      have hkg : k = ⟨conditionFor (activeText toolset d.1 d.2.1), g.name, g.value⟩ := by
        cases k
        simp only at hkc hk'
        rw [hkc, hk'.1, hk'.2]
      rw [← hkg]
      exact hk
    · intro g hg _ r hr
      rw [propRefs_noDollar (hplain g hg)] at hr
      cases hr
    · intro g hg
      have : ∀ n ∈ [c!"ConfigurationType", c!"SpectreMitigation", c!"CharacterSet", c!"VCToolsVersion"], PlainName n := by
        decide
      exact this _ (hname g hg)
    · intro g hg k hk hf
      have : ∀ n ∈ [c!"ConfigurationType", c!"SpectreMitigation", c!"CharacterSet", c!"VCToolsVersion"],
          ∀ m ∈ [c!"ConfigurationType", c!"SpectreMitigation", c!"CharacterSet", c!"VCToolsVersion"],
          foldName n = foldName m → n = m := by decide
      exact this _ (hname g hg) _ (hname k hk) hf
    · intro g hg _ _ r hr
      rw [propRefs_noDollar (hplain g hg)] at hr
      cases hr
  have hlen : configurations.length = (configurations.map fun c => activeText toolset c.1 c.2.1).length := by simp
  rw [hlen] at hg
  obtain ⟨hval, _⟩ := C87_values hclear (List.mem_map_of_mem hc) ho hd hg env
  have hcall : (⟨conditionFor (activeText toolset c.1 c.2.1), N, value⟩ : PropGiven) ∈ details := by
    rw [hmem]
    refine ⟨c, hc, ?_⟩
    unfold detailCalls
    simp only [List.mem_append, List.mem_map, Option.mem_toList]
    have hget : aget (attrsOf w t c.2.2) N = some value := by
      clear hval
      obtain ⟨q, hq⟩ := hsome c hc
      unfold msbuildAttributes at hq
      rw [Option.bind_eq_some_iff] at hq
      obtain ⟨type', htype', hq⟩ := hq
      rw [htype] at htype'
      cases htype'
      rw [Option.map_eq_some_iff] at hq
      obtain ⟨conv, hconv, hq⟩ := hq
      rw [hu.converted c hc] at hconv
      simp only at hconv
      have hattrs := congrArg Prod.fst hq
      simp only at hattrs
      have hkeys : ∀ (l d d' : List (Str × Str)), (akeys l).Nodup → l.foldlM convertAttribute d = some d' →
          aget l N = some raw → aget d' N = some value := by
        intro l
        have hlater : ∀ (l d d' : List (Str × Str)), N ∉ akeys l →
            l.foldlM convertAttribute d = some d' → aget d' N = aget d N := by
          intro l
          induction l with
          | nil => intro d d' _ h; simp only [List.foldlM_nil, Option.pure_def, Option.some.injEq] at h; rw [h]
          | cons a l ih =>
            intro d d' hk h
            simp only [List.foldlM_cons, Option.bind_eq_bind, Option.bind_eq_some_iff] at h
            obtain ⟨d1, h1, h2⟩ := h
            have hka : a.1 ≠ N := fun he => hk (by simp [akeys, he])
            rw [ih d1 d' (fun hm => hk (by simp [akeys] at hm ⊢; tauto)) h2]
            unfold convertAttribute at h1
            split at h1
            · cases h1; rw [aget_aset, if_neg (Ne.symm hka)]
            · first | rw [if_neg hka] at h1 | skip
              repeat' split at h1
              all_goals first
                | (cases h1; rw [aget_aset, if_neg (Ne.symm hka)])
                | (cases h1; rfl)
                | (rw [Option.map_eq_some_iff] at h1
                   obtain ⟨_, _, rfl⟩ := h1
                   rw [aget_aset, if_neg (Ne.symm hka)])
                | contradiction
        induction l with
        | nil => intro d d' _ _ h; cases h
        | cons a l ih =>
          intro d d' hk h hget
          have hk' : a.1 ∉ akeys l ∧ (akeys l).Nodup := List.nodup_cons.mp hk
          simp only [List.foldlM_cons, Option.bind_eq_bind, Option.bind_eq_some_iff] at h
          obtain ⟨d1, h1, h2⟩ := h
          by_cases hka : a.1 = N
          · rw [hlater l d1 d' (hka ▸ hk'.1) h2]
            have hv : a.2 = raw := by
              obtain ⟨a1, a2⟩ := a
              simp only at hka
              subst hka
              simpa [aget] using hget
            have ha : a = (N, raw) := Prod.ext hka hv
            rw [ha, hone] at h1
            rw [← Option.some.inj h1, aget_aset, if_pos rfl]
          · apply ih d1 d' hk'.2 h2
            obtain ⟨a1, a2⟩ := a
            simp only at hka
            simpa [aget, Ne.symm hka, hka] using hget
      have hconvKind : aget conv N = some value := by
        refine hkeys _ [] conv ?_ hconv ?_
        · unfold msvsAttributesOf
          have hbase : ∀ l : List (Str × Str), (akeys (l.foldl (fun d a => aset d a.1 a.2) ([] : List (Str × Str)))).Nodup := by
            intro l
            have : ∀ (l d : List (Str × Str)), (akeys d).Nodup → (akeys (l.foldl (fun d a => aset d a.1 a.2) d)).Nodup := by
              intro l
              induction l with
              | nil => intro d h; exact h
              | cons a l ih => intro d h; exact ih _ (akeys_aset_nodup h _ _)
            exact this l [] List.nodup_nil
          simp only
          split
          · exact akeys_aset_nodup (akeys_aset_nodup (akeys_aset_nodup (by split <;> [exact akeys_aset_nodup (hbase _) _ _; exact hbase _]) _ _) _ _) _ _
          · exact akeys_aset_nodup (akeys_aset_nodup (akeys_aset_nodup (by split <;> [exact akeys_aset_nodup (hbase _) _ _; exact hbase _]) _ _) _ _) _ _
        · exact hraw
      rw [← hattrs, ← hconvKind]
      have hother : ∀ {n : Str}, n ∉ [c!"ConfigurationType", c!"SpectreMitigation", c!"CharacterSet",
          c!"VCToolsVersion"] → n ≠ N := fun hn he => hn (he ▸ hN)
      have hset : ∀ (d : List (Str × Str)) (k v : Str), k ≠ N →
          aget (aset d k v) N = aget d N := by
        intro d k v hk
        rw [aget_aset, if_neg (Ne.symm hk)]
      have hname' : aget (if c!"TargetName" ∈ akeys conv then conv else aset conv c!"TargetName"
          (t.productPrefix ++ t.productName.getD c!"$(ProjectName)")) N = aget conv N := by
        split
        · rfl
        · exact hset _ _ _ (hother (by decide))
      generalize (if c!"TargetName" ∈ akeys conv then conv else aset conv c!"TargetName"
          (t.productPrefix ++ t.productName.getD c!"$(ProjectName)")) = conv' at hname' ⊢
      rw [← hname']
      have hext' : ∀ e, aget (if c!"TargetExt" ∈ akeys conv' then conv' else aset conv' c!"TargetExt" e)
          N = aget conv' N := by
        intro e
        split
        · rfl
        · exact hset _ _ _ (hother (by decide))
      have hA : ∀ (A : List (Str × Str)), aget A N = aget conv' N →
          aget (if c.2.2.toolExt = [] then (if c.2.2.outputFile = [] then A else aset A c!"TargetPath" (fixPath w c.2.2.outputFile))
            else aset (if c.2.2.outputFile = [] then A else aset A c!"TargetPath" (fixPath w c.2.2.outputFile)) c!"TargetExt" c.2.2.toolExt)
            N = aget conv' N := by
        intro A hA
        split <;> split
        · exact hA
        · rw [hset _ _ _ (hother (by decide)), hA]
        · rw [hset _ _ _ (hother (by decide)), hA]
        · rw [hset _ _ _ (hother (by decide)), hset _ _ _ (hother (by decide)), hA]
      refine (hA _ ?_)
      cases c.2.2.externalDir with
      | none =>
        cases t.productExtension with
        | none => rfl
        | some e => exact hext' _
      | some d =>
        refine (hset _ _ _ (hother (by decide))).trans ?_
        cases t.productExtension with
        | none => rfl
        | some e => exact hext' _
    simp only [List.mem_cons, List.not_mem_nil, or_false] at hN
    rcases hN with rfl | rfl | rfl | rfl
    · exact Or.inl (Or.inl (Or.inl ⟨value, hget, rfl⟩))
    · exact Or.inl (Or.inl (Or.inr ⟨value, by simp [hget, hne], rfl⟩))
    · exact Or.inl (Or.inr ⟨value, by simp [hget, hne], rfl⟩)
    · exact Or.inr ⟨value, by simp [hget, hne], rfl⟩
  rw [hval _ hcall rfl]
  have hdollar := hplain _ hcall
  simp only at hdollar ⊢
  exact expandProps_plain hdollar _

/-- The first group says in every configuration what the target is. -/
theorem C87_kind {w : WinPaths} {t : WinProduct} {toolset dirs : Str}
    {configurations : List (Str × WinConfig × WinProject)} {details globals : List PropGiven}
    (h : projectCalls w t toolset dirs configurations = some (details, globals))
    (hu : UsualTarget t toolset configurations) {group : List PropElement} {depth : Nat}
    {ord : List Str → List Str} (ho : ∀ l, (ord l).Perm l)  (hd : details.length < depth)
    (hg : propertyGroup ord depth configurations.length (propTable details) = .ok group)
    {c : Str × WinConfig × WinProject} (hc : c ∈ configurations) {kind : Str}
    (hkind : (t.type, kind) ∈ projectKinds)
    (hplain : ∀ g ∈ details, '$' ∉ g.value) (env : Str → Str) :
    evalGroup (activeText toolset c.1 c.2.1) env group c!"ConfigurationType" = kind := by
  simp only [projectKinds, List.mem_cons, List.not_mem_nil, or_false, Prod.mk.injEq] at hkind
  have hraw : ∀ type, aget (msvsAttributesOf w c.2.2 type) c!"ConfigurationType" = some type := by
    intro type
    unfold msvsAttributesOf
    simp only
    split <;> simp only [aget_aset] <;> rw [if_neg (by decide), if_neg (by decide), if_pos trivial]
  rcases hkind with ⟨h1, rfl⟩ | ⟨h1, rfl⟩ | ⟨h1, rfl⟩ | ⟨h1, rfl⟩ | ⟨h1, rfl⟩ | ⟨h1, rfl⟩ <;>
  · have htype := congrArg configurationType h1
    exact details_eval h hu ho hd hg hc (by decide) (htype.trans rfl) (hraw _) (fun d => rfl) (by decide)
      hplain env

/-- The other details, as given with the configuration: the character set, by its number or by its
name, and the versions. -/
def detailMeanings : List (Str × Str × Str) :=
  [(c!"CharacterSet", c!"0", c!"MultiByte"), (c!"CharacterSet", c!"1", c!"Unicode"),
   (c!"CharacterSet", c!"2", c!"MultiByte"), (c!"CharacterSet", c!"Unicode", c!"Unicode"),
   (c!"CharacterSet", c!"MultiByte", c!"MultiByte"), (c!"SpectreMitigation", c!"Spectre", c!"Spectre"),
   (c!"SpectreMitigation", c!"false", c!"false")]

/-- The first group gives in every configuration the character set and whether code is protected
against reading ahead, as the configuration says (the last time it says so). -/
theorem C87_details {w : WinPaths} {t : WinProduct} {toolset dirs : Str}
    {configurations : List (Str × WinConfig × WinProject)} {details globals : List PropGiven}
    (h : projectCalls w t toolset dirs configurations = some (details, globals))
    (hu : UsualTarget t toolset configurations) {group : List PropElement} {depth : Nat}
    {ord : List Str → List Str} (ho : ∀ l, (ord l).Perm l)  (hd : details.length < depth)
    (hg : propertyGroup ord depth configurations.length (propTable details) = .ok group)
    {c : Str × WinConfig × WinProject} (hc : c ∈ configurations) {name given value : Str}
    (hmeaning : (name, given, value) ∈ detailMeanings)
    {before after : List (Str × Str)} (hgiven : c.2.2.msvsAttributes = before ++ (name, given) :: after)
    (hlast : name ∉ after.map (·.1))
    (hplain : ∀ g ∈ details, '$' ∉ g.value) (env : Str → Str) :
    evalGroup (activeText toolset c.1 c.2.1) env group name = value := by
  have hbase : aget (c.2.2.msvsAttributes.foldl (fun d a => aset d a.1 a.2) []) name = some given := by
    rw [hgiven, List.foldl_append, List.foldl_cons]
    have : ∀ (l : List (Str × Str)) (d : List (Str × Str)), name ∉ l.map (·.1) →
        aget (l.foldl (fun d a => aset d a.1 a.2) d) name = aget d name := by
      intro l
      induction l with
      | nil => intro d _; rfl
      | cons a l ih =>
        intro d hn
        rw [List.map_cons, List.mem_cons, not_or] at hn
        rw [List.foldl_cons, ih _ hn.2, aget_aset, if_neg hn.1]
    rw [this _ _ hlast, aget_aset, if_pos rfl]
  have hname : name ∈ [c!"CharacterSet", c!"SpectreMitigation"] := by
    have : ∀ m ∈ detailMeanings, m.1 ∈ [c!"CharacterSet", c!"SpectreMitigation"] := by decide
    exact this _ hmeaning
  have hother : ∀ {n : Str}, n ∉ [c!"CharacterSet", c!"SpectreMitigation"] → name ≠ n :=
    fun hn he => hn (he ▸ hname)
  have hraw : ∀ type, aget (msvsAttributesOf w c.2.2 type) name = some given := by
    intro type
    unfold msvsAttributesOf
    simp only
    split <;> simp only [aget_aset] <;>
      rw [if_neg (hother (by decide)), if_neg (hother (by decide)), if_neg (hother (by decide))] <;>
      split
    · rw [aget_aset, if_neg (hother (by decide)), hbase]
    · exact hbase
    · rw [aget_aset, if_neg (hother (by decide)), hbase]
    · exact hbase
  obtain ⟨type, htype⟩ : ∃ type, configurationType t.type = some type := by
    obtain ⟨hsome, _⟩ := projectCalls_globals h hu.converted
    obtain ⟨q, hq⟩ := hsome c hc
    unfold msbuildAttributes at hq
    rw [Option.bind_eq_some_iff] at hq
    obtain ⟨type, htype, _⟩ := hq
    exact ⟨type, htype⟩
  have hstep : (∀ d, convertAttribute d (name, given) = some (aset d name value)) ∧ value ≠ [] ∧
      name ∈ [c!"ConfigurationType", c!"SpectreMitigation", c!"CharacterSet", c!"VCToolsVersion"] := by
    simp only [detailMeanings, List.mem_cons, List.not_mem_nil, or_false, Prod.mk.injEq] at hmeaning
    rcases hmeaning with ⟨rfl, rfl, rfl⟩ | ⟨rfl, rfl, rfl⟩ | ⟨rfl, rfl, rfl⟩ | ⟨rfl, rfl, rfl⟩ |
      ⟨rfl, rfl, rfl⟩ | ⟨rfl, rfl, rfl⟩ | ⟨rfl, rfl, rfl⟩ <;>
      exact ⟨fun d => rfl, by decide, by decide⟩
  exact details_eval h hu ho hd hg hc hstep.2.2 htype (hraw type) hstep.1 hstep.2.1 hplain env

/-! ### Examples -/

/-- Windows paths for the examples: texts are normal already, the build file is one directory up. -/
def propPaths : WinPaths where
  norm := id
  isabs := fun s => startsWith s c!"\\"
  join := fun a b => a ++ c!"\\" ++ b
  base := c!".."

/-- An addon with two configurations, of which one has a setting of its own that the other
refers to. -/
def propAddon : List (Str × WinConfig × WinProject) :=
  [(c!"Release_x64", { platform := c!"x64" },
      { toolExt := c!".node", outputFile := c!"$(OutDir)addon.node",
        settings := [(c!"LinkIncremental", c!"false"), (c!"Extra", c!"$(OutDir)r")] }),
   (c!"Debug_x64", { platform := c!"x64" },
      { toolExt := c!".node", outputFile := c!"$(OutDir)addon.node",
        settings := [(c!"LinkIncremental", c!"false"), (c!"Extra", c!"$(Marker)d"), (c!"Marker", c!"$(Marker)m")] })]

def propProduct : WinProduct where
  type := c!"loadable_module"
  productName := some c!"addon"
  productExtension := some c!"node"

/-- What the two configurations say. -/
def propGlobals : List PropGiven :=
  let d := conditionFor c!"Debug|x64"
  let r := conditionFor c!"Release|x64"
  [⟨d, c!"IntDir", c!"$(Configuration)\\obj\\$(ProjectName)\\"⟩, ⟨d, c!"OutDir", c!"$(SolutionDir)$(Configuration)\\"⟩,
   ⟨d, c!"TargetName", c!"addon"⟩, ⟨d, c!"TargetExt", c!".node"⟩, ⟨d, c!"TargetPath", c!"$(OutDir)addon.node"⟩,
   ⟨d, c!"TargetExt", c!".node"⟩, ⟨d, c!"Extra", c!"$(Marker)d"⟩, ⟨d, c!"LinkIncremental", c!"false"⟩,
   ⟨d, c!"Marker", c!"$(Marker)m"⟩,
   ⟨r, c!"IntDir", c!"$(Configuration)\\obj\\$(ProjectName)\\"⟩, ⟨r, c!"OutDir", c!"$(SolutionDir)$(Configuration)\\"⟩,
   ⟨r, c!"TargetName", c!"addon"⟩, ⟨r, c!"TargetExt", c!".node"⟩, ⟨r, c!"TargetPath", c!"$(OutDir)addon.node"⟩,
   ⟨r, c!"TargetExt", c!".node"⟩, ⟨r, c!"Extra", c!"$(OutDir)r"⟩, ⟨r, c!"LinkIncremental", c!"false"⟩]

theorem propAddon_calls : (projectCalls propPaths propProduct c!"target" [] propAddon).map (·.2) = some propGlobals := by
  decide +kernel

theorem propAddon_some : ∃ details, projectCalls propPaths propProduct c!"target" [] propAddon = some (details, propGlobals) := by
  have h := propAddon_calls
  rw [Option.map_eq_some_iff] at h
  obtain ⟨⟨d, g⟩, h, h'⟩ := h
  simp only at h'
  exact ⟨d, by rw [h, h']⟩

theorem propAddon_usual : UsualTarget propProduct c!"target" propAddon where
  apart := by decide
  converted := by decide
  extension := ⟨c!".node", by decide, by decide⟩
  product := by
    intro e he
    cases he
    decide
  names := by decide +kernel
  unique := by decide
  spelled := by decide +kernel

theorem propAddon_refs : ∀ g ∈ propGlobals, ∀ h ∈ propGlobals, ∀ r ∈ propRefs g.value,
    foldName r = foldName h.name → r = h.name := by decide +kernel

/-- The group of the example: what is used comes first. -/
def propGroup : List PropElement :=
  let d := some (conditionFor c!"Debug|x64")
  let r := some (conditionFor c!"Release|x64")
  [⟨c!"Marker", d, c!"$(Marker)m"⟩, ⟨c!"OutDir", none, c!"$(SolutionDir)$(Configuration)\\"⟩,
   ⟨c!"Extra", d, c!"$(Marker)d"⟩, ⟨c!"Extra", r, c!"$(OutDir)r"⟩,
   ⟨c!"IntDir", none, c!"$(Configuration)\\obj\\$(ProjectName)\\"⟩, ⟨c!"LinkIncremental", none, c!"false"⟩,
   ⟨c!"TargetExt", d, c!".node"⟩, ⟨c!"TargetExt", d, c!".node"⟩, ⟨c!"TargetExt", r, c!".node"⟩,
   ⟨c!"TargetExt", r, c!".node"⟩, ⟨c!"TargetName", none, c!"addon"⟩, ⟨c!"TargetPath", none, c!"$(OutDir)addon.node"⟩]

theorem propAddon_group : propertyGroup id 40 2 (propTable propGlobals) = .ok propGroup := by
  have h : (propertyGroup id 40 2 (propTable propGlobals)).toOption = some propGroup := by decide +kernel
  cases hr : propertyGroup id 40 2 (propTable propGlobals) with
  | error e => rw [hr] at h; cases h
  | ok g => rw [hr] at h; rw [Option.some.inj h]

example : ClearProps [c!"Release|x64", c!"Debug|x64"] propGlobals := by
  obtain ⟨d, h⟩ := propAddon_some
  exact C87_clear h propAddon_usual propAddon_refs

/-- The setting of the debug configuration, with the reference to itself and to another. -/
example (env : Str → Str) : evalGroup c!"Debug|x64" env propGroup c!"Extra" = env c!"Marker" ++ c!"m" ++ c!"d" := by
  obtain ⟨d, h⟩ := propAddon_some
  have hc := C87_clear h propAddon_usual propAddon_refs
  have hv := (C87_values hc (active := c!"Debug|x64") (by decide) (fun _ => List.Perm.refl _) (by decide)
    propAddon_group env).1
  rw [hv ⟨conditionFor c!"Debug|x64", c!"Extra", c!"$(Marker)d"⟩ (by decide) rfl]
  have h1 : ∀ E : Str → Str, expandProps E c!"$(Marker)d" = E c!"Marker" ++ c!"d" := fun E => rfl
  have h2 : ∀ E : Str → Str, expandProps E c!"$(Marker)m" = E c!"Marker" ++ c!"m" := fun E => rfl
  rw [h1, if_neg (by decide), hv ⟨conditionFor c!"Debug|x64", c!"Marker", c!"$(Marker)m"⟩ (by decide) rfl, h2,
    if_pos (by decide)]

/-- Where it is built. -/
example (env : Str → Str) : evalGroup c!"Release|x64" env propGroup c!"OutDir" =
    env c!"SolutionDir" ++ env c!"Configuration" ++ c!"\\" := by
  obtain ⟨d, h⟩ := propAddon_some
  exact (C87_directories h propAddon_usual propAddon_refs (fun _ => List.Perm.refl _) (by decide) propAddon_group
    (fun _ _ => rfl) (c := (c!"Release_x64", { platform := c!"x64" },
      { toolExt := c!".node", outputFile := c!"$(OutDir)addon.node",
        settings := [(c!"LinkIncremental", c!"false"), (c!"Extra", c!"$(OutDir)r")] }))
    (List.mem_cons_self ..) ⟨rfl, rfl, rfl⟩ (by decide) env).1

example : ∃ group, propertyGroup id 40 2 (propTable propGlobals) = .ok group := ⟨_, propAddon_group⟩

example : ∃ nodes, propertyGroup id 9 1 (propTable [⟨conditionFor c!"R|x64", c!"A", c!"$(B)"⟩,
    ⟨conditionFor c!"R|x64", c!"B", c!"$(A)"⟩]) = .error (.cycle nodes) := by
  refine (C87_made (by decide +kernel) (fun _ => List.Perm.refl _) (by decide) 1).2.mpr ⟨c!"A", ?_⟩
  refine Relation.TransGen.tail (.single (b := c!"B") ?_) ?_
  · exact ⟨by decide, by decide +kernel, by decide⟩
  · exact ⟨by decide, by decide +kernel, by decide⟩

/-- The hypotheses of `C87_kind` and the group it speaks of. -/
example : ((projectCalls propPaths propProduct c!"target" [] propAddon).map fun r =>
    (decide (∀ g ∈ r.1, '$' ∉ g.value), (propertyGroup id 9 2 (propTable r.1)).toOption)) =
    some (true, some [⟨c!"ConfigurationType", none, c!"DynamicLibrary"⟩]) := by decide +kernel

/-- The group that `C87_details` speaks of, with two character sets. -/
example : ((projectCalls propPaths propProduct c!"target" []
      [(c!"Release_x64", { platform := c!"x64" }, { msvsAttributes := [(c!"CharacterSet", c!"1")] }),
       (c!"Debug_x64", { platform := c!"x64" }, { msvsAttributes := [(c!"CharacterSet", c!"2")] })]).map fun r =>
    (decide (∀ g ∈ r.1, '$' ∉ g.value), (propertyGroup id 9 2 (propTable r.1)).toOption)) =
    some (true, some [⟨c!"CharacterSet", some (conditionFor c!"Debug|x64"), c!"MultiByte"⟩,
      ⟨c!"CharacterSet", some (conditionFor c!"Release|x64"), c!"Unicode"⟩,
      ⟨c!"ConfigurationType", none, c!"DynamicLibrary"⟩]) := by decide +kernel

/-- The hypotheses of `C87_search_path`, with a Cygwin directory beside the build file. -/
example : fixPath propPaths c!"tools/cygwin" = c!"..\\tools\\" ++ c!"cygwin" ∧ '$' ∉ c!"..\\tools\\" ∧
    replaceStr c!"cygwin\\bin" c!"python_26" (c!"$(MSBuildProjectDirectory)\\" ++ c!"..\\tools\\" ++ c!"cygwin\\bin\\") =
      c!"$(MSBuildProjectDirectory)\\" ++ c!"..\\tools\\" ++ c!"python_26\\" ∧
    ((projectCalls propPaths propProduct c!"target" c!"tools/cygwin" propAddon).map fun r =>
      (decide (∀ g ∈ r.2, ∀ h ∈ r.2, ∀ n ∈ propRefs g.value, foldName n = foldName h.name → n = h.name),
        (propertyGroup id 40 2 (propTable r.2)).toOption.isSome)) = some (true, true) := by
  refine ⟨?_, ?_, ?_, ?_⟩ <;> decide +kernel

/-! ### What goes wrong -/

/-- Two configurations of which each has its own extension: the extension is added twice for
each, so that it is taken for one that both configurations share, and both get the one that
comes last in the alphabet (msvs.py:3215-3227, 3308). -/
theorem C87_extensions :
    ((projectCalls propPaths { propProduct with productExtension := none } c!"target" []
        [(c!"Debug", {}, { toolExt := c!".debug" }), (c!"Release", {}, { toolExt := c!".node" })]).bind fun r =>
      (propertyGroup id 40 2 (propTable r.2)).toOption).map (fun group =>
        (evalGroup c!"Debug|Win32" (fun _ => []) group c!"TargetExt",
          evalGroup c!"Release|Win32" (fun _ => []) group c!"TargetExt")) = some (c!".node", c!".node") := by
  decide +kernel

/-- An output directory given for MSBuild and relative to the build file: the way from the project
to the build file is put in front of it twice, as the attributes are asked for twice and changed
in place (msvs.py:3000, 3137-3140, 3204). -/
theorem C87_output_twice :
    (projectCalls propPaths propProduct c!"target" []
      [(c!"Release", {}, { msbuildAttributes := some [(c!"OutputDirectory", c!"out")] })]).map
        (fun r => r.2.filter fun g => g.name = c!"OutDir") =
      some [⟨conditionFor c!"Release|Win32", c!"OutDir", c!"..\\..\\out\\"⟩] := by decide +kernel

/-- Properties that refer to each other, but not in the same configuration, are refused. -/
theorem C87_circle_between :
    (propertyGroup id 9 2 (propTable [⟨conditionFor c!"Debug|x64", c!"A", c!"$(B)"⟩,
      ⟨conditionFor c!"Debug|x64", c!"B", c!"b"⟩, ⟨conditionFor c!"Release|x64", c!"A", c!"a"⟩,
      ⟨conditionFor c!"Release|x64", c!"B", c!"$(A)"⟩])).toOption = none := by decide +kernel

/-- A reference that is spelled in lower case is not seen: the property is used before it is
given. -/
theorem C87_spelling :
    ∃ group, (propertyGroup id 9 1 (propTable [⟨conditionFor c!"R|x64", c!"OutDir", c!"out"⟩,
        ⟨conditionFor c!"R|x64", c!"Log", c!"$(outdir).log"⟩])).toOption = some group ∧
      evalGroup c!"R|x64" (fun _ => []) group c!"Log" = c!".log" ∧
      evalGroup c!"R|x64" (fun _ => []) group c!"OutDir" = c!"out" := by
  refine ⟨_, rfl, ?_, ?_⟩ <;> decide +kernel

/-- A setting with one of the names the generator uses itself: of the two values the one that
comes last in the alphabet counts. -/
theorem C87_two_values :
    ((projectCalls propPaths propProduct c!"target" []
        [(c!"Release", {}, { settings := [(c!"TargetName", c!"aaa")] })]).bind fun r =>
      (propertyGroup id 40 1 (propTable r.2)).toOption).map (fun group =>
        evalGroup c!"Release|Win32" (fun _ => []) group c!"TargetName") = some c!"addon" := by
  decide +kernel

end Gyp
