import Verif.Model.Configurations
import Verif.Props.MergeDicts
import Mathlib.Logic.Relation
/-
C25: configurations inherit from their parents, then from the target.
-/
namespace Gyp
open Spec

/-- Configuration `x` lists `p` in its `inherit_from`. -/
def Inherits (configs : Dict) (x p : Str) : Prop :=
  ∃ d v ps, configs.get? x = some (.dict d) ∧ Dict.get? d c!"inherit_from" = some v ∧
    inheritList v = some ps ∧ p ∈ ps

/-- Merge one configuration's own settings; the `abstract` mark is dropped. -/
def mergeOwn (c : MergeCtx) (configs : Dict) (new : Dict) (x : Str) : Except ConfigErr Dict :=
  match configs.get? x with
  | some (.dict d) =>
    match MergeDicts c new d with
    | .ok r => .ok (r.del c!"abstract")
    | .error e => .error (.merge e)
  | some _ => .error .badType
  | none => .error (.unknown x)

/-- A path without repetition along the relation, from `a` to `b`. -/
def SimplePath (R : Str → Str → Prop) (a b : Str) (path : List Str) : Prop :=
  path.IsChain R ∧ path.Nodup ∧ path.head? = some a ∧ path.getLast? = some b

theorem simplePath_exists {R : Str → Str → Prop} {a b : Str} (h : Relation.ReflTransGen R a b) :
    ∃ path, SimplePath R a b path := by
  induction h with
  | refl => exact ⟨[a], by simp [SimplePath]⟩
  | @tail b' x _ e ih =>
    obtain ⟨path, hc, hn, hh, hl⟩ := ih
    by_cases hx : x ∈ path
    · obtain ⟨pre, post, rfl⟩ := List.append_of_mem hx
      refine ⟨pre ++ [x], ?_, ?_, ?_, by simp⟩
      · rw [show pre ++ x :: post = (pre ++ [x]) ++ post by simp] at hc
        exact (List.isChain_append.mp hc).1
      · rw [show pre ++ x :: post = (pre ++ [x]) ++ post by simp] at hn
        exact (List.nodup_append.mp hn).1
      · cases pre with
        | nil => simpa using hh
        | cons y ys => simpa using hh
    · refine ⟨path ++ [x], ?_, ?_, ?_, by simp⟩
      · rw [List.isChain_append]
        refine ⟨hc, by simp, ?_⟩
        intro u hu v hv
        rw [hl] at hu
        cases hu
        simp at hv
        subst hv
        exact e
      · rw [List.nodup_append]
        refine ⟨hn, by simp, ?_⟩
        intro u hu v hv e'
        rw [List.mem_singleton] at hv
        exact hx (hv ▸ e' ▸ hu)
      · cases path with
        | nil => simp at hh
        | cons y ys => simpa using hh

/-- Every parent of an element stands before it. -/
def ParentsFirst (R : Str → Str → Prop) (order : List Str) : Prop :=
  ∀ pre x post, order = pre ++ x :: post → ∀ p, R x p → p ∈ pre

theorem ParentsFirst.append {R : Str → Str → Prop} {a b : List Str} (ha : ParentsFirst R a)
    (hb : ParentsFirst R b) : ParentsFirst R (a ++ b) := by
  intro pre x post h p hp
  rcases List.append_eq_append_iff.mp h with ⟨m, rfl, h2⟩ | ⟨m, h1, h2⟩
  · exact List.mem_append_right _ (hb m x post h2 p hp)
  · cases m with
    | nil =>
      simp at h1 h2
      subst h1
      exact List.mem_append_right a (hb [] x post (by simpa using h2.symm) p hp) |> fun h => by simpa using h
    | cons y m =>
      simp only [List.cons_append, List.cons.injEq] at h2
      obtain ⟨rfl, -⟩ := h2
      exact ha pre x m h1 p hp

theorem ParentsFirst.flatten {R : Str → Str → Prop} {ls : List (List Str)}
    (h : ∀ l ∈ ls, ParentsFirst R l) : ParentsFirst R ls.flatten := by
  induction ls with
  | nil => intro pre x post h; simp at h
  | cons l ls ih =>
    rw [List.flatten_cons]
    exact (h l (by simp)).append (ih fun x hx => h x (by simp [hx]))

/-- What is known about the order in which configurations are merged. -/
structure OrderFacts (R : Str → Str → Prop) (visited : List Str) (x : Str) (order : List Str) :
    Prop where
  sound : ∀ y ∈ order, Relation.ReflTransGen R x y
  complete : ∀ y path, SimplePath R x y path → (∀ z ∈ path, z ∉ visited) → y ∈ order
  last : x ∉ visited → ∃ pre, order = pre ++ [x]
  first : (∀ v ∈ visited, Relation.TransGen R v x) → (∀ y, ¬ Relation.TransGen R y y) →
    ParentsFirst R order

theorem configParents_mem {d : Dict} {ps : List Str} (h : configParents d = .ok ps) (p : Str) :
    p ∈ ps ↔ ∃ v qs, Dict.get? d c!"inherit_from" = some v ∧ inheritList v = some qs ∧ p ∈ qs := by
  unfold configParents at h
  cases hg : Dict.get? d c!"inherit_from" with
  | none =>
    rw [hg] at h
    cases h
    simp
  | some v =>
    rw [hg] at h
    simp only at h
    cases hi : inheritList v with
    | none => rw [hi] at h; cases h
    | some qs =>
      rw [hi] at h
      cases h
      simp [hi]

/-- A successful run merges the configurations of some well-behaved order. -/
theorem mergeConfig_order (c : MergeCtx) (configs : Dict) (depth : Nat) :
    ∀ (new : Dict) (x : Str) (visited : List Str) (r : Dict),
      MergeConfigWithInheritance c configs depth new x visited = .ok r →
      ∃ order, OrderFacts (Inherits configs) visited x order ∧
        order.foldlM (mergeOwn c configs) new = .ok r := by
  induction depth with
  | zero => intro new x visited r h; unfold MergeConfigWithInheritance at h; cases h
  | succ depth ih =>
    intro new x visited r h
    unfold MergeConfigWithInheritance at h
    by_cases hv : x ∈ visited
    · rw [if_pos hv] at h
      cases h
      refine ⟨[], ⟨by simp, ?_, fun h => absurd hv h, ?_⟩, rfl⟩
      · intro y path hp hav
        exact absurd hv (hav x (List.mem_of_mem_head? hp.2.2.1))
      · intro _ _ pre y post h; simp at h
    · rw [if_neg hv] at h
      cases hd : configs.get? x with
      | none => unfold configDict at h; rw [hd] at h; cases h
      | some dv =>
      cases dv with
      | dict d =>
        unfold configDict at h
        rw [hd] at h
        simp only at h
        cases hps : configParents d with
        | error e => rw [hps] at h; cases h
        | ok ps =>
          rw [hps] at h
          simp only at h
          have hinh : ∀ p, Inherits configs x p ↔ p ∈ ps := by
            intro p
            rw [configParents_mem hps]
            constructor
            · rintro ⟨d', v, qs, h1, h2, h3, h4⟩
              rw [hd] at h1
              cases h1
              exact ⟨v, qs, h2, h3, h4⟩
            · rintro ⟨v, qs, h2, h3, h4⟩
              exact ⟨d, v, qs, hd, h2, h3, h4⟩
          have loop : ∀ (qs : List Str) (new new' : Dict),
              qs.foldlM (fun new parent =>
                MergeConfigWithInheritance c configs depth new parent (visited ++ [x])) new =
                .ok new' →
              ∃ orders : List (List Str),
                List.Forall₂ (OrderFacts (Inherits configs) (visited ++ [x])) qs orders ∧
                orders.flatten.foldlM (mergeOwn c configs) new = .ok new' := by
            intro qs
            induction qs with
            | nil => intro new new' h; cases h; exact ⟨[], .nil, rfl⟩
            | cons q qs ihq =>
              intro new new' h
              rw [List.foldlM_cons] at h
              cases hq : MergeConfigWithInheritance c configs depth new q (visited ++ [x]) with
              | error e => rw [hq] at h; cases h
              | ok n1 =>
                rw [hq] at h
                obtain ⟨o, ho, e1⟩ := ih new q (visited ++ [x]) n1 hq
                obtain ⟨os, hos, e2⟩ := ihq n1 new' h
                refine ⟨o :: os, .cons ho hos, ?_⟩
                rw [List.flatten_cons, List.foldlM_append, e1]
                exact e2
          cases hf : ps.foldlM (fun new parent =>
              MergeConfigWithInheritance c configs depth new parent (visited ++ [x])) new with
          | error e => rw [hf] at h; cases h
          | ok n1 =>
            rw [hf] at h
            simp only at h
            obtain ⟨orders, hos, e1⟩ := loop ps new n1 hf
            refine ⟨orders.flatten ++ [x], ⟨?_, ?_, fun _ => ⟨_, rfl⟩, ?_⟩, ?_⟩
            · intro y hy
              rcases List.mem_append.mp hy with hy | hy
              · obtain ⟨o, ho, hyo⟩ := List.mem_flatten.mp hy
                obtain ⟨i, hi, rfl⟩ := List.getElem_of_mem ho
                have hf := hos.get (by rw [hos.length_eq]; exact hi) hi
                refine Relation.ReflTransGen.head ((hinh _).mpr ?_) (hf.sound y hyo)
                exact List.getElem_mem _
              · rw [List.mem_singleton.mp hy]
            · intro y path hp hav
              obtain ⟨hc, hn, hh, hl⟩ := hp
              cases path with
              | nil => simp at hh
              | cons a path =>
                simp only [List.head?_cons, Option.some.injEq] at hh
                subst hh
                cases path with
                | nil =>
                  simp only [List.getLast?_singleton, Option.some.injEq] at hl
                  simp [hl]
                | cons b path =>
                  rw [List.isChain_cons_cons] at hc
                  obtain ⟨hab, hc⟩ := hc
                  obtain ⟨i, hi, hbi⟩ := List.getElem_of_mem ((hinh b).mp hab)
                  have hi' : i < orders.length := by rw [← hos.length_eq]; exact hi
                  have hf := hos.get hi hi'
                  apply List.mem_append_left
                  rw [List.mem_flatten]
                  refine ⟨orders[i], List.getElem_mem _, ?_⟩
                  refine hf.complete y (b :: path) ⟨hc, (List.nodup_cons.mp hn).2, ?_, ?_⟩ ?_
                  · simp [← hbi]
                  · rwa [List.getLast?_cons_cons] at hl
                  · intro z hz hzv
                    rcases List.mem_append.mp hzv with hzv | hzv
                    · exact hav z (List.mem_cons_of_mem _ hz) hzv
                    · rw [List.mem_singleton.mp hzv] at hz
                      exact (List.nodup_cons.mp hn).1 hz
            · intro hvis hac
              have hnot : ∀ p ∈ ps, p ∉ visited ++ [x] := by
                intro p hp hpv
                have hxp := (hinh p).mpr hp
                rcases List.mem_append.mp hpv with hpv | hpv
                · exact hac p ((hvis p hpv).tail hxp)
                · rw [List.mem_singleton.mp hpv] at hxp
                  exact hac x (.single hxp)
              have hsub : ParentsFirst (Inherits configs) orders.flatten := by
                apply ParentsFirst.flatten
                intro o ho
                obtain ⟨i, hi, rfl⟩ := List.getElem_of_mem ho
                have hi' : i < ps.length := by rw [hos.length_eq]; exact hi
                have hf := hos.get hi' hi
                refine hf.first ?_ hac
                intro v hv
                have hxp : Inherits configs x (ps.get ⟨i, hi'⟩) := (hinh _).mpr (List.getElem_mem _)
                rcases List.mem_append.mp hv with hv | hv
                · exact (hvis v hv).tail hxp
                · rw [List.mem_singleton.mp hv]; exact .single hxp
              intro pre y post he p hp
              rcases List.append_eq_append_iff.mp he with ⟨m, h1, h2⟩ | ⟨m, h1, h2⟩
              · cases m with
                | nil =>
                  simp only [List.append_nil] at h1
                  simp only [List.nil_append, List.cons.injEq] at h2
                  obtain ⟨rfl, -⟩ := h2
                  subst h1
                  -- `y` is `x` itself: every parent's order ends with the parent
                  obtain ⟨i, hi, hpi⟩ := List.getElem_of_mem ((hinh p).mp hp)
                  have hi' : i < orders.length := by rw [← hos.length_eq]; exact hi
                  have hf := hos.get hi hi'
                  obtain ⟨o, ho⟩ := hf.last (hnot _ (List.getElem_mem _))
                  rw [List.mem_flatten]
                  refine ⟨orders[i], List.getElem_mem _, ?_⟩
                  have ho' : orders[i] = o ++ [ps[i]] := ho
                  rw [ho', hpi]; simp
                | cons z m =>
                  simp at h2
              · cases m with
                | nil =>
                  simp only [List.append_nil] at h1
                  simp only [List.nil_append, List.cons.injEq] at h2
                  obtain ⟨rfl, -⟩ := h2
                  subst h1
                  obtain ⟨i, hi, hpi⟩ := List.getElem_of_mem ((hinh p).mp hp)
                  have hi' : i < orders.length := by rw [← hos.length_eq]; exact hi
                  have hf := hos.get hi hi'
                  obtain ⟨o, ho⟩ := hf.last (hnot _ (List.getElem_mem _))
                  rw [List.mem_flatten]
                  refine ⟨orders[i], List.getElem_mem _, ?_⟩
                  have ho' : orders[i] = o ++ [ps[i]] := ho
                  rw [ho', hpi]; simp
                | cons z m =>
                  simp only [List.cons_append, List.cons.injEq] at h2
                  obtain ⟨rfl, -⟩ := h2
                  exact hsub pre y m h1 p hp
            · rw [List.foldlM_append, e1]
              show List.foldlM (mergeOwn c configs) n1 [x] = _
              rw [List.foldlM_cons]
              unfold mergeOwn
              rw [hd]
              simp only
              cases hm : MergeDicts c n1 d with
              | error e => rw [hm] at h; cases h
              | ok n2 =>
                rw [hm] at h
                cases h
                rfl
      | _ => unfold configDict at h; rw [hd] at h; cases h

/-- C25: a configuration is the result of merging, one after the other, its ancestors
and itself: exactly these, itself last, and (unless the inheritance is circular) every
parent before its child. -/
theorem C25_inheritance (c : MergeCtx) (configs new : Dict) (x : Str) (depth : Nat) (r : Dict)
    (h : MergeConfigWithInheritance c configs depth new x [] = .ok r) :
    ∃ order, (∀ y, y ∈ order ↔ Relation.ReflTransGen (Inherits configs) x y) ∧
      (∃ pre, order = pre ++ [x]) ∧
      ((∀ y, ¬ Relation.TransGen (Inherits configs) y y) → ParentsFirst (Inherits configs) order) ∧
      order.foldlM (mergeOwn c configs) new = .ok r := by
  obtain ⟨order, hf, hr⟩ := mergeConfig_order c configs depth new x [] r h
  refine ⟨order, fun y => ⟨hf.sound y, fun hy => ?_⟩, hf.last (by simp), hf.first (by simp), hr⟩
  obtain ⟨path, hp⟩ := simplePath_exists hy
  exact hf.complete y path hp (by simp)

/-- C25: the recursion ends, circular inheritance included. -/
theorem C25_terminates (c : MergeCtx) (configs new : Dict) (x : Str) :
    MergeConfigWithInheritance c configs (configs.length + 1) new x [] ≠ .error .depth := by
  have key : ∀ depth (new : Dict) (x : Str) (visited : List Str), visited.Nodup →
      (∀ v ∈ visited, v ∈ configs.keys) → configs.length < depth + visited.length →
      MergeConfigWithInheritance c configs depth new x visited ≠ .error .depth := by
    intro depth
    induction depth with
    | zero =>
      intro new x visited hn hs hl
      have := (List.subperm_of_subset hn hs).length_le
      simp only [Dict.keys, List.length_map] at this
      omega
    | succ depth ih =>
      intro new x visited hn hs hl h
      unfold MergeConfigWithInheritance at h
      by_cases hv : x ∈ visited
      · rw [if_pos hv] at h; cases h
      · rw [if_neg hv] at h
        unfold configDict at h
        cases hd : configs.get? x with
        | none => rw [hd] at h; cases h
        | some dv =>
        rw [hd] at h
        have hk : x ∈ configs.keys := by rw [← Dict.get?_isSome, hd]; rfl
        cases dv with
        | dict d =>
          simp only at h
          cases hps : configParents d with
          | error e =>
            rw [hps] at h
            simp only [Except.error.injEq] at h
            unfold configParents at hps
            split at hps
            · cases hps
            · split at hps
              · cases hps
              · rw [h] at hps; cases hps
          | ok ps =>
            rw [hps] at h
            simp only at h
            have loop : ∀ (qs : List Str) (new : Dict),
                qs.foldlM (fun new parent =>
                  MergeConfigWithInheritance c configs depth new parent (visited ++ [x])) new ≠
                  .error .depth := by
              intro qs
              induction qs with
              | nil => intro new h; cases h
              | cons q qs ihq =>
                intro new h
                rw [List.foldlM_cons] at h
                cases hq : MergeConfigWithInheritance c configs depth new q (visited ++ [x]) with
                | error e =>
                  rw [hq] at h
                  have : e = .depth := by simpa [bind, Except.bind] using h
                  subst this
                  refine ih new q (visited ++ [x]) ?_ ?_ ?_ hq
                  · rw [List.nodup_append]
                    refine ⟨hn, by simp, ?_⟩
                    intro a ha b hb e
                    rw [List.mem_singleton] at hb
                    exact hv (hb ▸ e ▸ ha)
                  · intro v hvm
                    rcases List.mem_append.mp hvm with hvm | hvm
                    · exact hs v hvm
                    · rw [List.mem_singleton.mp hvm]; exact hk
                  · simp; omega
                | ok n1 =>
                  rw [hq] at h
                  exact ihq n1 h
            cases hf : ps.foldlM (fun new parent =>
                MergeConfigWithInheritance c configs depth new parent (visited ++ [x])) new with
            | error e =>
              rw [hf] at h
              simp only [Except.error.injEq] at h
              exact loop ps new (h ▸ hf)
            | ok n1 =>
              rw [hf] at h
              simp only at h
              split at h <;> cases h
        | _ => cases h
  exact key _ new x [] (by simp) (by simp) (by simp)

/-- Without circular inheritance the visited list plays no part. -/
theorem mergeConfig_visited (c : MergeCtx) (configs : Dict)
    (hac : ∀ y, ¬ Relation.TransGen (Inherits configs) y y) (depth : Nat) :
    ∀ (new : Dict) (x : Str) (v v' : List Str),
      (∀ y ∈ v, Relation.TransGen (Inherits configs) y x) →
      (∀ y ∈ v', Relation.TransGen (Inherits configs) y x) →
      MergeConfigWithInheritance c configs depth new x v =
        MergeConfigWithInheritance c configs depth new x v' := by
  induction depth with
  | zero => intros; rfl
  | succ depth ih =>
    intro new x v v' h h'
    have hx : x ∉ v := fun hm => hac x (h x hm)
    have hx' : x ∉ v' := fun hm => hac x (h' x hm)
    unfold MergeConfigWithInheritance
    rw [if_neg hx, if_neg hx']
    cases hd : configDict configs x with
    | error e => rfl
    | ok d =>
      simp only
      cases hps : configParents d with
      | error e => rfl
      | ok ps =>
        simp only
        have hinh : ∀ p ∈ ps, Inherits configs x p := by
          intro p hp
          unfold configDict at hd
          cases hg : configs.get? x with
          | none => rw [hg] at hd; cases hd
          | some dv =>
            rw [hg] at hd
            cases dv with
            | dict d' =>
              cases hd
              obtain ⟨w, qs, h1, h2, h3⟩ := (configParents_mem hps p).mp hp
              exact ⟨d, w, qs, hg, h1, h2, h3⟩
            | _ => cases hd
        have loop : ∀ (qs : List Str) (new : Dict), (∀ p ∈ qs, Inherits configs x p) →
            qs.foldlM (fun new parent =>
              MergeConfigWithInheritance c configs depth new parent (v ++ [x])) new =
            qs.foldlM (fun new parent =>
              MergeConfigWithInheritance c configs depth new parent (v' ++ [x])) new := by
          intro qs
          induction qs with
          | nil => intros; rfl
          | cons q qs ihq =>
            intro new hq
            rw [List.foldlM_cons, List.foldlM_cons]
            have hxq := hq q (by simp)
            have hvv : ∀ w : List Str, (∀ y ∈ w, Relation.TransGen (Inherits configs) y x) →
                ∀ y ∈ w ++ [x], Relation.TransGen (Inherits configs) y q := by
              intro w hw y hy
              rcases List.mem_append.mp hy with hy | hy
              · exact (hw y hy).tail hxq
              · rw [List.mem_singleton.mp hy]; exact .single hxq
            rw [ih new q _ _ (hvv v h) (hvv v' h')]
            congr 1
            funext n
            exact ihq n fun p hp => hq p (by simp [hp])
        rw [loop ps new hinh]

/-- C25: unless the inheritance is circular, a configuration is its parents, completely
resolved and merged in listed order, followed by its own settings. -/
theorem C25_listed (c : MergeCtx) (configs new d v : Dict) (x : Str) (ps : List Str) (depth : Nat)
    (hac : ∀ y, ¬ Relation.TransGen (Inherits configs) y y)
    (hd : configs.get? x = some (.dict d))
    (hps : Dict.get? d c!"inherit_from" = none ∧ ps = [] ∨
      ∃ v, Dict.get? d c!"inherit_from" = some v ∧ inheritList v = some ps) :
    MergeConfigWithInheritance c configs (depth + 1) new x [] =
      (ps.foldlM (fun n p => MergeConfigWithInheritance c configs depth n p []) new >>=
        fun n => mergeOwn c configs n x) := by
  have hp : configParents d = .ok ps := by
    unfold configParents
    rcases hps with ⟨h1, rfl⟩ | ⟨w, h1, h2⟩
    · rw [h1]
    · rw [h1]; simp only; rw [h2]
  have hinh : ∀ p ∈ ps, Inherits configs x p := by
    intro p hpm
    obtain ⟨w, qs, h1, h2, h3⟩ := (configParents_mem hp p).mp hpm
    exact ⟨d, w, qs, hd, h1, h2, h3⟩
  have loop : ∀ (qs : List Str) (new : Dict), (∀ p ∈ qs, Inherits configs x p) →
      qs.foldlM (fun new parent =>
        MergeConfigWithInheritance c configs depth new parent ([] ++ [x])) new =
      qs.foldlM (fun new parent =>
        MergeConfigWithInheritance c configs depth new parent []) new := by
    intro qs
    induction qs with
    | nil => intros; rfl
    | cons q qs ihq =>
      intro new hq
      rw [List.foldlM_cons, List.foldlM_cons]
      rw [mergeConfig_visited c configs hac depth new q ([] ++ [x]) [] ?_ (by simp)]
      · congr 1
        funext n
        exact ihq n fun p hp => hq p (by simp [hp])
      · intro y hy
        simp only [List.nil_append, List.mem_singleton] at hy
        rw [hy]
        exact .single (hq q (by simp))
  conv_lhs => unfold MergeConfigWithInheritance
  rw [if_neg (by simp)]
  unfold configDict
  rw [hd]
  simp only
  rw [hp]
  simp only
  rw [loop ps new hinh]
  cases ps.foldlM (fun n p => MergeConfigWithInheritance c configs depth n p []) new with
  | error e => rfl
  | ok n =>
    show _ = mergeOwn c configs n x
    unfold mergeOwn
    rw [hd]
    simp only
    cases MergeDicts c n d <;> rfl

/-! ### SetUpConfigurations -/

/-- A configuration is marked abstract. -/
def MarkedAbstract (v : Val) : Prop :=
  ∃ d a, v = .dict d ∧ Dict.get? d c!"abstract" = some a ∧ a.truthy = true

theorem isAbstract_true {v : Val} (h : isAbstract v = .ok true) : MarkedAbstract v := by
  cases v with
  | dict d =>
    simp only [isAbstract, Except.ok.injEq] at h
    cases hg : Dict.get? d c!"abstract" with
    | none => rw [hg] at h; simp at h
    | some a => rw [hg] at h; exact ⟨d, a, rfl, hg, by simpa using h⟩
  | _ => cases h

theorem isAbstract_false {v : Val} (h : isAbstract v = .ok false) : ¬ MarkedAbstract v := by
  rintro ⟨d, a, rfl, h1, h2⟩
  simp [isAbstract, h1, h2] at h

theorem concreteOf_ok : ∀ {configs r : Dict}, concreteOf configs = .ok r →
    r.Sublist configs ∧ ∀ e, e ∈ r ↔ e ∈ configs ∧ ¬ MarkedAbstract e.2
  | [], r, h => by cases h; simp
  | e :: configs, r, h => by
    unfold concreteOf at h
    cases ha : isAbstract e.2 with
    | error x => rw [ha] at h; cases h
    | ok b =>
      cases hc : concreteOf configs with
      | error x => rw [ha, hc] at h; cases h
      | ok rest =>
        rw [ha, hc] at h
        obtain ⟨hs, hm⟩ := concreteOf_ok hc
        cases b with
        | true =>
          cases h
          refine ⟨hs.cons _, fun x => ?_⟩
          rw [hm]
          have := isAbstract_true ha
          constructor
          · rintro ⟨h1, h2⟩; exact ⟨List.mem_cons_of_mem _ h1, h2⟩
          · rintro ⟨h1, h2⟩
            rcases List.mem_cons.mp h1 with rfl | h1
            · exact absurd this h2
            · exact ⟨h1, h2⟩
        | false =>
          cases h
          refine ⟨hs.cons_cons _, fun x => ?_⟩
          rw [List.mem_cons, hm, List.mem_cons]
          have := isAbstract_false ha
          constructor
          · rintro (rfl | ⟨h1, h2⟩)
            · exact ⟨.inl rfl, this⟩
            · exact ⟨.inr h1, h2⟩
          · rintro ⟨rfl | h1, h2⟩
            · exact .inl rfl
            · exact .inr ⟨h1, h2⟩

theorem mergeConfig_abstract {c : MergeCtx} {configs : Dict} {depth : Nat} {new r : Dict} {x : Str}
    (h : MergeConfigWithInheritance c configs depth new x [] = .ok r) :
    r.get? c!"abstract" = none := by
  cases depth with
  | zero => unfold MergeConfigWithInheritance at h; cases h
  | succ depth =>
    unfold MergeConfigWithInheritance at h
    rw [if_neg (by simp)] at h
    cases hd : configDict configs x with
    | error e => rw [hd] at h; cases h
    | ok d =>
      rw [hd] at h
      simp only at h
      cases hps : configParents d with
      | error e => rw [hps] at h; cases h
      | ok ps =>
        rw [hps] at h
        simp only at h
        split at h
        · cases h
        · split at h
          · cases h
          · cases h
            exact Dict.get?_del_self _ _

/-- The loop over the configurations. -/
theorem setUpOne_loop (c : MergeCtx) (nonConfig : List Str) (target configs : Dict) :
    ∀ (l merged m : Dict), l.keys.Nodup → merged.keys.Nodup →
      l.foldlM (setUpOne c nonConfig target configs) merged = .ok m →
      m.keys.Nodup ∧
      (∀ e ∈ l, ¬ MarkedAbstract e.2 → ∃ new,
        MergeConfigWithInheritance c configs (configs.length + 1)
          (target.filter fun kv => keyBase kv.1 ∉ nonConfig) e.1 [] = .ok new ∧
        m.get? e.1 = some (.dict new)) ∧
      (∀ k, (∀ v, (k, v) ∈ l → MarkedAbstract v) → m.get? k = merged.get? k) := by
  intro l
  induction l with
  | nil => intro merged m _ hn h; cases h; simp [hn]
  | cons e l ih =>
    intro merged m hl hn h
    rw [List.foldlM_cons] at h
    have hl' : Dict.keys l |>.Nodup := (List.nodup_cons.mp hl).2
    have he : e.1 ∉ Dict.keys l := (List.nodup_cons.mp hl).1
    have hel : ∀ v, (e.1, v) ∉ l := fun v hv => he (List.mem_map.mpr ⟨_, hv, rfl⟩)
    have hs : ∀ m1, setUpOne c nonConfig target configs merged e = .ok m1 →
        (MarkedAbstract e.2 ∧ m1 = merged) ∨ (¬ MarkedAbstract e.2 ∧ ∃ new,
          MergeConfigWithInheritance c configs (configs.length + 1)
          (target.filter fun kv => keyBase kv.1 ∉ nonConfig) e.1 [] = .ok new ∧
          m1 = merged.set e.1 (.dict new)) := by
      intro m1 h1
      unfold setUpOne at h1
      cases ha : isAbstract e.2 with
      | error x => rw [ha] at h1; cases h1
      | ok b =>
        rw [ha] at h1
        cases b with
        | true => cases h1; exact .inl ⟨isAbstract_true ha, rfl⟩
        | false =>
          right
          refine ⟨isAbstract_false ha, ?_⟩
          cases hm : MergeConfigWithInheritance c configs (configs.length + 1)
              (target.filter fun kv => keyBase kv.1 ∉ nonConfig) e.1 [] with
          | error x =>
            simp only [bind, Except.bind, hm, pure, Except.pure] at h1
            simp at h1
          | ok new =>
            simp only [bind, Except.bind, hm, pure, Except.pure] at h1
            simp at h1
            exact ⟨new, rfl, h1.symm⟩
    cases h1 : setUpOne c nonConfig target configs merged e with
    | error x => rw [h1] at h; cases h
    | ok m1 =>
      rw [h1] at h
      rcases hs m1 h1 with ⟨ha, rfl⟩ | ⟨ha, new, hnew, rfl⟩
      · obtain ⟨i1, i2, i3⟩ := ih _ m hl' hn h
        refine ⟨i1, ?_, ?_⟩
        · intro e' he' hna
          rcases List.mem_cons.mp he' with rfl | he'
          · exact absurd ha hna
          · exact i2 e' he' hna
        · intro k hk
          exact i3 k fun v hv => hk v (List.mem_cons_of_mem _ hv)
      · obtain ⟨i1, i2, i3⟩ := ih _ m hl' (Dict.set_nodup hn _ _) h
        refine ⟨i1, ?_, ?_⟩
        · intro e' he' hna
          rcases List.mem_cons.mp he' with rfl | he'
          · refine ⟨new, hnew, ?_⟩
            rw [i3 e'.1 (fun v hv => absurd hv (hel v)), Dict.get?_set_self]
          · exact i2 e' he' hna
        · intro k hk
          rw [i3 k fun v hv => hk v (List.mem_cons_of_mem _ hv)]
          apply Dict.get?_set_ne
          rintro rfl
          exact ha (hk e.2 (by simp))

theorem foldl_set_get? : ∀ (m d : Dict) (k : Str), m.keys.Nodup →
    Dict.get? (m.foldl (fun d e => Dict.set d e.1 e.2) d) k = (m.get? k).or (d.get? k)
  | [], d, k, _ => by simp [Dict.get?]
  | (k', v) :: m, d, k, hn => by
    have hn' : Dict.keys m |>.Nodup := (List.nodup_cons.mp hn).2
    have hk' : k' ∉ Dict.keys m := (List.nodup_cons.mp hn).1
    rw [List.foldl_cons, foldl_set_get? m _ k hn']
    simp only [Dict.get?]
    by_cases h : k' = k
    · subst h
      rw [if_pos rfl, Dict.get?_set_self, (Dict.get?_eq_none m k').mpr hk']
      rfl
    · rw [if_neg h, Dict.get?_set_ne _ _ (Ne.symm h)]

theorem foldl_set_keys : ∀ (m d : Dict), (∀ k ∈ m.keys, k ∈ d.keys) →
    Dict.keys (m.foldl (fun d e => Dict.set d e.1 e.2) d) = d.keys
  | [], d, _ => rfl
  | e :: m, d, h => by
    have hk : (d.set e.1 e.2).keys = d.keys := by
      rw [Dict.keys_set, if_pos (h e.1 (by simp [Dict.keys]))]
    rw [List.foldl_cons, foldl_set_keys m _ ?_, hk]
    intro k hkm
    rw [hk]
    exact h k (by
      show k ∈ (e :: m).map Prod.fst
      exact List.mem_cons_of_mem _ hkm)

theorem filter_set_of_not (p : Str × Val → Bool) (k : Str) (v : Val) (h : ∀ v, p (k, v) = false) :
    ∀ d : Dict, (Dict.set d k v).filter p = d.filter p
  | [] => by simp [Dict.set, h]
  | (k', v') :: d => by
    unfold Dict.set
    by_cases hk : k' = k
    · subst hk
      rw [if_pos rfl, List.filter_cons_of_neg (by simp [h]), List.filter_cons_of_neg (by simp [h])]
    · rw [if_neg hk, List.filter_cons, List.filter_cons, filter_set_of_not p k v h d]

theorem get?_filter_key (p : Str → Bool) (k : Str) :
    ∀ d : Dict, Dict.get? (d.filter fun kv => p kv.1) k = if p k then d.get? k else none
  | [] => by simp [Dict.get?]
  | (k', v') :: d => by
    rw [List.filter_cons]
    by_cases hk : k' = k
    · subst hk
      by_cases hp : p k' = true
      · simp [hp, Dict.get?]
      · simp [hp, get?_filter_key p k' d]
    · by_cases hp : p k' = true
      · simp [hp, Dict.get?, hk, get?_filter_key p k d]
      · simp [hp, Dict.get?, hk, get?_filter_key p k d]

theorem checkConfigs_ok (invalid : List Str) : ∀ (configs : Dict),
    checkConfigs invalid configs = .ok () →
    ∀ e ∈ configs, ∀ d, e.2 = .dict d → ∀ key ∈ Dict.keys d, key ∉ invalid
  | [], _ => by simp
  | e :: configs, h => by
    unfold checkConfigs at h
    cases hx : checkConfig invalid e with
    | error x => rw [hx] at h; cases h
    | ok u =>
      rw [hx] at h
      intro e' he' d hd key hkey hbad
      rcases List.mem_cons.mp he' with rfl | he'
      · unfold checkConfig at hx
        rw [hd] at hx
        simp only at hx
        cases hf : (Dict.keys d).find? (· ∈ invalid) with
        | some k => rw [hf] at hx; cases hx
        | none =>
          rw [List.find?_eq_none] at hf
          exact hf key hkey (by simpa using hbad)
      · exact checkConfigs_ok invalid configs h e' he' d hd key hkey hbad

theorem defaultConfiguration_ok {configs r : Dict} {name : Str}
    (h : defaultConfiguration configs = .ok name) (hr : concreteOf configs = .ok r) :
    name ∈ r.keys ∧ ∀ n ∈ r.keys, strLe name n = true := by
  unfold defaultConfiguration at h
  rw [hr] at h
  simp only [bind, Except.bind] at h
  have hp := pySorted_perm strLe r.keys
  have hs := pySorted_pairwise strLe strLe_total strLe_trans r.keys
  cases hl : pySorted strLe r.keys with
  | nil => rw [hl] at h; cases h
  | cons a l =>
    rw [hl] at h hp hs
    cases h
    refine ⟨hp.mem_iff.mp (by simp), fun n hn => ?_⟩
    rcases List.mem_cons.mp (hp.mem_iff.mpr hn) with rfl | hm
    · rcases strLe_total n n with h | h <;> exact h
    · exact (List.pairwise_cons.mp hs).1 n hm

/-- C25: what `SetUpConfigurations` leaves in the target.  The configurations are the
concrete ones of the original table, in their order; each is the target's own settings
with the configuration and its ancestors merged in; no configuration holds a forbidden
key; all settings that went into the configurations are gone from the target, the
others are untouched; and the default is the one given or the first concrete name. -/
theorem C25_setup (cwd paths nonConfig invalid : List Str) (target : Str) (td td' : Dict)
    (hc : c!"configurations" ∈ nonConfig) (hd : c!"default_configuration" ∈ nonConfig)
    (h : SetUpConfigurations cwd paths nonConfig invalid target td = .ok td') :
    ∃ configs final : Dict,
      (td.get? c!"configurations" = some (.dict configs) ∨
        td.get? c!"configurations" = none ∧ configs = [(c!"Default", .dict [])]) ∧
      ((Dict.keys configs).Nodup →
        td'.get? c!"configurations" = some (.dict final) ∧
        (Dict.keys final).Sublist (Dict.keys configs) ∧
        (∀ k, k ∈ Dict.keys final ↔ ∃ v, configs.get? k = some v ∧ ¬ MarkedAbstract v) ∧
        (∀ k v, final.get? k = some v → ∃ new, v = .dict new ∧
          MergeConfigWithInheritance
            ⟨cwd, paths, (BuildFile target).getD [], (BuildFile target).getD []⟩ configs
            (configs.length + 1) (td.filter fun kv => keyBase kv.1 ∉ nonConfig) k [] = .ok new ∧
          Dict.get? new c!"abstract" = none ∧ ∀ key ∈ Dict.keys new, key ∉ invalid) ∧
        (∀ v, td.get? c!"default_configuration" = some v →
          td'.get? c!"default_configuration" = some v) ∧
        (td.get? c!"default_configuration" = none → ∃ name ∈ Dict.keys final,
          td'.get? c!"default_configuration" = some (.str name) ∧
          ∀ n ∈ Dict.keys final, strLe name n = true)) ∧
      (∀ key, key ≠ c!"configurations" → key ≠ c!"default_configuration" →
        td'.get? key = if keyBase key ∈ nonConfig then td.get? key else none) := by
  have hkc : keyBase c!"configurations" = c!"configurations" := rfl
  have hkd : keyBase c!"default_configuration" = c!"default_configuration" := rfl
  have hne : c!"default_configuration" ≠ c!"configurations" := by decide
  unfold SetUpConfigurations at h
  -- the first default
  obtain ⟨td1, e1, k1, f1⟩ : ∃ td1 : Dict, td1 = (if (td.get? c!"configurations").isNone then
      td.set c!"configurations" (.dict [(c!"Default", .dict [])]) else td) ∧
      (∀ key, key ≠ c!"configurations" → td1.get? key = td.get? key) ∧
      (td1.filter fun kv => keyBase kv.1 ∉ nonConfig) =
        td.filter fun kv => keyBase kv.1 ∉ nonConfig := by
    refine ⟨_, rfl, ?_, ?_⟩
    · intro key hk
      split
      · exact Dict.get?_set_ne _ _ hk
      · rfl
    · split
      · apply filter_set_of_not
        intro v
        simp [hkc, hc]
      · rfl
  simp only [← e1] at h
  cases hcf : td1.get? c!"configurations" with
  | none => rw [hcf] at h; cases h
  | some cv =>
  rw [hcf] at h
  cases cv with
  | dict configs =>
    simp only [bind, Except.bind] at h
    -- the default configuration
    obtain ⟨td2, e2, k2, f2, d2⟩ : ∃ td2 : Dict,
        withDefault configs td1 = .ok td2 ∧
        (∀ key, key ≠ c!"default_configuration" → td2.get? key = td1.get? key) ∧
        (td2.filter fun kv => keyBase kv.1 ∉ nonConfig) =
          (td1.filter fun kv => keyBase kv.1 ∉ nonConfig) ∧
        ((∃ v, td1.get? c!"default_configuration" = some v ∧
          td2.get? c!"default_configuration" = some v) ∨
         (td1.get? c!"default_configuration" = none ∧ ∃ name,
          defaultConfiguration configs = .ok name ∧
          td2.get? c!"default_configuration" = some (.str name))) := by
      cases hdc : td1.get? c!"default_configuration" with
      | some v =>
        exact ⟨td1, by simp [withDefault, hdc], fun _ _ => rfl, rfl, .inl ⟨v, rfl, hdc⟩⟩
      | none =>
        cases hdef : defaultConfiguration configs with
        | error x =>
          have : withDefault configs td1 = .error x := by simp [withDefault, hdc, hdef]
          rw [this] at h; cases h
        | ok name =>
          refine ⟨td1.set c!"default_configuration" (.str name), by simp [withDefault, hdc, hdef],
            fun key hk => Dict.get?_set_ne _ _ hk, ?_, .inr ⟨rfl, name, rfl, Dict.get?_set_self _ _ _⟩⟩
          apply filter_set_of_not
          intro v
          simp [hkd, hd]
    rw [e2] at h
    simp only at h
    cases hm : configs.foldlM (setUpOne ⟨cwd, paths, (BuildFile target).getD [],
        (BuildFile target).getD []⟩ nonConfig td2 configs) [] with
    | error x => rw [hm] at h; cases h
    | ok merged =>
      rw [hm] at h
      simp only at h
      cases hcc : concreteOf (merged.foldl (fun d e => Dict.set d e.1 e.2) configs) with
      | error x => rw [hcc] at h; cases h
      | ok final =>
        rw [hcc] at h
        simp only at h
        cases hck : checkConfigs invalid final with
        | error x => rw [hck] at h; cases h
        | ok u =>
          rw [hck] at h
          simp only [pure, Except.pure, Except.ok.injEq] at h
          subst h
          refine ⟨configs, final, ?_, ?_, ?_⟩
          · cases hg : td.get? c!"configurations" with
            | none =>
              rw [hg] at e1
              simp only [Option.isNone_none, if_true] at e1
              rw [e1, Dict.get?_set_self] at hcf
              cases hcf
              exact .inr ⟨rfl, rfl⟩
            | some v =>
              rw [hg] at e1
              simp at e1
              rw [e1, hg] at hcf
              cases hcf
              exact .inl rfl
          · intro hnd
            obtain ⟨i1, i2, i3⟩ := setUpOne_loop _ _ _ _ configs [] merged hnd (by simp [Dict.keys]) hm
            have hsub : ∀ k ∈ Dict.keys merged, k ∈ Dict.keys configs := by
              intro k hk
              by_contra hnk
              have := i3 k (fun v hv => absurd (List.mem_map.mpr ⟨_, hv, rfl⟩) hnk)
              rw [← Dict.get?_isSome, this] at hk
              simp [Dict.get?] at hk
            have hkeys := foldl_set_keys merged configs hsub
            obtain ⟨c1, c2⟩ := concreteOf_ok hcc
            have hnd2 : (Dict.keys (merged.foldl (fun d e => Dict.set d e.1 e.2) configs)).Nodup := by
              rw [hkeys]; exact hnd
            have hget := fun k => foldl_set_get? merged configs k i1
            have hfn : (Dict.keys final).Nodup := hnd2.sublist (c1.map Prod.fst)
            -- a concrete entry
            have hconc : ∀ k v, Dict.get? configs k = some v → ¬ MarkedAbstract v → ∃ new,
                MergeConfigWithInheritance ⟨cwd, paths, (BuildFile target).getD [],
                  (BuildFile target).getD []⟩ configs (configs.length + 1)
                  (td.filter fun kv => keyBase kv.1 ∉ nonConfig) k [] = .ok new ∧
                Dict.get? (merged.foldl (fun d e => Dict.set d e.1 e.2) configs) k =
                  some (.dict new) := by
              intro k v hv ha
              obtain ⟨new, n1, n2⟩ := i2 (k, v) (Dict.get?_some_mem hv) ha
              refine ⟨new, ?_, ?_⟩
              · rw [f2, f1] at n1; exact n1
              · rw [hget, n2]; rfl
            have habs : ∀ k v, Dict.get? configs k = some v → MarkedAbstract v →
                Dict.get? (merged.foldl (fun d e => Dict.set d e.1 e.2) configs) k = some v := by
              intro k v hv ha
              have := i3 k (fun v' hv' => by
                have := Dict.get?_of_mem hnd hv'
                rw [hv] at this
                cases this
                exact ha)
              rw [hget, this, hv]
              rfl
            have hchar : ∀ k, k ∈ Dict.keys final ↔ ∃ v, Dict.get? configs k = some v ∧ ¬ MarkedAbstract v := by
              intro k
              constructor
              · intro hk
                obtain ⟨⟨k', v⟩, hmem, rfl⟩ := List.mem_map.mp hk
                obtain ⟨m1, m2⟩ := (c2 _).mp hmem
                have hg2 := Dict.get?_of_mem hnd2 m1
                have : k' ∈ Dict.keys configs := by
                  rw [← hkeys, ← Dict.get?_isSome, hg2]; rfl
                rw [← Dict.get?_isSome, Option.isSome_iff_exists] at this
                obtain ⟨v0, hv0⟩ := this
                refine ⟨v0, hv0, fun ha => ?_⟩
                have := habs k' v0 hv0 ha
                rw [hg2] at this
                cases this
                exact m2 ha
              · rintro ⟨v, hv, ha⟩
                obtain ⟨new, n1, n2⟩ := hconc k v hv ha
                refine List.mem_map.mpr ⟨(k, .dict new), (c2 _).mpr ⟨Dict.get?_some_mem n2, ?_⟩, rfl⟩
                rintro ⟨d, a, hda, hga, -⟩
                cases hda
                rw [mergeConfig_abstract n1] at hga
                cases hga
            have hdeffin : ∀ name, defaultConfiguration configs = .ok name →
                name ∈ Dict.keys final ∧ ∀ n ∈ Dict.keys final, strLe name n = true := by
              intro name hdef
              cases hr : concreteOf configs with
              | error x =>
                unfold defaultConfiguration at hdef
                rw [hr] at hdef
                cases hdef
              | ok r =>
                obtain ⟨d1, d2⟩ := defaultConfiguration_ok hdef hr
                have hrk : ∀ k, k ∈ Dict.keys r ↔ k ∈ Dict.keys final := by
                  intro k
                  rw [hchar]
                  obtain ⟨_, hrm⟩ := concreteOf_ok hr
                  constructor
                  · intro hk
                    obtain ⟨⟨k', v⟩, hmem, rfl⟩ := List.mem_map.mp hk
                    exact ⟨v, Dict.get?_of_mem hnd ((hrm _).mp hmem).1, ((hrm _).mp hmem).2⟩
                  · rintro ⟨v, hv, ha⟩
                    exact List.mem_map.mpr ⟨(k, v), (hrm _).mpr ⟨Dict.get?_some_mem hv, ha⟩, rfl⟩
                exact ⟨(hrk _).mp d1, fun n hn => d2 n ((hrk n).mpr hn)⟩
            refine ⟨?_, ?_, hchar, ?_, ?_, ?_⟩
            · rw [get?_filter_key (fun k => decide (keyBase k ∈ nonConfig))]
              simp [hkc, hc, Dict.get?_set_self]
            · rw [← hkeys]; exact c1.map Prod.fst
            · intro k v hv
              have hk : k ∈ Dict.keys final := by rw [← Dict.get?_isSome, hv]; rfl
              obtain ⟨v0, hv0, ha⟩ := (hchar k).mp hk
              obtain ⟨new, n1, n2⟩ := hconc k v0 hv0 ha
              have hmem := (c2 _).mp (Dict.get?_some_mem hv)
              have := Dict.get?_of_mem hnd2 hmem.1
              rw [n2] at this
              cases this
              exact ⟨new, rfl, n1, mergeConfig_abstract n1,
                checkConfigs_ok invalid final hck (k, .dict new) (Dict.get?_some_mem hv) new rfl⟩
            · intro v hv
              rw [get?_filter_key (fun k => decide (keyBase k ∈ nonConfig))]
              simp only [hkd, hd, decide_true, if_true]
              rw [Dict.get?_set_ne _ _ hne]
              rcases d2 with ⟨w, w1, w2⟩ | ⟨w1, _⟩
              · rw [k1 _ hne, hv] at w1
                cases w1
                exact w2
              · rw [k1 _ hne, hv] at w1; cases w1
            · intro hv
              rcases d2 with ⟨w, w1, w2⟩ | ⟨_, name, n1, n2⟩
              · rw [k1 _ hne, hv] at w1; cases w1
              · obtain ⟨m1, m2⟩ := hdeffin name n1
                refine ⟨name, m1, ?_, m2⟩
                rw [get?_filter_key (fun k => decide (keyBase k ∈ nonConfig))]
                simp only [hkd, hd, decide_true, if_true]
                rw [Dict.get?_set_ne _ _ hne]
                exact n2
          · intro key h1 h2
            rw [get?_filter_key (fun k => decide (keyBase k ∈ nonConfig))]
            simp only [decide_eq_true_eq]
            rw [Dict.get?_set_ne _ _ h1, k2 _ h2, k1 _ h1]
  | _ => cases h

/-- A diamond: `Debug` and `Extra` inherit from `Base`, `All` from both. -/
def diamondConfigs : Dict :=
  [(c!"Base", .dict [(c!"abstract", .int 1), (c!"defines", .list [.str c!"B"]), (c!"o", .str c!"b")]),
   (c!"Debug", .dict [(c!"inherit_from", .list [.str c!"Base"]), (c!"o", .str c!"d")]),
   (c!"Extra", .dict [(c!"inherit_from", .list [.str c!"Base"]), (c!"defines", .list [.str c!"E"])]),
   (c!"All", .dict [(c!"inherit_from", .list [.str c!"Debug", .str c!"Extra"])])]

/-- Values later in the order win; note that `Base`, merged a second time for `Extra`,
overrides the value `Debug` gave. -/
example : (MergeConfigWithInheritance ⟨[], [], c!"f", c!"f"⟩ diamondConfigs 5 [] c!"All" []).map
    (fun d => (d.get? c!"o", d.get? c!"defines", d.get? c!"abstract")) =
    .ok (some (.str c!"b"), some (.list [.str c!"B", .str c!"E"]), none) := rfl

/-- Circular inheritance. -/
example : (MergeConfigWithInheritance ⟨[], [], c!"f", c!"f"⟩
    [(c!"A", .dict [(c!"inherit_from", .list [.str c!"B"]), (c!"v", .str c!"a")]),
     (c!"B", .dict [(c!"inherit_from", .list [.str c!"A"]), (c!"v", .str c!"b")])]
    3 [] c!"A" []).map (fun d => d.get? c!"v") = .ok (some (.str c!"a")) := rfl

/-- The settings of a target: `cflags` moves into the configurations, `sources` stays. -/
example : (SetUpConfigurations [] basePathSections baseNonConfigurationKeys
    invalidConfigurationKeys c!"a.gyp:t#target"
    [(c!"sources", .list [.str c!"a.c"]), (c!"cflags", .list [.str c!"-O"]),
     (c!"configurations", .dict diamondConfigs)]).map (fun d => (d.keys,
       match d.get? c!"configurations" with
       | some (.dict cs) => (Dict.keys cs, match Dict.get? cs c!"Debug" with
         | some (.dict x) => (Dict.get? x c!"cflags", Dict.get? x c!"o")
         | _ => (none, none))
       | _ => ([], none, none),
       d.get? c!"default_configuration")) =
    .ok ([c!"sources", c!"configurations", c!"default_configuration"],
      ([c!"Debug", c!"Extra", c!"All"], some (.list [.str c!"-O"]), some (.str c!"d")),
      some (.str c!"All")) := rfl

end Gyp
