import Mathlib.Order.OrderIsoNat
import Mathlib.Data.Prod.Lex
import Verif.Props.Load
/-
C62: the recursive dependency list of a set of targets.
-/
namespace Gyp
open Spec

/-- `d` is listed by target `t` now, or was before static library adjustment. -/
def Targets.Mentions (ts : Targets) (t d : Str) : Prop :=
  ∃ spec, ts.get? t = some spec ∧ (d ∈ spec.deps ∨ d ∈ spec.original.getD [])

theorem mem_setUpdate (s xs : List Str) (x : Str) : x ∈ setUpdate s xs ↔ x ∈ s ∨ x ∈ xs := by
  unfold setUpdate
  induction xs generalizing s with
  | nil => simp
  | cons a xs ih =>
    rw [List.foldl_cons, ih, mem_listAdd, List.mem_cons]
    tauto

theorem setUpdate_nodup {s : List Str} (h : s.Nodup) (xs : List Str) : (setUpdate s xs).Nodup := by
  unfold setUpdate
  induction xs generalizing s with
  | nil => exact h
  | cons a xs ih => exact ih (listAdd_nodup a h)

/-- Invariant of the worklist loop. -/
structure WorkInv (ts : Targets) (roots : List Str) (s : DeepSt) : Prop where
  nodup : s.dependencies.Nodup
  pnodup : s.pending.Nodup
  known : ∀ x ∈ s.dependencies, x ∈ ts.names
  sound : ∀ x, x ∈ s.dependencies ∨ x ∈ s.pending →
    ∃ r ∈ roots, Relation.ReflTransGen ts.Mentions r x
  closed : ∀ x ∈ s.dependencies, ∀ y, ts.Mentions x y → y ∈ s.dependencies ∨ y ∈ s.pending
  roots : ∀ r ∈ roots, r ∈ s.dependencies ∨ r ∈ s.pending

theorem WorkInv.start (ts : Targets) (roots : List Str) :
    WorkInv ts roots ⟨[], setUpdate [] roots⟩ := by
  refine ⟨by simp, setUpdate_nodup (by simp) _, by simp, ?_, by simp, ?_⟩
  · intro x hx
    rcases hx with hx | hx
    · simp at hx
    · exact ⟨x, by simpa [mem_setUpdate] using hx, .refl⟩
  · intro r hr
    exact Or.inr (by simpa [mem_setUpdate] using hr)

theorem get?_mem_names {ts : Targets} {t : Str} {s : TSpec} (h : ts.get? t = some s) :
    t ∈ ts.names := by
  exact (Targets.get?_isSome t).mp (by rw [h]; rfl)

theorem WorkInv.step {ts : Targets} {roots : List Str} {s s' : DeepSt} (h : WorkInv ts roots s)
    (hs : DeepStep ts s s') : WorkInv ts roots s' := by
  cases hs with
  | skip r hr hd =>
    refine ⟨h.nodup, h.pnodup.erase r, h.known, ?_, ?_, ?_⟩
    · rintro x (hx | hx)
      · exact h.sound x (Or.inl hx)
      · exact h.sound x (Or.inr (List.mem_of_mem_erase hx))
    · intro x hx y hy
      rcases h.closed x hx y hy with hy | hy
      · exact Or.inl hy
      · by_cases e : y = r
        · exact Or.inl (e ▸ hd)
        · exact Or.inr ((List.mem_erase_of_ne e).mpr hy)
    · intro x hx
      rcases h.roots x hx with hy | hy
      · exact Or.inl hy
      · by_cases e : x = r
        · exact Or.inl (e ▸ hd)
        · exact Or.inr ((List.mem_erase_of_ne e).mpr hy)
  | visit r spec hr hd hs =>
    have hkeep : ∀ y, y ∈ s.dependencies ∨ y ∈ s.pending → y ∈ listAdd s.dependencies r ∨
        y ∈ setUpdate (setUpdate (s.pending.erase r) spec.deps) (spec.original.getD []) := by
      rintro y (hy | hy)
      · exact Or.inl ((mem_listAdd ..).mpr (Or.inr hy))
      · by_cases e : y = r
        · exact Or.inl ((mem_listAdd ..).mpr (Or.inl e))
        · right
          rw [mem_setUpdate, mem_setUpdate]
          exact Or.inl (Or.inl ((List.mem_erase_of_ne e).mpr hy))
    refine ⟨listAdd_nodup r h.nodup, setUpdate_nodup (setUpdate_nodup (h.pnodup.erase r) _) _,
      ?_, ?_, ?_, fun x hx => hkeep x (h.roots x hx)⟩
    · intro x hx
      rcases (mem_listAdd ..).mp hx with rfl | hx
      · exact get?_mem_names hs
      · exact h.known x hx
    · rintro x (hx | hx)
      · rcases (mem_listAdd ..).mp hx with rfl | hx
        · exact h.sound x (Or.inr hr)
        · exact h.sound x (Or.inl hx)
      · rw [mem_setUpdate, mem_setUpdate] at hx
        obtain ⟨q, hq, hqr⟩ := h.sound r (Or.inr hr)
        rcases hx with (hx | hx) | hx
        · exact h.sound x (Or.inr (List.mem_of_mem_erase hx))
        · exact ⟨q, hq, hqr.tail ⟨spec, hs, Or.inl hx⟩⟩
        · exact ⟨q, hq, hqr.tail ⟨spec, hs, Or.inr hx⟩⟩
    · intro x hx y hy
      rcases (mem_listAdd ..).mp hx with rfl | hx
      · obtain ⟨sp, hsp, hm⟩ := hy
        rw [hs] at hsp
        obtain rfl := Option.some.inj hsp
        right
        rw [mem_setUpdate, mem_setUpdate]
        rcases hm with hm | hm
        · exact Or.inl (Or.inr hm)
        · exact Or.inr hm
      · exact hkeep y (h.closed x hx y hy)

theorem WorkInv.run {ts : Targets} {roots : List Str} {s : DeepSt}
    (h : Relation.ReflTransGen (DeepStep ts) ⟨[], setUpdate [] roots⟩ s) : WorkInv ts roots s := by
  induction h with
  | refl => exact WorkInv.start ts roots
  | tail _ hs ih => exact ih.step hs

/-- C62: whatever order the sets are popped in, the answer lists, once each, exactly the
targets reachable from the roots through dependencies (current or original), without
the roots. -/
theorem C62_result (targets : Targets) (roots result : List Str)
    (h : DeepDependencyTargets targets roots result) :
    result.Nodup ∧ ∀ x, x ∈ result ↔
      x ∉ roots ∧ ∃ r ∈ roots, Relation.ReflTransGen targets.Mentions r x := by
  obtain ⟨s, hrun, hp, order, hperm, rfl⟩ := h
  have inv := WorkInv.run hrun
  refine ⟨(hperm.nodup_iff.mpr inv.nodup).filter _, fun x => ?_⟩
  rw [List.mem_filter]
  simp only [decide_not, Bool.not_eq_eq_eq_not, Bool.not_true, decide_eq_false_iff_not]
  rw [hperm.mem_iff, and_comm]
  refine and_congr_right' ⟨fun hx => inv.sound x (Or.inl hx), ?_⟩
  rintro ⟨r, hr, hreach⟩
  have hr' : r ∈ s.dependencies := by simpa [hp] using inv.roots r hr
  induction hreach with
  | refl => exact hr'
  | tail _ e ih => simpa [hp] using inv.closed _ ih _ e

/-- C62: no order of popping makes the loop run forever, cyclic dependencies included. -/
theorem C62_terminates (targets : Targets) (roots : List Str) :
    ¬ ∃ f : ℕ → DeepSt, f 0 = ⟨[], setUpdate [] roots⟩ ∧ ∀ n, DeepStep targets (f n) (f (n + 1)) := by
  rintro ⟨f, h0, hf⟩
  have inv : ∀ n, WorkInv targets roots (f n) := by
    intro n
    induction n with
    | zero => rw [h0]; exact WorkInv.start targets roots
    | succ n ih => exact ih.step (hf n)
  let m : ℕ → ℕ ×ₗ ℕ := fun n =>
    toLex (targets.names.length - (f n).dependencies.length, (f n).pending.length)
  have hlt : ∀ n, m (n + 1) < m n := by
    intro n
    have hb := (inv (n + 1)).nodup
    have hs := (List.subperm_of_subset (inv (n + 1)).nodup (inv (n + 1)).known).length_le
    have hstep := hf n
    rw [Prod.Lex.toLex_lt_toLex]
    generalize f n = a at hstep
    generalize f (n + 1) = b at hstep hs
    cases hstep with
    | skip r hr hd =>
      right
      refine ⟨rfl, ?_⟩
      simp only [List.length_erase_of_mem hr]
      have := List.length_pos_of_mem hr
      omega
    | visit r spec hr hd hsp =>
      left
      rw [listAdd_of_notMem hd] at hs ⊢
      simp only [List.length_append, List.length_singleton] at hs ⊢
      omega
  exact not_strictAnti_of_wellFoundedLT m (strictAnti_nat_of_succ_lt hlt)

/-- C62: the loop never gets stuck when every target mentioned is in the table, so a
result always exists. -/
theorem C62_exists (targets : Targets) (roots : List Str)
    (hroots : ∀ r ∈ roots, r ∈ targets.names)
    (hknown : ∀ t d, targets.Mentions t d → d ∈ targets.names) :
    ∃ result, DeepDependencyTargets targets roots result := by
  by_contra hno
  have hpend : ∀ s, Relation.ReflTransGen (DeepStep targets) ⟨[], setUpdate [] roots⟩ s →
      ∃ s', DeepStep targets s s' := by
    intro s hrun
    have hp : s.pending ≠ [] := fun hp => hno ⟨_, s, hrun, hp, s.dependencies, .refl _, rfl⟩
    obtain ⟨r, hr⟩ := List.exists_mem_of_ne_nil _ hp
    by_cases hd : r ∈ s.dependencies
    · exact ⟨_, .skip s r hr hd⟩
    · have hrn : r ∈ targets.names := by
        obtain ⟨q, hq, hqr⟩ := (WorkInv.run hrun).sound r (Or.inr hr)
        cases hqr with
        | refl => exact hroots _ hq
        | tail _ e => exact hknown _ _ e
      obtain ⟨spec, hs⟩ := Option.isSome_iff_exists.mp ((Targets.get?_isSome r).mpr hrn)
      exact ⟨_, .visit s r spec hr hd hs⟩
  classical
  let St := { s : DeepSt // Relation.ReflTransGen (DeepStep targets) ⟨[], setUpdate [] roots⟩ s }
  let next : St → St := fun s => ⟨(hpend s.1 s.2).choose, s.2.tail (hpend s.1 s.2).choose_spec⟩
  refine C62_terminates targets roots ⟨fun n => (next^[n] ⟨_, .refl⟩).1, rfl, fun n => ?_⟩
  show DeepStep targets _ (next^[n + 1] ⟨_, .refl⟩).1
  rw [Function.iterate_succ_apply']
  exact (hpend _ (next^[n] ⟨_, .refl⟩).2).choose_spec

/-- C62: all targets of a build file, first those it defines in their listed order, then
everything else they need, each once. -/
theorem C62_all_targets (target_list : List Str) (targets : Targets) (build_file : Str)
    (result : List Str) (h : AllTargets target_list targets build_file result) :
    ∃ deps, result = target_list.filter (fun t => BuildFile t = some build_file) ++ deps ∧
      deps.Nodup ∧ ∀ x, x ∈ deps ↔
        ¬ (x ∈ target_list ∧ BuildFile x = some build_file) ∧
        ∃ r ∈ target_list, BuildFile r = some build_file ∧
          Relation.ReflTransGen targets.Mentions r x := by
  obtain ⟨deps, hd, rfl⟩ := h
  refine ⟨deps, rfl, (C62_result _ _ _ hd).1, fun x => ?_⟩
  rw [(C62_result _ _ _ hd).2 x]
  unfold BuildFileTargets
  simp only [List.mem_filter, decide_eq_true_eq, and_assoc]

/-- A cyclic pair hanging off a root. -/
def deepCyclic : Targets :=
  [(c!"a.gyp:r#target", { type := c!"none", dependencies := some [c!"a.gyp:x#target"] }),
   (c!"a.gyp:x#target", { type := c!"none", original := some [c!"a.gyp:y#target"] }),
   (c!"a.gyp:y#target", { type := c!"none", dependencies := some [c!"a.gyp:x#target"] })]

example : DeepDependencyTargets deepCyclic [c!"a.gyp:r#target"]
    [c!"a.gyp:y#target", c!"a.gyp:x#target"] := by
  refine ⟨⟨[c!"a.gyp:r#target", c!"a.gyp:x#target", c!"a.gyp:y#target"], []⟩, ?_, rfl,
    [c!"a.gyp:r#target", c!"a.gyp:y#target", c!"a.gyp:x#target"], by decide, by decide⟩
  refine .head (.visit _ c!"a.gyp:r#target" _ (by decide) (by decide) rfl) ?_
  refine .head (.visit _ c!"a.gyp:x#target" _ (by decide) (by decide) rfl) ?_
  refine .head (.visit _ c!"a.gyp:y#target" _ (by decide) (by decide) rfl) ?_
  refine .head (.skip _ c!"a.gyp:x#target" (by decide) (by decide)) ?_
  exact .refl

end Gyp
