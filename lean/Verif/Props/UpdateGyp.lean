import Verif.Spec.UpdateGyp
import Verif.Proofs.Path
/-
C57: extraction of a downloaded archive.
-/
namespace Gyp
open Spec

theorem commonPrefixText_eq (a b : Str) : commonPrefixText a b = a ↔ a <+: b := by
  induction a generalizing b with
  | nil => simp [commonPrefixText]
  | cons x xs ih =>
    cases b with
    | nil => simp [commonPrefixText]
    | cons y ys =>
      unfold commonPrefixText
      by_cases h : x = y
      · subst h
        rw [if_pos rfl, List.cons_prefix_cons]
        simp [ih]
      · rw [if_neg h, List.cons_prefix_cons]
        simp [h]

/-- A text without slashes is a prefix of joined names iff it is a prefix of the
first one. -/
theorem prefix_join_first {d : Str} (hd : '/' ∉ d) (t : Str) (ts : List Str) :
    d <+: joinWith ['/'] (t :: ts) ↔ d <+: t := by
  cases ts with
  | nil => rfl
  | cons u us =>
    have e : joinWith ['/'] (t :: u :: us) = t ++ '/' :: joinWith ['/'] (u :: us) := by simp [joinWith]
    rw [e]
    generalize joinWith ['/'] (u :: us) = rest
    constructor
    · intro h
      induction d generalizing t with
      | nil => simp
      | cons x xs ih =>
        cases t with
        | nil =>
          rw [List.nil_append, List.cons_prefix_cons] at h
          exact absurd h.1 (fun e => hd (by simp [e]))
        | cons y ys =>
          rw [List.cons_append, List.cons_prefix_cons] at h
          rw [List.cons_prefix_cons]
          exact ⟨h.1, ih (fun hm => hd (by simp [hm])) ys (by simp [joinWith]) h.2⟩
    · intro h
      exact h.trans (List.prefix_append _ _)

theorem prefix_join_slash {d : Str} (hd : '/' ∉ d) (rest : Str) (t : Str) (ht : '/' ∉ t) (ts : List Str) :
    (d ++ '/' :: rest) <+: joinWith ['/'] (t :: ts) ↔ d = t ∧ ts ≠ [] ∧ rest <+: joinWith ['/'] ts := by
  cases ts with
  | nil =>
    simp only [joinWith, ne_eq, not_true, false_and, and_false, iff_false]
    rintro ⟨r, hr⟩
    apply ht
    rw [← hr]
    simp
  | cons u us =>
    have e : joinWith ['/'] (t :: u :: us) = t ++ '/' :: joinWith ['/'] (u :: us) := by simp [joinWith]
    rw [e]
    generalize joinWith ['/'] (u :: us) = more
    simp only [ne_eq, reduceCtorEq, not_false_eq_true, true_and]
    induction d generalizing t with
    | nil =>
      cases t with
      | nil => simp
      | cons y ys =>
        simp only [List.nil_append, List.cons_append, List.cons_prefix_cons]
        have hy : ¬ '/' = y := fun e' => ht (by rw [← e']; simp)
        simp [hy]
    | cons x xs ih =>
      cases t with
      | nil =>
        simp only [List.nil_append, List.cons_append, List.cons_prefix_cons]
        have hx : ¬ x = '/' := fun e => hd (by simp [e])
        simp [hx]
      | cons y ys =>
        simp only [List.cons_append, List.cons_prefix_cons]
        have := ih (fun hm => hd (by simp [hm])) ys (fun hm => ht (by simp [hm])) (by simp [joinWith])
        rw [List.cons.injEq, and_assoc]
        exact and_congr_right fun _ => this

/-- The character-wise test on joined names: the last name may be longer. -/
theorem prefix_join {D T : List Str} (hD : ∀ c ∈ D, validName c) (hT : ∀ c ∈ T, validName c) :
    joinWith ['/'] D <+: joinWith ['/'] T ↔
      D = [] ∨ ∃ R name extra B, D = R ++ [name] ∧ T = R ++ (name ++ extra) :: B := by
  induction D generalizing T with
  | nil => simp [joinWith]
  | cons d ds ih =>
    have hd := hD d (by simp)
    cases T with
    | nil =>
      constructor
      · intro h
        have := List.prefix_nil.mp (show joinWith ['/'] (d :: ds) <+: [] from h)
        cases ds with
        | nil => exact absurd this hd.1
        | cons e es => simp [joinWith] at this
      · rintro (h | ⟨R, name, extra, B, _, h⟩)
        · cases h
        · simp at h
    | cons t ts =>
      have ht := hT t (by simp)
      cases ds with
      | nil =>
        rw [show joinWith ['/'] [d] = d from rfl, prefix_join_first hd.2.1]
        constructor
        · rintro ⟨extra, rfl⟩
          exact Or.inr ⟨[], d, extra, ts, rfl, rfl⟩
        · rintro (h | ⟨R, name, extra, B, h1, h2⟩)
          · cases h
          · cases R with
            | nil =>
              simp only [List.nil_append, List.cons.injEq, and_true] at h1 h2
              rw [h1, h2.1]
              exact List.prefix_append _ _
            | cons r rs => simp at h1
      | cons e es =>
        rw [show joinWith ['/'] (d :: e :: es) = d ++ '/' :: joinWith ['/'] (e :: es) from by simp [joinWith],
          prefix_join_slash hd.2.1 _ t ht.2.1]
        constructor
        · rintro ⟨rfl, _, h⟩
          rcases (ih (fun c hc => hD c (by simp [hc])) (fun c hc => hT c (by simp [hc]))).mp h with h | ⟨R, n, x, B, h1, h2⟩
          · cases h
          · exact Or.inr ⟨d :: R, n, x, B, by rw [h1]; rfl, by rw [h2]; rfl⟩
        · rintro (h | ⟨R, n, x, B, h1, h2⟩)
          · cases h
          · cases R with
            | nil => simp at h1
            | cons r rs =>
              simp only [List.cons_append, List.cons.injEq] at h1 h2
              refine ⟨h1.1.trans h2.1.symm, ?_, ?_⟩
              · rw [h2.2]; simp
              · exact (ih (fun c hc => hD c (by simp [hc])) (fun c hc => hT c (by simp [hc]))).mpr
                  (Or.inr ⟨rs, n, x, B, h1.2, h2.2⟩)

theorem within_iff {cwd : List Str} (h : ∀ c ∈ cwd, validName c) {dir target : Str}
    (hd : startsWith dir c!"//" = false) :
    (isWithinDirectory cwd dir target = true →
      Inside (walk cwd.reverse dir) (walk cwd.reverse target) ∨
      InLongerSibling (walk cwd.reverse dir) (walk cwd.reverse target)) ∧
    (startsWith target c!"//" = false →
      (Inside (walk cwd.reverse dir) (walk cwd.reverse target) ∨
       InLongerSibling (walk cwd.reverse dir) (walk cwd.reverse target)) →
      isWithinDirectory cwd dir target = true) := by
  obtain ⟨n, hn, hn1, e1, v1⟩ := abspath_shape h dir
  obtain ⟨m, hm, hm1, e2, v2⟩ := abspath_shape h target
  have hn' := hn1 hd
  subst hn'
  generalize walk cwd.reverse dir = D at *
  generalize walk cwd.reverse target = T at *
  have vD : ∀ c ∈ D.reverse, validName c := fun c hc => v1 c (List.mem_reverse.mp hc)
  have vT : ∀ c ∈ T.reverse, validName c := fun c hc => v2 c (List.mem_reverse.mp hc)
  have key : (D.reverse = [] ∨ ∃ R name extra B, D.reverse = R ++ [name] ∧ T.reverse = R ++ (name ++ extra) :: B) ↔
      (Inside D T ∨ InLongerSibling D T) := by
    constructor
    · rintro (h0 | ⟨R, name, extra, B, h1, h2⟩)
      · left
        rw [List.reverse_eq_nil_iff] at h0
        exact ⟨T, by rw [h0]; simp⟩
      · have hD : D = name :: R.reverse := by
          have := congrArg List.reverse h1
          simpa using this
        have hT : T = B.reverse ++ (name ++ extra) :: R.reverse := by
          have := congrArg List.reverse h2
          simpa using this
        by_cases hx : extra = []
        · left
          exact ⟨B.reverse, by rw [hT, hD, hx]; simp⟩
        · right
          exact ⟨name, extra, R.reverse, B.reverse, hD, hx, hT⟩
    · rintro (⟨below, rfl⟩ | ⟨name, extra, parent, below, rfl, _, rfl⟩)
      · cases D with
        | nil => left; rfl
        | cons d ds =>
          right
          exact ⟨ds.reverse, d, [], below.reverse, by simp, by simp⟩
      · right
        exact ⟨parent.reverse, name, extra, below.reverse, by simp, by simp⟩
  have hw : isWithinDirectory cwd dir target = true ↔
      List.replicate 1 '/' ++ joinWith ['/'] D.reverse <+: List.replicate m '/' ++ joinWith ['/'] T.reverse := by
    unfold isWithinDirectory
    simp only [decide_eq_true_eq]
    rw [commonPrefixText_eq, e1, e2]
  obtain ⟨k, rfl⟩ : ∃ k, m = k + 1 := ⟨m - 1, by omega⟩
  rw [List.replicate_succ (n := k), List.cons_append, List.replicate_one, List.singleton_append,
    List.cons_prefix_cons] at hw
  simp only [true_and] at hw
  constructor
  · intro hin
    rw [hw] at hin
    apply key.mp
    cases k with
    | zero => exact (prefix_join vD vT).mp (by simpa using hin)
    | succ k =>
      left
      cases hD : D.reverse with
      | nil => rfl
      | cons d ds =>
        exfalso
        have hd := vD d (by rw [hD]; simp)
        rw [hD, List.replicate_succ, List.cons_append] at hin
        cases d with
        | nil => exact hd.1 rfl
        | cons x xs =>
          have : ∃ r, joinWith ['/'] ((x :: xs) :: ds) = x :: r := by
            cases ds <;> simp [joinWith]
          obtain ⟨r, hr⟩ := this
          rw [hr, List.cons_prefix_cons] at hin
          exact hd.2.1 (by simp [hin.1])
  · intro ht hin
    have hk := hm1 ht
    obtain rfl : k = 0 := by omega
    rw [hw]
    simpa using (prefix_join vD vT).mpr (key.mpr hin)

/-- **C57** (what is guaranteed).  Nothing is written outside the directory,
except in a sibling whose name begins with the directory's.

Missing: that nothing at all is written outside, which is false
(`C57_sibling`). -/
theorem C57_written_partial {cwd : List Str} (h : ∀ c ∈ cwd, validName c) {dir : Str}
    (hd : startsWith dir c!"//" = false) (members : List Str) :
    ∀ p ∈ (safeExtract cwd dir members).written,
      Inside (walk cwd.reverse dir) (walk cwd.reverse p) ∨
      InLongerSibling (walk cwd.reverse dir) (walk cwd.reverse p) := by
  intro p hp
  unfold safeExtract at hp
  by_cases hall : (members.all fun name => isWithinDirectory cwd dir (pathJoin dir name)) = true
  · rw [if_pos hall] at hp
    obtain ⟨name, hn, rfl⟩ := List.mem_map.mp hp
    exact (within_iff h hd).1 (List.all_eq_true.mp hall name hn)
  · rw [if_neg hall] at hp
    cases hp

/-- **C57** (all or nothing).  If a member would be written anywhere else, the
extraction fails and writes nothing at all. -/
theorem C57_refused {cwd : List Str} (h : ∀ c ∈ cwd, validName c) {dir : Str}
    (hd : startsWith dir c!"//" = false) (members : List Str) (name : Str) (hm : name ∈ members)
    (hout : ¬ Inside (walk cwd.reverse dir) (walk (walk cwd.reverse dir) name) ∧
      ¬ InLongerSibling (walk cwd.reverse dir) (walk (walk cwd.reverse dir) name)) :
    safeExtract cwd dir members = ⟨[], true⟩ := by
  unfold safeExtract
  apply if_neg
  intro hall
  have := (within_iff h hd).1 (List.all_eq_true.mp hall name hm)
  rw [walk_join] at this
  tauto

/-- **C57** (no false alarm).  An archive whose members all lie inside the
directory is extracted completely, each member where its name says. -/
theorem C57_complete {cwd : List Str} (h : ∀ c ∈ cwd, validName c) {dir : Str}
    (hd : startsWith dir c!"//" = false) (members : List Str)
    (hs : ∀ name ∈ members, startsWith (pathJoin dir name) c!"//" = false)
    (hin : ∀ name ∈ members, Inside (walk cwd.reverse dir) (walk (walk cwd.reverse dir) name)) :
    (safeExtract cwd dir members).raised = false ∧
    (safeExtract cwd dir members).written.map (walk cwd.reverse) =
      members.map (walk (walk cwd.reverse dir)) := by
  have hall : (members.all fun name => isWithinDirectory cwd dir (pathJoin dir name)) = true := by
    rw [List.all_eq_true]
    intro name hn
    apply (within_iff h hd).2 (hs name hn)
    left
    rw [walk_join]
    exact hin name hn
  unfold safeExtract
  rw [if_pos hall]
  refine ⟨rfl, ?_⟩
  simp only [List.map_map]
  apply List.map_congr_left
  intro name _
  exact walk_join _ _ _

/-- **C57** (witness).  A member can be written outside the directory. -/
theorem C57_sibling : ∃ members p, p ∈ (safeExtract [] c!"/tmp/x/gyp" members).written ∧
    ¬ Inside (walk [] c!"/tmp/x/gyp") (walk [] p) := by
  refine ⟨[c!"setup.py", c!"../gyp-evil/run.sh"], c!"/tmp/x/gyp/../gyp-evil/run.sh", by decide +kernel, ?_⟩
  rintro ⟨below, hb⟩
  have e1 : walk [] c!"/tmp/x/gyp" = [c!"gyp", c!"x", c!"tmp"] := by decide +kernel
  have e2 : walk [] c!"/tmp/x/gyp/../gyp-evil/run.sh" = [c!"run.sh", c!"gyp-evil", c!"x", c!"tmp"] := by
    decide +kernel
  rw [e1, e2] at hb
  have hl := congrArg List.length hb
  simp at hl
  obtain ⟨y, rfl⟩ := List.length_eq_one_iff.mp (show below.length = 1 by omega)
  simp at hb

/-! ### Cases -/

example : safeExtract [c!"home"] c!"t/gyp" [c!"a/b.py", c!"./c"] =
    ⟨[c!"t/gyp/a/b.py", c!"t/gyp/./c"], false⟩ := by decide +kernel

example : safeExtract [c!"home"] c!"t/gyp" [c!"a/b.py", c!"../../etc/passwd"] = ⟨[], true⟩ := by
  decide +kernel

example : safeExtract [c!"home"] c!"t/gyp" [c!"/etc/passwd"] = ⟨[], true⟩ := by decide +kernel

/-- The hypotheses of `C57_refused` are met. -/
example : ∀ c ∈ [c!"home"], validName c := by decide

example : ¬ Inside (walk [c!"home"] c!"t/gyp") (walk (walk [c!"home"] c!"t/gyp") c!"/etc/passwd") := by
  rintro ⟨below, hb⟩
  have hl := congrArg List.length hb
  have e1 : (walk [c!"home"] c!"t/gyp").length = 3 := by decide +kernel
  have e2 : (walk (walk [c!"home"] c!"t/gyp") c!"/etc/passwd").length = 2 := by decide +kernel
  rw [List.length_append, e1, e2] at hl
  omega

end Gyp
