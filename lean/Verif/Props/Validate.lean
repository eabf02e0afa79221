import Verif.Model.Validate
import Verif.Spec.Validate
import Verif.Props.Includes
/-
C70: what is checked of a target before anything is generated, the sources every rule gets,
and that numbers reach the generators as texts.
-/
namespace Gyp
open Spec

/-! ### Conditions -/

theorem truthy_iff {v : Val} : v.truthy = true ↔ True_ v := by
  cases v with
  | list l => cases l <;> simp [Val.truthy, True_]
  | dict l => cases l <;> simp [Val.truthy, True_]
  | _ => simp [Val.truthy, True_]

theorem getTrue_some {d : Dict} {key : Str} {v : Val} :
    getTrue d key = some v ↔ Says d key v := by
  unfold getTrue Says
  cases e : d.get? key with
  | none => simp
  | some w =>
    simp only [Option.some.injEq]
    by_cases h : w.truthy = true
    · rw [if_pos h]
      constructor
      · intro h'; cases h'; exact ⟨rfl, truthy_iff.mp h⟩
      · rintro ⟨rfl, -⟩; rfl
    · rw [if_neg h]
      constructor
      · intro h'; cases h'
      · rintro ⟨rfl, h'⟩; exact absurd (truthy_iff.mpr h') h

theorem getTrue_none {d : Dict} {key : Str} :
    getTrue d key = none ↔ ∀ v, ¬ Says d key v := by
  rw [Option.eq_none_iff_forall_ne_some]
  exact forall_congr' fun v => not_congr getTrue_some

/-! ### Extensions -/

theorem basename_after {d n : Str} (hd : d = [] ∨ ∃ e, d = e ++ c!"/") (hn : '/' ∉ n) :
    basename (d ++ n) = n := by
  unfold basename
  rcases hd with rfl | ⟨e, rfl⟩
  · rw [List.nil_append, rsplit1_none_iff.mpr hn]
  · rw [List.append_assoc, show c!"/" ++ n = '/' :: n from rfl, rsplit1_append hn]

theorem basename_split (p : Str) :
    ∃ d, p = d ++ basename p ∧ (d = [] ∨ ∃ e, d = e ++ c!"/") ∧ '/' ∉ basename p := by
  unfold basename
  cases e : rsplit1 '/' p with
  | none => exact ⟨[], rfl, .inl rfl, rsplit1_none_iff.mp e⟩
  | some x =>
    obtain ⟨h1, h2⟩ := rsplit1_some e
    exact ⟨x.1 ++ c!"/", by simpa using h1, .inr ⟨x.1, rfl⟩, h2⟩

theorem dotted_split {s ext : Str} (h : Dotted s ext) :
    ∃ root, s = root ++ '.' :: ext ∧ splitext s = (root, '.' :: ext) := by
  obtain ⟨d, n, rfl, hd, hn, he, hdot, c, hc, hne⟩ := h
  refine ⟨d ++ n, by simp, ?_⟩
  unfold splitext
  rw [List.append_assoc, show c!"." ++ ext = '.' :: ext from rfl, rsplit1_append hdot]
  dsimp only
  rw [if_neg he, basename_after hd hn, if_pos (List.any_eq_true.mpr ⟨c, hc, by simpa using hne⟩)]

theorem splitext_cases (s : Str) :
    (∃ root ext, splitext s = (root, '.' :: ext) ∧ Dotted s ext) ∨
      splitext s = (s, []) ∧ ∀ e, ¬ Dotted s e := by
  have key : splitext s = (s, []) → ∀ e, ¬ Dotted s e := by
    intro h e hd
    obtain ⟨root, -, h'⟩ := dotted_split hd
    rw [h] at h'
    cases h'
  by_cases h : splitext s = (s, [])
  · exact .inr ⟨h, key h⟩
  left
  unfold splitext at h ⊢
  cases e : rsplit1 '.' s with
  | none => rw [e] at h; exact absurd rfl h
  | some x =>
    obtain ⟨root, ext⟩ := x
    rw [e] at h
    dsimp only at h ⊢
    by_cases h1 : '/' ∈ ext
    · rw [if_pos h1] at h; exact absurd rfl h
    rw [if_neg h1] at h ⊢
    by_cases h2 : (basename root).any (· ≠ '.') = true
    · rw [if_pos h2]
      obtain ⟨c, hc, hne⟩ := List.any_eq_true.mp h2
      obtain ⟨h3, h4⟩ := rsplit1_some e
      obtain ⟨d, h5, h6, h7⟩ := basename_split root
      refine ⟨root, ext, rfl, d, basename root, ?_, h6, h7, h1, h4, c, hc, by simpa using hne⟩
      rw [h3, ← h5]
      simp
    · rw [if_neg h2] at h; exact absurd rfl h

/-- The extension found for a source is its extension. -/
theorem extension_iff (s ext : Str) : dropDot (splitext s).2 = ext ↔ ExtensionOf s ext := by
  unfold ExtensionOf
  rcases splitext_cases s with ⟨root, e, h, hd⟩ | ⟨h, hno⟩
  · rw [h]
    show e = ext ↔ _
    constructor
    · rintro rfl; exact .inl hd
    · rintro (h' | ⟨-, h'⟩)
      · obtain ⟨r, -, h''⟩ := dotted_split h'
        rw [h] at h''
        simpa using congrArg Prod.snd h''
      · exact absurd hd (h' e)
  · rw [h]
    show [] = ext ↔ _
    constructor
    · rintro rfl; exact .inr ⟨rfl, hno⟩
    · rintro (h' | ⟨rfl, -⟩)
      · exact absurd h' (hno ext)
      · rfl

theorem dropDot_iff (e ext : Str) :
    dropDot e = ext ↔ (e = c!"." ++ ext ∨ e = ext ∧ ∀ r, e ≠ c!"." ++ r) := by
  unfold dropDot
  split
  · rename_i rest
    constructor
    · rintro rfl; exact .inl rfl
    · rintro (h | ⟨-, h⟩)
      · simpa using h
      · exact absurd rfl (h rest)
  · rename_i hno
    constructor
    · rintro rfl; exact .inr ⟨rfl, fun r hr => hno r hr⟩
    · rintro (h | ⟨h, -⟩)
      · exact absurd h (hno ext)
      · exact h

/-! ### Types -/

/-- **C70 (types).** A target is accepted if and only if its type is one of the known ones and
only static libraries claim to be standalone ones. -/
theorem C70_types (td : Dict) :
    ValidateTargetType td = .ok () ↔
      ∃ t, td.get? c!"type" = some (.str t) ∧ KnownType t ∧
        ∀ v, Says td c!"standalone_static_library" v → t = c!"static_library" := by
  have known : ∀ t, t ∈ validTargetTypes ↔ KnownType t := by
    intro t
    constructor
    · intro h
      simp only [validTargetTypes, List.mem_cons, List.not_mem_nil, or_false] at h
      rcases h with rfl | rfl | rfl | rfl | rfl | rfl | rfl <;> constructor
    · intro h; cases h <;> decide
  unfold ValidateTargetType
  split
  · rename_i t ht
    have key : (∃ t', td.get? c!"type" = some (.str t') ∧ KnownType t' ∧
        ∀ v, Says td c!"standalone_static_library" v → t' = c!"static_library") ↔
        KnownType t ∧ ∀ v, Says td c!"standalone_static_library" v → t = c!"static_library" := by
      constructor
      · rintro ⟨t', h, h'⟩
        rw [ht] at h; cases h; exact h'
      · intro h; exact ⟨t, ht, h⟩
    rw [key, ← known]
    by_cases h1 : t ∈ validTargetTypes
    · rw [if_neg (by simpa using h1)]
      by_cases h2 : (getTrue td c!"standalone_static_library").isSome ∧ t ≠ c!"static_library"
      · rw [if_pos h2]
        obtain ⟨v, hv⟩ := Option.isSome_iff_exists.mp h2.1
        constructor
        · intro h; cases h
        · intro h; exact absurd (h.2 v (getTrue_some.mp hv)) h2.2
      · rw [if_neg h2]
        refine ⟨fun _ => ⟨h1, fun v hv => ?_⟩, fun _ => rfl⟩
        by_contra hne
        exact h2 ⟨by rw [getTrue_some.mpr hv]; rfl, hne⟩
    · rw [if_pos (by simpa using h1)]
      constructor
      · intro h; cases h
      · intro h; exact absurd h.1 h1
  · rename_i hno
    constructor
    · intro h; cases h
    · rintro ⟨t, ht, -⟩; exact absurd ht (hno t)

/-! ### Rules -/

theorem sourceList_ok {td : Dict} {key : Str} {l : List Str} :
    sourceList td key = .ok l ↔
      (td.get? key = none ∧ l = []) ∨ td.get? key = some (.list (l.map .str)) := by
  unfold sourceList
  split
  · rename_i h; rw [h]; simp [eq_comm]
  · rename_i vs h
    rw [h]
    cases e : strItems vs with
    | none =>
      simp only [reduceCtorEq, false_and, Option.some.injEq, Val.list.injEq, false_or, false_iff]
      rintro rfl
      rw [strItems_map] at e; cases e
    | some s =>
      have hs := strItems_some e
      subst hs
      simp only [Except.ok.injEq, reduceCtorEq, false_and, Option.some.injEq, Val.list.injEq,
        false_or]
      constructor
      · rintro rfl; rfl
      · intro h'
        rw [h', strItems_map] at e
        exact (Option.some.inj e).symm
  · rename_i v hno h
    rw [h]
    simp only [reduceCtorEq, false_and, Option.some.injEq, false_or, false_iff]
    rintro rfl
    exact hno _ rfl

open Classical in
theorem matchingSources_eq (ext : Str) (l : List Str) :
    matchingSources ext l = l.filter fun s => ExtensionOf s ext := by
  unfold matchingSources
  exact List.filter_congr fun s _ => by simp only [extension_iff]

open Classical in
theorem ruleSources_ok {td : Dict} {ext : Str} : ∀ {keys l : List Str},
    ruleSources td ext keys = .ok l ↔
      ∃ all, AllSources td keys all ∧ l = all.filter fun s => ExtensionOf s ext
  | [], l => by
    constructor
    · intro h; cases h; exact ⟨[], .nil, rfl⟩
    · rintro ⟨all, h, rfl⟩; cases h; rfl
  | key :: keys, l => by
    have ih := @ruleSources_ok td ext keys
    unfold ruleSources
    constructor
    · intro h
      cases e1 : sourceList td key with
      | error x => rw [e1] at h; cases h
      | ok s =>
        rw [e1] at h
        dsimp only at h
        cases e2 : ruleSources td ext keys with
        | error x => rw [e2] at h; cases h
        | ok more =>
          rw [e2] at h
          cases h
          obtain ⟨all, ha, rfl⟩ := ih.mp e2
          rw [matchingSources_eq]
          rcases sourceList_ok.mp e1 with ⟨hn, rfl⟩ | hs
          · exact ⟨all, .absent hn ha, rfl⟩
          · exact ⟨s ++ all, .list s hs ha, by rw [List.filter_append]⟩
    · rintro ⟨all, ha, rfl⟩
      cases ha with
      | absent hn ha =>
        rw [sourceList_ok.mpr (.inl ⟨hn, rfl⟩)]
        dsimp only
        rw [ih.mpr ⟨_, ha, rfl⟩, matchingSources_eq]
        rfl
      | list own hs ha =>
        rw [sourceList_ok.mpr (.inr hs)]
        dsimp only
        rw [ih.mpr ⟨_, ha, rfl⟩, matchingSources_eq, List.filter_append]

/-- What one rule becomes. -/
def RuleDone (td : Dict) (keys : List Str) (rule : Dict) (o : Str × Str × Dict) : Prop :=
  RuleInfo rule o.1 o.2.1 ∧ rule.get? c!"rule_sources" = none ∧
    ∃ all, AllSources td keys all ∧ WithSources all o.2.1 rule o.2.2

theorem validateRule_ok {td : Dict} {keys names exts : List Str} {rule rule' : Dict}
    {name ext : Str} :
    validateRule td keys names exts rule = .ok (rule', name, ext) ↔
      name ∉ names ∧ ext ∉ exts ∧ RuleDone td keys rule (name, ext, rule') := by
  unfold validateRule
  constructor
  · intro h
    split at h
    · rename_i n hn
      by_cases h1 : n ∈ names
      · rw [if_pos h1] at h; cases h
      rw [if_neg h1] at h
      split at h
      · rename_i e he
        by_cases h2 : dropDot e ∈ exts
        · rw [if_pos h2] at h; cases h
        rw [if_neg h2] at h
        by_cases h3 : c!"rule_sources" ∈ rule.keys
        · rw [if_pos h3] at h; cases h
        rw [if_neg h3] at h
        split at h
        · cases h
        · rename_i src hs
          cases h
          obtain ⟨all, ha, hall⟩ := ruleSources_ok.mp hs
          refine ⟨h1, h2, ⟨hn, e, he, (dropDot_iff e _).mp rfl⟩, (Dict.get?_eq_none _ _).mpr h3,
            all, ha, ?_⟩
          unfold WithSources
          dsimp only
          rw [← hall]
      · cases h
    · cases h
  · rintro ⟨h1, h2, ⟨hn, e, he, hd⟩, h3, all, ha, hw⟩
    dsimp only at hn hd hw
    rw [hn]
    dsimp only
    rw [if_neg h1, he]
    dsimp only
    rw [(dropDot_iff e ext).mpr hd, if_neg h2, if_neg ((Dict.get?_eq_none _ _).mp h3),
      ruleSources_ok.mpr ⟨all, ha, rfl⟩]
    unfold WithSources at hw
    dsimp only at hw ⊢
    rw [← hw]

theorem validateRules_ok {td : Dict} {keys : List Str} :
    ∀ {names exts : List Str} {vs vs' : List Val},
    validateRules td keys names exts vs = .ok vs' ↔
      ∃ rules out, vs = rules.map .dict ∧ vs' = out.map (fun o => .dict o.2.2) ∧
        List.Forall₂ (RuleDone td keys) rules out ∧
        (out.map (·.1)).Nodup ∧ (∀ o ∈ out, o.1 ∉ names) ∧
        (out.map (·.2.1)).Nodup ∧ ∀ o ∈ out, o.2.1 ∉ exts
  | names, exts, [], vs' => by
    constructor
    · intro h; cases h
      exact ⟨[], [], rfl, rfl, .nil, by simp, by simp, by simp, by simp⟩
    · rintro ⟨rules, out, h1, rfl, h2, -⟩
      cases rules with
      | nil => cases h2; rfl
      | cons => cases h1
  | names, exts, v :: vs, vs' => by
    constructor
    · intro h
      cases v with
      | dict rule =>
        unfold validateRules at h
        split at h
        · cases h
        · rename_i rule' name ext hr
          split at h
          · cases h
          · rename_i rest' hrest
            cases h
            obtain ⟨rules, out, rfl, rfl, h1, h2, h3, h4, h5⟩ := validateRules_ok.mp hrest
            obtain ⟨hn, he, hd⟩ := validateRule_ok.mp hr
            refine ⟨rule :: rules, (name, ext, rule') :: out, rfl, rfl, .cons hd h1, ?_, ?_, ?_,
              ?_⟩
            · refine List.nodup_cons.mpr ⟨?_, h2⟩
              intro hm
              obtain ⟨o, ho, hoe⟩ := List.mem_map.mp hm
              exact h3 o ho (by rw [hoe]; exact List.mem_cons_self)
            · intro o ho
              rcases List.mem_cons.mp ho with rfl | ho
              · exact hn
              · exact fun hm => h3 o ho (List.mem_cons_of_mem _ hm)
            · refine List.nodup_cons.mpr ⟨?_, h4⟩
              intro hm
              obtain ⟨o, ho, hoe⟩ := List.mem_map.mp hm
              exact h5 o ho (by rw [hoe]; exact List.mem_cons_self)
            · intro o ho
              rcases List.mem_cons.mp ho with rfl | ho
              · exact he
              · exact fun hm => h5 o ho (List.mem_cons_of_mem _ hm)
      | _ => cases h
    · rintro ⟨rules, out, h1, rfl, h2, h3, h4, h5, h6⟩
      cases rules with
      | nil => cases h1
      | cons rule rules =>
        cases h1
        cases h2 with
        | @cons _ o _ out hd hr =>
          obtain ⟨name, ext, rule'⟩ := o
          obtain ⟨h3a, h3b⟩ := List.nodup_cons.mp h3
          obtain ⟨h5a, h5b⟩ := List.nodup_cons.mp h5
          have hrest : validateRules td keys (name :: names) (ext :: exts) (rules.map .dict) =
              .ok (out.map (fun o => .dict o.2.2)) := by
            refine validateRules_ok.mpr ⟨rules, out, rfl, rfl, hr, h3b, ?_, h5b, ?_⟩
            · intro o ho hm
              rcases List.mem_cons.mp hm with he | hm
              · exact h3a (List.mem_map.mpr ⟨o, ho, he⟩)
              · exact h4 o (List.mem_cons_of_mem _ ho) hm
            · intro o ho hm
              rcases List.mem_cons.mp hm with he | hm
              · exact h5a (List.mem_map.mpr ⟨o, ho, he⟩)
              · exact h6 o (List.mem_cons_of_mem _ ho) hm
          unfold validateRules
          rw [validateRule_ok.mpr ⟨h4 _ List.mem_cons_self, h6 _ List.mem_cons_self, hd⟩]
          dsimp only
          rw [hrest]
          rfl

/-- **C70 (rules).** The rules of a target are accepted if and only if every rule has a name
and an extension of its own and does not claim sources itself (and the lists of sources are
lists of texts).  Then every rule gets exactly the sources with its extension, from `sources`
and the further lists the generator asks for, in order; nothing else of the target changes. -/
theorem C70_rules {td td' : Dict} {extra : List Str} {v : Val} (h : td.get? c!"rules" = some v) :
    ValidateRulesInTarget td extra = .ok td' ↔
      ∃ (rules : List Dict) (out : List (Str × Str × Dict)),
        v = .list (rules.map .dict) ∧
        List.Forall₂ (fun rule o =>
          RuleInfo rule o.1 o.2.1 ∧ rule.get? c!"rule_sources" = none ∧
            ∃ all, AllSources td (c!"sources" :: extra) all ∧ WithSources all o.2.1 rule o.2.2)
          rules out ∧
        (out.map (·.1)).Nodup ∧ (out.map (·.2.1)).Nodup ∧
        td' = td.set c!"rules" (.list (out.map fun o => .dict o.2.2)) := by
  unfold ValidateRulesInTarget
  rw [h]
  cases v with
  | list vs =>
    dsimp only
    constructor
    · intro h'
      split at h'
      · cases h'
      · rename_i vs' hv
        cases h'
        obtain ⟨rules, out, rfl, rfl, h1, h2, -, h3, -⟩ := validateRules_ok.mp hv
        exact ⟨rules, out, rfl, h1, h2, h3, rfl⟩
    · rintro ⟨rules, out, h0, h1, h2, h3, rfl⟩
      cases h0
      rw [validateRules_ok.mpr ⟨rules, out, rfl, rfl, h1, h2, by simp, h3, by simp⟩]
  | _ =>
    dsimp only
    constructor
    · intro h'; cases h'
    · rintro ⟨_, _, h0, -⟩; cases h0

/-- **C70 (no rules).** A target without rules is left alone. -/
theorem C70_no_rules {td : Dict} (extra : List Str) (h : td.get? c!"rules" = none) :
    ValidateRulesInTarget td extra = .ok td := by
  unfold ValidateRulesInTarget
  rw [h]

/-! ### Running and actions -/

/-- **C70 (run_as).** What a target is run as is accepted if and only if it is absent (or
empty) or a dictionary with a command that is a list, a directory that is a text and an
environment that is a dictionary. -/
theorem C70_run_as (td : Dict) :
    ValidateRunAsInTarget td = .ok () ↔
      ∀ v, Says td c!"run_as" v → ∃ r, v = .dict r ∧ GoodRunAs r := by
  unfold ValidateRunAsInTarget
  cases e : getTrue td c!"run_as" with
  | none => simp [fun v => getTrue_none.mp e v]
  | some v =>
    have he := getTrue_some.mp e
    have key : (∀ v', Says td c!"run_as" v' → ∃ r, v' = .dict r ∧ GoodRunAs r) ↔
        ∃ r, v = .dict r ∧ GoodRunAs r := by
      constructor
      · intro h; exact h v he
      · intro h v' hv'
        have : v' = v := Option.some.inj (hv'.1.symm.trans he.1)
        rw [this]; exact h
    rw [key]
    cases v with
    | dict r =>
      dsimp only
      have key2 : (∃ r', Val.dict r = .dict r' ∧ GoodRunAs r') ↔ GoodRunAs r := by
        constructor
        · rintro ⟨r', h, h'⟩; cases h; exact h'
        · intro h; exact ⟨r, rfl, h⟩
      rw [key2]
      cases e1 : getTrue r c!"action" with
      | none =>
        constructor
        · intro h; cases h
        · rintro ⟨⟨l, hl⟩, -, -⟩; exact absurd hl (getTrue_none.mp e1 _)
      | some a =>
        have h1 := getTrue_some.mp e1
        cases a with
        | list l =>
          dsimp only
          have good : ∀ {A B : Prop}, (A ↔ ∀ v, Says r c!"working_directory" v → ∃ s, v = .str s) →
              (B ↔ ∀ v, Says r c!"environment" v → ∃ s, v = .dict s) → (A ∧ B ↔ GoodRunAs r) := by
            intro A B hA hB
            exact ⟨fun h => ⟨⟨l, h1⟩, hA.mp h.1, hB.mp h.2⟩,
              fun h => ⟨hA.mpr h.directory, hB.mpr h.environment⟩⟩
          have dir : (∀ v, Says r c!"working_directory" v → ∃ s, v = .str s) ↔
              ∀ v, getTrue r c!"working_directory" = some v → ∃ s, v = .str s :=
            forall_congr' fun v => by rw [getTrue_some]
          have env : (∀ v, Says r c!"environment" v → ∃ s, v = .dict s) ↔
              ∀ v, getTrue r c!"environment" = some v → ∃ s, v = .dict s :=
            forall_congr' fun v => by rw [getTrue_some]
          rw [← good dir.symm env.symm]
          cases e2 : getTrue r c!"working_directory" with
          | none =>
            cases e3 : getTrue r c!"environment" with
            | none => simp
            | some w => cases w <;> simp
          | some x =>
            cases x with
            | str s =>
              cases e3 : getTrue r c!"environment" with
              | none => simp
              | some w => cases w <;> simp
            | _ => simp
        | _ =>
          constructor
          · intro h; cases h
          · rintro ⟨⟨l, hl⟩, -, -⟩
            have := h1.1.symm.trans hl.1
            cases this
    | _ =>
      constructor
      · intro h; cases h
      · rintro ⟨_, h, -⟩; cases h

theorem validateAction_ok (a : Dict) : validateAction a = .ok () ↔ GoodAction a := by
  unfold validateAction
  cases e1 : getTrue a c!"action_name" with
  | none =>
    constructor
    · intro h; cases h
    · rintro ⟨⟨v, hv⟩, -, -⟩; exact absurd hv (getTrue_none.mp e1 _)
  | some n =>
    have h1 := getTrue_some.mp e1
    dsimp only
    have bad : ∀ {x : ValErr}, (¬ ∃ v, a.get? c!"inputs" = some v ∧ v ≠ .other) →
        ((Except.error x : Except ValErr Unit) = .ok () ↔ GoodAction a) := by
      intro x h
      constructor
      · intro h; cases h
      · intro h'; exact absurd h'.inputs h
    split
    · rename_i h; exact bad (by rw [h]; simp)
    · rename_i h; exact bad (by rw [h]; simp)
    · rename_i v hno hin
      have hinputs : ∃ v, a.get? c!"inputs" = some v ∧ v ≠ .other :=
        ⟨v, hin, hno⟩
      have key : GoodAction a ↔ ∀ v, getTrue a c!"action" = some v →
          (∃ s, v = .str s) ∨ ∃ x l, v = .list (x :: l) ∧ True_ x := by
        constructor
        · intro h v hv; exact h.command v (getTrue_some.mp hv)
        · intro h; exact ⟨⟨n, h1⟩, hinputs, fun v hv => h v (getTrue_some.mpr hv)⟩
      rw [key]
      cases e2 : getTrue a c!"action" with
      | none => simp
      | some c =>
        have h2 := (getTrue_some.mp e2).2
        cases c with
        | str s => simp [emptyFirst]
        | list l =>
          cases l with
          | nil => exact absurd rfl h2
          | cons x l =>
            cases ht : x.truthy with
            | true =>
              have := truthy_iff.mp ht
              simp [emptyFirst, ht, this]
            | false =>
              have : ¬ True_ x := fun h => by rw [truthy_iff.mpr h] at ht; cases ht
              simp [emptyFirst, ht, this]
        | _ => simp [emptyFirst]

theorem validateActions_ok : ∀ {vs : List Val},
    validateActions vs = .ok () ↔ ∀ v ∈ vs, ∃ a, v = .dict a ∧ GoodAction a
  | [] => by simp [validateActions]
  | v :: vs => by
    rw [List.forall_mem_cons, ← validateActions_ok]
    cases v with
    | dict a =>
      rw [show validateActions (.dict a :: vs) = (match validateAction a with
        | .error e => .error e
        | .ok () => validateActions vs) from rfl]
      have : (∃ a', Val.dict a = .dict a' ∧ GoodAction a') ↔ validateAction a = .ok () := by
        rw [validateAction_ok]
        constructor
        · rintro ⟨_, h, h'⟩; cases h; exact h'
        · intro h; exact ⟨a, rfl, h⟩
      rw [this]
      cases e : validateAction a with
      | error x => simp
      | ok u => cases u; simp
    | _ =>
      constructor
      · intro h; cases h
      · rintro ⟨⟨_, h, -⟩, -⟩; cases h

/-- **C70 (actions).** The actions of a target are accepted if and only if each has a name and
inputs, and its command is not one that begins with nothing. -/
theorem C70_actions (td : Dict) :
    ValidateActionsInTarget td = .ok () ↔
      ∀ v, td.get? c!"actions" = some v →
        ∃ l, v = .list l ∧ ∀ x ∈ l, ∃ a, x = .dict a ∧ GoodAction a := by
  unfold ValidateActionsInTarget
  cases e : td.get? c!"actions" with
  | none => simp
  | some v =>
    simp only [Option.some.injEq, forall_eq']
    cases v with
    | list l =>
      dsimp only
      rw [validateActions_ok]
      constructor
      · intro h; exact ⟨l, rfl, h⟩
      · rintro ⟨_, h, h'⟩; cases h; exact h'
    | _ =>
      constructor
      · intro h; cases h
      · rintro ⟨_, h, -⟩; cases h

/-- **C70 (the rest).** Giving the rules their sources changes nothing but the rules. -/
theorem C70_rest {extra : List Str} {td td' : Dict} (h : ValidateRulesInTarget td extra = .ok td')
    {k : Str} (hk : k ≠ c!"rules") : td'.get? k = td.get? k := by
  cases e : td.get? c!"rules" with
  | none =>
    rw [C70_no_rules extra e] at h
    cases h; rfl
  | some v =>
    obtain ⟨rules, out, -, -, -, -, rfl⟩ := (C70_rules e).mp h
    exact Dict.get?_set_ne _ _ hk

/-- **C70 (all checks).** A target passes the checks if and only if it passes each of them. -/
theorem C70_target {extra : List Str} {td td' : Dict} :
    validateTarget extra td = .ok td' ↔
      ValidateTargetType td = .ok () ∧ ValidateRulesInTarget td extra = .ok td' ∧
        ValidateRunAsInTarget td = .ok () ∧ ValidateActionsInTarget td = .ok () := by
  have run : ValidateRulesInTarget td extra = .ok td' →
      (ValidateRunAsInTarget td' = .ok () ↔ ValidateRunAsInTarget td = .ok ()) := by
    intro h
    rw [C70_run_as, C70_run_as]
    unfold Says
    rw [C70_rest h (by decide)]
  have act : ValidateRulesInTarget td extra = .ok td' →
      (ValidateActionsInTarget td' = .ok () ↔ ValidateActionsInTarget td = .ok ()) := by
    intro h
    rw [C70_actions, C70_actions, C70_rest h (by decide)]
  unfold validateTarget
  constructor
  · intro h
    split at h
    · cases h
    rename_i h1
    split at h
    · cases h
    rename_i x h2
    split at h
    · cases h
    rename_i h3
    split at h
    · cases h
    rename_i h4
    cases h
    exact ⟨h1, h2, (run h2).mp h3, (act h2).mp h4⟩
  · rintro ⟨h1, h2, h3, h4⟩
    rw [h1]
    dsimp only
    rw [h2]
    dsimp only
    rw [(run h2).mpr h3]
    dsimp only
    rw [(act h2).mpr h4]

/-! ### Numbers -/

theorem intStr_toString (i : Int) : intStr i = (toString i).toList := by
  cases i with
  | ofNat n =>
    show _ = (Nat.repr n).toList
    simp [intStr, Nat.repr]
  | negSucc n =>
    show _ = ("-" ++ Nat.repr (n + 1)).toList
    rw [String.toList_append]
    simp [intStr, Nat.repr]

mutual

theorem turnInt_written : ∀ (v w : Val), turnInt v = w ↔ NumbersWritten v w
  | .int i, w => by
    unfold turnInt
    rw [intStr_toString]
    constructor
    · rintro rfl; exact .int
    · intro h; cases h; rfl
  | .str s, w => by
    unfold turnInt
    constructor
    · rintro rfl; exact .str
    · intro h; cases h; rfl
  | .other, w => by
    unfold turnInt
    constructor
    · rintro rfl; exact .other
    · intro h; cases h; rfl
  | .list l, w => by
    unfold turnInt
    constructor
    · rintro rfl; exact .list ((turnList_written l _).mp rfl)
    · intro h
      cases h with
      | list h => rw [(turnList_written l _).mpr h]
  | .dict d, w => by
    unfold turnInt
    constructor
    · rintro rfl; exact .dict ((turnDict_written d _).mp rfl)
    · intro h
      cases h with
      | dict h => rw [(turnDict_written d _).mpr h]

theorem turnList_written : ∀ (l l' : List Val), TurnIntIntoStrInList l = l' ↔ ListWritten l l'
  | [], l' => by
    unfold TurnIntIntoStrInList
    constructor
    · rintro rfl; exact .nil
    · intro h; cases h; rfl
  | v :: l, l' => by
    unfold TurnIntIntoStrInList
    constructor
    · rintro rfl; exact .cons ((turnInt_written v _).mp rfl) ((turnList_written l _).mp rfl)
    · intro h
      cases h with
      | cons h1 h2 => rw [(turnInt_written v _).mpr h1, (turnList_written l _).mpr h2]

theorem turnDict_written : ∀ (d d' : List (Str × Val)),
    TurnIntIntoStrInDict d = d' ↔ DictWritten d d'
  | [], l' => by
    unfold TurnIntIntoStrInDict
    constructor
    · rintro rfl; exact .nil
    · intro h; cases h; rfl
  | (k, v) :: d, d' => by
    unfold TurnIntIntoStrInDict
    constructor
    · rintro rfl; exact .cons ((turnInt_written v _).mp rfl) ((turnDict_written d _).mp rfl)
    · intro h
      cases h with
      | cons h1 h2 => rw [(turnInt_written v _).mpr h1, (turnDict_written d _).mpr h2]

end

/-- **C70 (numbers).** What the generators get is the loaded target with every number, at any
depth, written in decimal, and nothing else changed. -/
theorem C70_numbers (td td' : Dict) : TurnIntIntoStrInDict td = td' ↔ DictWritten td td' :=
  turnDict_written td td'

/-! ### Samples -/

section Sample

/-- A target with two rules, an action and a number. -/
def sampleRules : Dict :=
  [(c!"type", .str c!"none"),
   (c!"sources", .list [.str c!"a.y", .str c!"b/c.idl", .str c!"d.cc", .str c!"e.y"]),
   (c!"rules", .list [
     .dict [(c!"rule_name", .str c!"yacc"), (c!"extension", .str c!"y")],
     .dict [(c!"rule_name", .str c!"idl"), (c!"extension", .str c!".idl")]]),
   (c!"actions", .list [.dict [(c!"action_name", .str c!"gen"), (c!"inputs", .list []),
     (c!"action", .list [.str c!"python", .str c!"g.py"])]]),
   (c!"timeout", .int (-12))]

/-- It passes, and every rule has its sources. -/
example : validateTarget [] sampleRules = .ok (sampleRules.set c!"rules" (.list [
    .dict [(c!"rule_name", .str c!"yacc"), (c!"extension", .str c!"y"),
      (c!"rule_sources", .list [.str c!"a.y", .str c!"e.y"])],
    .dict [(c!"rule_name", .str c!"idl"), (c!"extension", .str c!".idl"),
      (c!"rule_sources", .list [.str c!"b/c.idl"])]])) := by
  rfl

/-- The number is written as a text. -/
example : (TurnIntIntoStrInDict sampleRules).get? c!"timeout" = some (.str c!"-12") := by rfl

/-- `.bashrc` has no extension; `a.tar.gz` has `gz`. -/
example : (splitext c!"d/.bashrc").2 = [] ∧ (splitext c!"d.x/a.tar.gz").2 = c!".gz" := by decide

/-- A correct `run_as`. -/
example : ValidateRunAsInTarget [(c!"run_as", .dict [(c!"action", .list [.str c!"a"])])] = .ok () :=
  by rfl

/-- Two rules for `y`, once with the dot and once without. -/
example : validateTarget [] [(c!"type", .str c!"none"), (c!"rules", .list [
    .dict [(c!"rule_name", .str c!"one"), (c!"extension", .str c!"y")],
    .dict [(c!"rule_name", .str c!"two"), (c!"extension", .str c!".y")]])] =
    .error (.duplicateExtension c!"y") := by rfl

end Sample

end Gyp
