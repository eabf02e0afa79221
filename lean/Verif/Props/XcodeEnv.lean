import Verif.Proofs.XcodeEnv
/-
C48: environment variables are defined before they are used.
-/
namespace Gyp
open Spec

/-! ### The order -/

/-- The variable `a` of `env` refers to the variable `b` of `env`. -/
def Spec.UsesVar (env : List (Str × Str)) (a b : Str) : Prop :=
  ∃ v w, (a, v) ∈ env ∧ (b, w) ∈ env ∧ RefersTo v b

/-- Some order of enumerating a set. -/
def Spec.SomeOrder (ord : List Str → List Str) : Prop := ∀ l, (ord l).Perm l

theorem mem_envEdges {ord : List Str → List Str} (ho : SomeOrder ord) {env : List (Str × Str)}
    (hn : (akeys env).Nodup) (a b : Str) : b ∈ envEdges ord env a ↔ UsesVar env a b := by
  unfold envEdges UsesVar
  cases h : aget env a with
  | none =>
    simp only [List.not_mem_nil, false_iff]
    rintro ⟨v, w, h1, -⟩
    rw [aget_of_mem hn h1] at h; cases h
  | some v =>
    simp only
    rw [(ho _).mem_iff, mem_foldl_listAdd, List.mem_filter]
    have hb : b ∈ bracketRefs '{' '}' v.length v ↔ RefersTo v b := (refersTo_iff v b).symm
    rw [hb]
    simp only [decide_eq_true_eq, List.not_mem_nil, or_false]
    constructor
    · rintro ⟨h1, h2⟩
      obtain ⟨p, hp, e⟩ := List.mem_map.mp h2
      refine ⟨v, p.2, aget_some_mem h, ?_, h1⟩
      rw [← e]; exact hp
    · rintro ⟨v', w, h1, h2, h3⟩
      have := aget_of_mem hn h1
      rw [h] at this; cases this
      exact ⟨h3, List.mem_map.mpr ⟨_, h2, rfl⟩⟩

theorem envEdges_closed {ord : List Str → List Str} (ho : SomeOrder ord) {env : List (Str × Str)}
    (hn : (akeys env).Nodup) : Closed (envEdges ord env) (akeys env) := by
  intro x _ y hy
  obtain ⟨v, w, -, h, -⟩ := (mem_envEdges ho hn x y).mp hy
  exact List.mem_map.mpr ⟨_, h, rfl⟩

theorem before_reverse {α : Type} {l : List α} {x y : α} (h : Before l x y) :
    Before l.reverse y x := by
  obtain ⟨p, q, r, rfl⟩ := h
  exact ⟨r.reverse, q.reverse, p.reverse, by simp⟩

theorem before_filterMap {α β : Type} {f : α → Option β} {l : List α} {x y : α} {a b : β}
    (h : Before l x y) (hx : f x = some a) (hy : f y = some b) : Before (l.filterMap f) a b := by
  obtain ⟨p, q, r, rfl⟩ := h
  exact ⟨p.filterMap f, q.filterMap f, r.filterMap f, by simp [hx, hy]⟩

theorem env_perm {env : List (Str × Str)} (hn : (akeys env).Nodup) {ks : List Str} (hk : ks.Nodup)
    (hm : ∀ k, k ∈ ks ↔ k ∈ akeys env) :
    (ks.filterMap fun k => (aget env k).map fun v => (k, v)).Perm env := by
  have hnd : ∀ ks : List Str, ks.Nodup →
      (ks.filterMap fun k => (aget env k).map fun v => (k, v)).Nodup := by
    intro ks h
    refine List.Nodup.filterMap ?_ h
    intro a a' b hb hb'
    simp only [Option.mem_def, Option.map_eq_some_iff] at hb hb'
    obtain ⟨v, -, rfl⟩ := hb
    obtain ⟨v', -, e⟩ := hb'
    exact (Prod.ext_iff.mp e).1.symm
  rw [List.perm_ext_iff_of_nodup (hnd ks hk) (List.Nodup.of_map _ hn)]
  rintro ⟨k, v⟩
  simp only [List.mem_filterMap, Option.map_eq_some_iff, Prod.mk.injEq]
  constructor
  · rintro ⟨k', h1, v', h2, rfl, rfl⟩; exact aget_some_mem h2
  · intro h
    exact ⟨k, (hm k).mpr (List.mem_map.mpr ⟨_, h, rfl⟩), v, aget_of_mem hn h, rfl, rfl⟩

/-- The environment has one value for each variable. -/
theorem xcodeEnv_nodup {computed additional : List (Str × Str)} (ha : (akeys additional).Nodup) :
    (akeys (xcodeEnv computed additional)).Nodup := by
  have : akeys (xcodeEnv computed additional) =
      akeys (computed.foldl (fun d p => aset d p.1 p.2) additional) := by
    unfold xcodeEnv akeys; rw [List.map_map]; rfl
  rw [this]
  clear this
  induction computed generalizing additional with
  | nil => exact ha
  | cons p c ih =>
    rw [List.foldl_cons]
    exact ih (akeys_aset_nodup ha _ _)

/-- C48: the exported list contains every variable of the environment exactly once with its
value, and each variable comes after those its value refers to. -/
theorem C48_sorted {ord : List Str → List Str} (ho : SomeOrder ord) {depth : Nat}
    {computed additional : List (Str × Str)} (ha : (akeys additional).Nodup)
    (hd : (xcodeEnv computed additional).length < depth) {l : List (Str × Str)}
    (h : sortedXcodeEnv ord depth computed additional = .ok l) :
    l.Perm (xcodeEnv computed additional) ∧
    ∀ k v k' v', (k, v) ∈ l → (k', v') ∈ l → RefersTo v k' → Before l (k', v') (k, v) := by
  have hn := xcodeEnv_nodup (computed := computed) ha
  unfold sortedXcodeEnv at h
  simp only at h
  generalize xcodeEnv computed additional = env at h hd hn ⊢
  have hlen : (akeys env).length < depth := by simpa [akeys] using hd
  unfold sortedEnvKeys at h
  rcases C07_sorted_or_cycle (akeys env) (envEdges ord env) (akeys env) (envEdges_closed ho hn)
    (fun _ h => h) depth hlen with ⟨o, e, hnd, hmem, hord⟩ | ⟨nodes, e, -⟩
  · rw [e] at h
    simp only [Except.ok.injEq] at h
    subst h
    have hk : ∀ k, k ∈ o.reverse ↔ k ∈ akeys env := by
      intro k
      rw [List.mem_reverse, hmem]
      constructor
      · rintro ⟨g, hg, hr⟩; exact hr.closed (envEdges_closed ho hn) hg
      · intro hk; exact ⟨k, hk, .refl⟩
    have hp := env_perm hn (List.nodup_reverse.mpr hnd) hk
    refine ⟨hp, ?_⟩
    intro k v k' v' h1 h2 h3
    have h1' := hp.mem_iff.mp h1
    have h2' := hp.mem_iff.mp h2
    have hko : k ∈ o := List.mem_reverse.mp ((hk k).mpr (List.mem_map.mpr ⟨_, h1', rfl⟩))
    have hb := before_reverse (hord k hko k' ((mem_envEdges ho hn k k').mpr ⟨v, v', h1', h2', h3⟩))
    exact before_filterMap hb (by simp [aget_of_mem hn h2']) (by simp [aget_of_mem hn h1'])
  · rw [e] at h; cases h

/-- C48: circular references, and only they, are an error. -/
theorem C48_cycle_iff {ord : List Str → List Str} (ho : SomeOrder ord) {depth : Nat}
    {computed additional : List (Str × Str)} (ha : (akeys additional).Nodup)
    (hd : (xcodeEnv computed additional).length < depth) :
    ((∃ nodes, sortedXcodeEnv ord depth computed additional = .error (.cycle nodes)) ↔
      ∃ k, Relation.TransGen (UsesVar (xcodeEnv computed additional)) k k) ∧
    ((∃ l, sortedXcodeEnv ord depth computed additional = .ok l) ↔
      ¬ ∃ k, Relation.TransGen (UsesVar (xcodeEnv computed additional)) k k) := by
  have hn := xcodeEnv_nodup (computed := computed) ha
  unfold sortedXcodeEnv
  simp only
  generalize xcodeEnv computed additional = env at hd hn ⊢
  have hlen : (akeys env).length < depth := by simpa [akeys] using hd
  have hcy : (∃ k, Relation.TransGen (UsesVar env) k k) ↔
      ∃ g ∈ akeys env, ∃ v, Reach (envEdges ord env) g v ∧ OnCycle (envEdges ord env) v := by
    have hT : ∀ a b, Relation.TransGen (UsesVar env) a b ↔ Reach1 (envEdges ord env) a b := by
      intro a b
      have : UsesVar env = fun a b => b ∈ envEdges ord env a := by
        funext a b; exact propext (mem_envEdges ho hn a b).symm
      rw [this]; rfl
    constructor
    · rintro ⟨k, hk⟩
      have hk' : k ∈ akeys env := by
        obtain ⟨y, -, v, w, -, h, -⟩ := Relation.TransGen.tail'_iff.mp hk
        exact List.mem_map.mpr ⟨_, h, rfl⟩
      exact ⟨k, hk', k, .refl, (hT k k).mp hk⟩
    · rintro ⟨-, -, v, -, hc⟩
      exact ⟨v, (hT v v).mpr hc⟩
  have hiff := C07_cycle_iff (akeys env) (envEdges ord env) (akeys env) (envEdges_closed ho hn)
    (fun _ h => h) depth hlen
  rw [hcy, ← hiff]
  unfold sortedEnvKeys
  rcases C07_sorted_or_cycle (akeys env) (envEdges ord env) (akeys env) (envEdges_closed ho hn)
    (fun _ h => h) depth hlen with ⟨o, e, -⟩ | ⟨nodes, e, -⟩
  · rw [e]; simp
  · rw [e]; simp

/-! ### Normalisation -/

theorem showToks_cons (t : EnvTok) (l : List EnvTok) : showToks (t :: l) = t.show ++ showToks l := by
  simp [showToks]

theorem readable_name {st : RefStyle} {x : Str} {l : List EnvTok} (h : Readable (.ref st x :: l)) :
    EnvName x ∧ Readable l := by
  cases st with
  | brace => exact h
  | paren => exact h
  | bare => exact ⟨ident_envName h.1, h.2.2⟩

/-- Bare references put in braces. -/
def debare : EnvTok → EnvTok
  | .ref .bare x => .ref .brace x
  | t => t

theorem nb_toks : ∀ (l : List EnvTok), Readable l → nb (showToks l) = showToks (l.map debare)
  | [], _ => rfl
  | .lit c :: l, h => by
    rw [List.map_cons, showToks_cons, showToks_cons, ← nb_toks l h.2]
    show nb ([c] ++ _) = [c] ++ _
    rw [nb_skip]
    simpa using fun e => h.1 e.symm
  | .ref .brace x :: l, h => by
    rw [List.map_cons, showToks_cons, showToks_cons, ← nb_toks l h.2]
    have e : EnvTok.show (.ref .brace x) = '$' :: ('{' :: (x ++ ['}'])) := by simp [EnvTok.show]
    show nb (EnvTok.show (.ref .brace x) ++ _) = EnvTok.show (.ref .brace x) ++ _
    rw [e, List.cons_append, nb_cons, if_neg (by rintro ⟨-, h⟩; cases h), nb_skip]
    · rfl
    · simp only [List.mem_cons, List.mem_append, List.not_mem_nil, or_false, not_or]
      exact ⟨by decide, envName_no h.1 (by decide), by decide⟩
  | .ref .paren x :: l, h => by
    rw [List.map_cons, showToks_cons, showToks_cons, ← nb_toks l h.2]
    have e : EnvTok.show (.ref .paren x) = '$' :: ('(' :: (x ++ [')'])) := by simp [EnvTok.show]
    show nb (EnvTok.show (.ref .paren x) ++ _) = EnvTok.show (.ref .paren x) ++ _
    rw [e, List.cons_append, nb_cons, if_neg (by rintro ⟨-, h⟩; cases h), nb_skip]
    · rfl
    · simp only [List.mem_cons, List.mem_append, List.not_mem_nil, or_false, not_or]
      exact ⟨by decide, envName_no h.1 (by decide), by decide⟩
  | .ref .bare x :: l, h => by
    rw [List.map_cons, showToks_cons, showToks_cons, ← nb_toks l h.2.2]
    obtain ⟨c, r, rfl, h1, h2⟩ := h.1
    show nb ('$' :: ((c :: r) ++ showToks l)) = EnvTok.show (.ref .brace (c :: r)) ++ nb (showToks l)
    have hs : identStart c = true := (identStart_iff c).mpr h1
    have ht := takeWhile_name (p := identChar) (x := c :: r) (r := showToks l)
      (by
        intro d hd
        rcases List.mem_cons.mp hd with rfl | hd
        · exact identStart_identChar hs
        · exact (identChar_iff d).mpr (h2 d hd))
      (by
        intro d hd
        rw [← Bool.not_eq_true, identChar_iff]
        exact h.2.1 d hd)
    rw [nb_cons, if_pos ⟨rfl, hs⟩, ht.1, ht.2]
    rfl

/-- Every reference is in brackets. -/
def NoBare (l : List EnvTok) : Prop := ∀ x, EnvTok.ref .bare x ∉ l

theorem debare_ok : ∀ (l : List EnvTok), Readable l →
    Readable (l.map debare) ∧ NoBare (l.map debare)
  | [], _ => ⟨trivial, by simp [NoBare]⟩
  | t :: l, h => by
    have hl : Readable l := by
      cases t with
      | lit c => exact h.2
      | ref st x => exact (readable_name h).2
    obtain ⟨h1, h2⟩ := debare_ok l hl
    cases t with
    | lit c =>
      refine ⟨⟨h.1, h1⟩, ?_⟩
      intro x hx
      rcases List.mem_cons.mp hx with e | hx
      · cases e
      · exact h2 x hx
    | ref st x =>
      have hx := (readable_name h).1
      cases st <;>
      · refine ⟨⟨hx, h1⟩, ?_⟩
        intro y hy
        rcases List.mem_cons.mp hy with e | hy
        · cases e
        · exact h2 y hy

theorem readable_mem : ∀ {l : List EnvTok}, Readable l → ∀ t ∈ l,
    (∃ c, t = .lit c ∧ c ≠ '$') ∨ ∃ st x, t = .ref st x ∧ EnvName x
  | [], _, t, ht => by cases ht
  | .lit c :: l, h, t, ht => by
    rcases List.mem_cons.mp ht with rfl | ht
    · exact Or.inl ⟨c, rfl, h.1⟩
    · exact readable_mem h.2 t ht
  | .ref st x :: l, h, t, ht => by
    rcases List.mem_cons.mp ht with rfl | ht
    · exact Or.inr ⟨st, x, rfl, (readable_name h).1⟩
    · exact readable_mem (readable_name h).2 t ht

theorem show_pieces {l : List EnvTok} (h : Readable l) :
    ∀ t ∈ l.map EnvTok.show, ∃ a w, t = a :: w ∧ '$' ∉ w := by
  intro t ht
  obtain ⟨t, ht', rfl⟩ := List.mem_map.mp ht
  rcases readable_mem h t ht' with ⟨c, rfl, -⟩ | ⟨st, x, rfl, hx⟩
  · exact ⟨c, [], rfl, by simp⟩
  · have hd := envName_no hx (c := '$') (by decide)
    cases st with
    | brace =>
      refine ⟨'$', '{' :: (x ++ ['}']), by simp [EnvTok.show], ?_⟩
      simp only [List.mem_cons, List.mem_append, List.not_mem_nil, or_false, not_or]
      exact ⟨by decide, hd, by decide⟩
    | paren =>
      refine ⟨'$', '(' :: (x ++ [')']), by simp [EnvTok.show], ?_⟩
      simp only [List.mem_cons, List.mem_append, List.not_mem_nil, or_false, not_or]
      exact ⟨by decide, hd, by decide⟩
    | bare => exact ⟨'$', x, rfl, hd⟩

theorem bracket_prefix {o c : Char} {k x r : Str} (hk : EnvName k) (hx : EnvName x)
    (hc : envNameChar c = false)
    (h : '$' :: o :: (k ++ [c]) <+: '$' :: o :: (x ++ [c]) ++ r) : k = x := by
  obtain ⟨q, hq⟩ := h
  simp only [List.cons_append, List.cons.injEq, true_and, List.append_assoc, List.nil_append] at hq
  have t1 := takeWhile_name (p := envNameChar) (x := k) (r := c :: q)
    (envName_chars hk) (by simp [hc])
  have t2 := takeWhile_name (p := envNameChar) (x := x) (r := c :: r)
    (envName_chars hx) (by simp [hc])
  rw [hq] at t1
  exact t1.1.symm.trans t2.1

/-- Replacing a reference in a text without bare references. -/
theorem replace_ref {st : RefStyle} (hst : st ≠ .bare) {k : Str} (hk : EnvName k) {l : List EnvTok}
    (hl : Readable l) (hb : NoBare l) (v : Str) :
    replaceStr (EnvTok.show (.ref st k)) v (showToks l) =
      l.flatMap fun t => if t = .ref st k then v else t.show := by
  have hshow : showToks l = (l.map EnvTok.show).flatten := by simp [showToks, List.flatMap_def]
  have hinj : ∀ t ∈ l, ∀ r, EnvTok.show (.ref st k) <+: t.show ++ r → t = .ref st k := by
    intro t ht r hp
    rcases readable_mem hl t ht with ⟨c, rfl, hc⟩ | ⟨st', x, rfl, hx⟩
    · exfalso
      obtain ⟨q, hq⟩ := hp
      cases st <;> simp [EnvTok.show] at hq <;> exact hc hq.1.symm
    · have b1 : EnvTok.show (.ref .brace k) = '$' :: '{' :: (k ++ ['}']) := by simp [EnvTok.show]
      have b2 : EnvTok.show (.ref .brace x) = '$' :: '{' :: (x ++ ['}']) := by simp [EnvTok.show]
      have p1 : EnvTok.show (.ref .paren k) = '$' :: '(' :: (k ++ [')']) := by simp [EnvTok.show]
      have p2 : EnvTok.show (.ref .paren x) = '$' :: '(' :: (x ++ [')']) := by simp [EnvTok.show]
      cases st with
      | bare => exact absurd rfl hst
      | brace =>
        cases st' with
        | bare => exact absurd ht (hb x)
        | brace =>
          rw [b1, b2] at hp
          rw [bracket_prefix hk hx (by decide) hp]
        | paren =>
          exfalso
          rw [b1, p2] at hp
          obtain ⟨q, hq⟩ := hp
          simp at hq
      | paren =>
        cases st' with
        | bare => exact absurd ht (hb x)
        | brace =>
          exfalso
          rw [p1, b2] at hp
          obtain ⟨q, hq⟩ := hp
          simp at hq
        | paren =>
          rw [p1, p2] at hp
          rw [bracket_prefix hk hx (by decide) hp]
  have hP : (EnvTok.show (.ref st k)).head? = some '$' := by cases st <;> rfl
  rw [hshow, replace_pieces hP _ ?_ (show_pieces hl), List.flatMap_map]
  · apply List.flatMap_congr
    intro t ht
    have : (t.show = EnvTok.show (.ref st k)) ↔ t = .ref st k :=
      ⟨fun e => hinj t ht [] (by rw [e]; simp), fun e => by rw [e]⟩
    simp only [this]
  · intro t ht r hp
    obtain ⟨t, ht', rfl⟩ := List.mem_map.mp ht
    rw [hinj t ht' r hp]

/-- Parenthesised references to one of `vs` put in braces. -/
def deparen (vs : List Str) : EnvTok → EnvTok
  | .ref .paren x => if x ∈ vs then .ref .brace x else .ref .paren x
  | t => t

theorem deparen_ok (vs : List Str) : ∀ {l : List EnvTok}, Readable l → NoBare l →
    Readable (l.map (deparen vs)) ∧ NoBare (l.map (deparen vs))
  | [], _, _ => ⟨trivial, by simp [NoBare]⟩
  | t :: l, h, hb => by
    have hl : Readable l := by
      cases t with
      | lit c => exact h.2
      | ref st x => exact (readable_name h).2
    have hb' : NoBare l := fun x hx => hb x (by simp [hx])
    obtain ⟨h1, h2⟩ := deparen_ok vs hl hb'
    have key : ∀ t', deparen vs t = t' → Readable (t' :: l.map (deparen vs)) ∧ ∀ x, t' ≠ .ref .bare x := by
      intro t' e
      subst e
      cases t with
      | lit c => exact ⟨⟨h.1, h1⟩, by simp [deparen]⟩
      | ref st x =>
        have hx := (readable_name h).1
        cases st with
        | bare => exact absurd (by simp) (hb x)
        | brace => exact ⟨⟨hx, h1⟩, by simp [deparen]⟩
        | paren =>
          by_cases hv : x ∈ vs
          · have e : deparen vs (.ref .paren x) = .ref .brace x := by simp [deparen, hv]
            rw [e]; exact ⟨⟨hx, h1⟩, by simp⟩
          · have e : deparen vs (.ref .paren x) = .ref .paren x := by simp [deparen, hv]
            rw [e]; exact ⟨⟨hx, h1⟩, by simp⟩
    obtain ⟨k1, k2⟩ := key _ rfl
    refine ⟨k1, ?_⟩
    intro x hx
    rcases List.mem_cons.mp hx with e | hx
    · exact k2 x e.symm
    · exact h2 x hx

theorem deparen_fold {l : List EnvTok} (hl : Readable l) (hb : NoBare l) (vs : List Str)
    (hv : ∀ v ∈ vs, EnvName v) :
    vs.foldl (fun s v => replaceStr (c!"$(" ++ v ++ c!")") (c!"${" ++ v ++ c!"}") s) (showToks l) =
      showToks (l.map (deparen vs)) := by
  induction vs generalizing l with
  | nil =>
    have : l.map (deparen []) = l := by
      conv_rhs => rw [← List.map_id l]
      apply List.map_congr_left
      intro t _
      cases t with
      | lit c => rfl
      | ref st x => cases st <;> simp [deparen]
    rw [this]; rfl
  | cons v vs ih =>
    rw [List.foldl_cons]
    have h1 : replaceStr (c!"$(" ++ v ++ c!")") (c!"${" ++ v ++ c!"}") (showToks l) =
        showToks (l.map (deparen [v])) := by
      have := replace_ref (st := .paren) (by decide) (hv v (by simp)) hl hb (c!"${" ++ v ++ c!"}")
      refine this.trans ?_
      unfold showToks
      rw [List.flatMap_map]
      apply List.flatMap_congr
      intro t _
      by_cases e : t = .ref .paren v
      · subst e
        rw [if_pos rfl]
        simp [deparen, EnvTok.show]
      · rw [if_neg e]
        cases t with
        | lit c => rfl
        | ref st x =>
          cases st with
          | paren =>
            have : x ≠ v := fun h => e (by rw [h])
            simp [deparen, this]
          | _ => rfl
    obtain ⟨r1, r2⟩ := deparen_ok [v] hl hb
    rw [h1, ih r1 r2 (fun w hw => hv w (by simp [hw])), List.map_map]
    congr 1
    apply List.map_congr_left
    intro t _
    cases t with
    | lit c => rfl
    | ref st x =>
      cases st with
      | paren =>
        by_cases hx : x = v
        · simp [deparen, hx]
        · simp [deparen, hx]
      | _ => rfl

theorem brefs_paren : ∀ {l : List EnvTok}, Readable l → NoBare l →
    ∀ x, x ∈ brefs '(' ')' (showToks l) ↔ EnvTok.ref .paren x ∈ l
  | [], _, _, x => by simp [showToks, brefs, bracketRefs]
  | t :: l, h, hb, x => by
    have hl : Readable l := by
      cases t with
      | lit c => exact h.2
      | ref st x => exact (readable_name h).2
    have hb' : NoBare l := fun x hx => hb x (by simp [hx])
    have ih := brefs_paren hl hb' x
    rw [showToks_cons, List.mem_cons]
    cases t with
    | lit c =>
      rw [show EnvTok.show (.lit c) = [c] from rfl,
        brefs_skip (by simpa using fun e => h.1 e.symm), ih]
      simp
    | ref st y =>
      have hy := (readable_name h).1
      cases st with
      | bare => exact absurd (by simp) (hb y)
      | brace =>
        have e : EnvTok.show (.ref .brace y) ++ showToks l =
            '$' :: (('{' :: (y ++ ['}'])) ++ showToks l) := by simp [EnvTok.show]
        rw [e, brefs_cons, if_neg (by rintro ⟨-, h, -⟩; cases h), brefs_skip, ih]
        · simp
        · simp only [List.mem_cons, List.mem_append, List.not_mem_nil, or_false, not_or]
          exact ⟨by decide, envName_no hy (by decide), by decide⟩
      | paren =>
        have e : EnvTok.show (.ref .paren y) ++ showToks l =
            '$' :: '(' :: (y ++ (')' :: showToks l)) := by simp [EnvTok.show]
        have t1 := takeWhile_name (p := envNameChar) (x := y) (r := ')' :: showToks l)
          (envName_chars hy) (by intro c hc; cases hc; decide)
        rw [e, brefs_cons, if_pos]
        · simp only [List.tail_cons, t1.1, t1.2, List.mem_cons, ih]
          constructor
          · rintro (rfl | h)
            · exact Or.inl rfl
            · exact Or.inr h
          · rintro (h | h)
            · cases h; exact Or.inl rfl
            · exact Or.inr h
        · simp only [List.tail_cons, t1.1, t1.2, List.head?_cons, true_and]
          exact ⟨hy.1, trivial⟩

/-- C48: normalising a text writes every reference, in whichever form, in braces and changes
nothing else. -/
theorem C48_normalise {l : List EnvTok} (hl : Readable l) :
    normalizeRefs (showToks l) = showToks (l.map EnvTok.braced) := by
  unfold normalizeRefs
  simp only
  have h1 := nb_toks l hl
  unfold nb at h1
  rw [h1]
  obtain ⟨r1, r2⟩ := debare_ok l hl
  have hmem := brefs_paren r1 r2
  unfold brefs at hmem
  rw [deparen_fold r1 r2]
  · congr 1
    rw [List.map_map]
    apply List.map_congr_left
    intro t ht
    cases t with
    | lit c => rfl
    | ref st x =>
      cases st with
      | paren =>
        have : x ∈ bracketRefs '(' ')' (showToks (l.map debare)).length (showToks (l.map debare)) :=
          (hmem x).mpr (List.mem_map.mpr ⟨_, ht, rfl⟩)
        simp only [Function.comp, debare, deparen, EnvTok.braced]
        rw [if_pos this]
      | _ => rfl
  · intro v hv
    have := (hmem v).mp hv
    rcases readable_mem r1 _ this with ⟨c, e, -⟩ | ⟨st, x, e, hx⟩
    · cases e
    · cases e; exact hx

/-! ### Expansion -/

/-- The text with every reference to a variable of `keys` replaced by the pieces `E` has for
it. -/
def Spec.instantiate (keys : List Str) (E : Str → List EnvTok) (l : List EnvTok) : List EnvTok :=
  l.flatMap fun
    | .ref st x => if x ∈ keys then E x else [.ref st x]
    | .lit c => [.lit c]

/-- `E` gives the fully expanded value of each variable of `env`: that of its text, every
reference to a variable replaced by the fully expanded value of that one. -/
def Spec.FullValues (env : List (Str × Str)) (E : Str → List EnvTok) : Prop :=
  ∀ k v, (k, v) ∈ env → ∃ l, Readable l ∧ v = showToks l ∧
    E k = instantiate (env.map Prod.fst) E l

/-- One substitution. -/
def substTok (k : Str) (vt : List EnvTok) : EnvTok → List EnvTok
  | .ref st x => if x = k then vt else [.ref st x]
  | .lit c => [.lit c]

theorem readable_of_mem : ∀ {l : List EnvTok}, NoBare l →
    (∀ t ∈ l, (∃ c, t = .lit c ∧ c ≠ '$') ∨ ∃ st x, t = .ref st x ∧ EnvName x) → Readable l
  | [], _, _ => trivial
  | t :: l, hb, h => by
    have ih := readable_of_mem (l := l) (fun x hx => hb x (by simp [hx]))
      (fun t ht => h t (by simp [ht]))
    rcases h t (by simp) with ⟨c, rfl, hc⟩ | ⟨st, x, rfl, hx⟩
    · exact ⟨hc, ih⟩
    · cases st with
      | bare => exact absurd (by simp) (hb x)
      | brace => exact ⟨hx, ih⟩
      | paren => exact ⟨hx, ih⟩

/-- The piecewise substitution used for one of the three replacements. -/
def substStyle (st : RefStyle) (k : Str) (vt : List EnvTok) (l : List EnvTok) : List EnvTok :=
  l.flatMap fun t => if t = .ref st k then vt else [t]

theorem substStyle_ok {st : RefStyle} {k : Str} {vt l : List EnvTok} (hv : Readable vt)
    (hvb : NoBare vt) (hl : Readable l) (hb : NoBare l) :
    Readable (substStyle st k vt l) ∧ NoBare (substStyle st k vt l) := by
  have hmem : ∀ t ∈ substStyle st k vt l, t ∈ vt ∨ t ∈ l := by
    intro t ht
    unfold substStyle at ht
    obtain ⟨u, hu, h⟩ := List.mem_flatMap.mp ht
    by_cases e : u = .ref st k
    · rw [if_pos e] at h; exact Or.inl h
    · rw [if_neg e] at h
      rw [List.mem_singleton.mp h]; exact Or.inr hu
  have hnb : NoBare (substStyle st k vt l) := by
    intro x hx
    rcases hmem _ hx with h | h
    · exact hvb x h
    · exact hb x h
  refine ⟨readable_of_mem hnb ?_, hnb⟩
  intro t ht
  rcases hmem t ht with h | h
  · exact readable_mem hv t h
  · exact readable_mem hl t h

theorem replace_style {st : RefStyle} (hst : st ≠ .bare) {k : Str} (hk : EnvName k)
    {l vt : List EnvTok} (hl : Readable l) (hb : NoBare l) :
    replaceStr (EnvTok.show (.ref st k)) (showToks vt) (showToks l) =
      showToks (substStyle st k vt l) := by
  rw [replace_ref hst hk hl hb]
  unfold substStyle
  show _ = List.flatMap EnvTok.show (List.flatMap _ l)
  rw [List.flatMap_assoc]
  apply List.flatMap_congr
  intro t _
  by_cases e : t = .ref st k
  · rw [if_pos e, if_pos e]; rfl
  · rw [if_neg e, if_neg e]; simp

theorem replace_bare {k : Str} (hk : EnvName k) {l : List EnvTok} (hl : Readable l) (hb : NoBare l)
    (v : Str) : replaceStr (c!"$" ++ k) v (showToks l) = showToks l := by
  have hshow : showToks l = (l.map EnvTok.show).flatten := by simp [showToks, List.flatMap_def]
  have hnp : ∀ t ∈ l, ∀ r, ¬ c!"$" ++ k <+: t.show ++ r := by
    intro t ht r hp
    obtain ⟨q, hq⟩ := hp
    rcases readable_mem hl t ht with ⟨c, rfl, hc⟩ | ⟨st, x, rfl, hx⟩
    · simp only [EnvTok.show, List.cons_append, List.cons.injEq] at hq
      exact hc hq.1.symm
    · cases k with
      | nil => exact hk.1 rfl
      | cons a k =>
        have ha : envNameChar a = true := envName_chars hk a (by simp)
        cases st with
        | bare => exact hb x ht
        | brace =>
          have e : EnvTok.show (.ref .brace x) = '$' :: '{' :: (x ++ ['}']) := by simp [EnvTok.show]
          rw [e] at hq
          simp only [List.cons_append, List.nil_append, List.cons.injEq] at hq
          rw [hq.2.1] at ha; exact absurd ha (by decide)
        | paren =>
          have e : EnvTok.show (.ref .paren x) = '$' :: '(' :: (x ++ [')']) := by simp [EnvTok.show]
          rw [e] at hq
          simp only [List.cons_append, List.nil_append, List.cons.injEq] at hq
          rw [hq.2.1] at ha; exact absurd ha (by decide)
  rw [hshow, replace_pieces rfl _ ?_ (show_pieces hl), List.flatMap_map, List.flatMap_def]
  · congr 1
    apply List.map_congr_left
    intro t ht
    rw [if_neg]
    intro e
    exact hnp t ht [] (by rw [e]; simp)
  · intro t ht r hp
    obtain ⟨t, ht', rfl⟩ := List.mem_map.mp ht
    exact absurd hp (hnp t ht' r)

/-- One step of `expandEnvVars` on a text in pieces. -/
theorem expand_step {k : Str} (hk : EnvName k) {vt l : List EnvTok} (hv : Readable vt)
    (hvb : NoBare vt) (hvp : ∀ x, EnvTok.ref .paren x ∉ vt) (hl : Readable l) (hb : NoBare l) :
    replaceStr (c!"$" ++ k) (showToks vt)
      (replaceStr (c!"$(" ++ k ++ c!")") (showToks vt)
        (replaceStr (c!"${" ++ k ++ c!"}") (showToks vt) (showToks l))) =
      showToks (l.flatMap (substTok k vt)) ∧
    Readable (l.flatMap (substTok k vt)) ∧ NoBare (l.flatMap (substTok k vt)) := by
  have h1 := replace_style (st := .brace) (by decide) hk (vt := vt) hl hb
  obtain ⟨r1, b1⟩ := substStyle_ok (st := .brace) (k := k) hv hvb hl hb
  have h2 := replace_style (st := .paren) (by decide) hk (vt := vt) r1 b1
  obtain ⟨r2, b2⟩ := substStyle_ok (st := .paren) (k := k) hv hvb r1 b1
  have h3 := replace_bare hk r2 b2 (showToks vt)
  have e : substStyle .paren k vt (substStyle .brace k vt l) = l.flatMap (substTok k vt) := by
    unfold substStyle
    rw [List.flatMap_assoc]
    apply List.flatMap_congr
    intro t ht
    by_cases e : t = .ref .brace k
    · subst e
      rw [if_pos rfl]
      simp only [substTok, if_true]
      rw [List.flatMap_congr (g := fun t => [t])]
      · simp
      · intro u hu
        rw [if_neg]
        intro e; exact hvp k (e ▸ hu)
    · rw [if_neg e]
      simp only [List.flatMap_cons, List.flatMap_nil, List.append_nil]
      cases t with
      | lit c => rfl
      | ref st x =>
        cases st with
        | bare => exact absurd ht (hb x)
        | brace =>
          have : x ≠ k := fun h => e (by rw [h])
          simp [substTok, this]
        | paren =>
          by_cases hx : x = k
          · simp [substTok, hx]
          · simp [substTok, hx]
  rw [e] at h3 r2 b2 h2
  refine ⟨?_, r2, b2⟩
  have h1' : replaceStr (c!"${" ++ k ++ c!"}") (showToks vt) (showToks l) = _ := h1
  have h2' : replaceStr (c!"$(" ++ k ++ c!")") (showToks vt) _ = _ := h2
  rw [h1', h2', h3]

theorem refersTo_toks {l : List EnvTok} (hl : Readable l) (hb : NoBare l) {x : Str}
    (h : EnvTok.ref .brace x ∈ l) : RefersTo (showToks l) x := by
  rcases readable_mem hl _ h with ⟨c, e, -⟩ | ⟨st, y, e, hy⟩
  · cases e
  · cases e
    refine ⟨hy, ?_⟩
    obtain ⟨a, b, rfl⟩ := List.append_of_mem h
    refine ⟨showToks a, showToks b, ?_⟩
    simp [showToks, EnvTok.show]

/-- The environment in pieces: the value of each variable in braces only. -/
def EnvIn (env : List (Str × Str)) (P : Str → List EnvTok) : Prop :=
  ∀ k v, (k, v) ∈ env → EnvName k ∧ v = showToks (P k) ∧ Readable (P k) ∧ NoBare (P k) ∧
    ∀ x, EnvTok.ref .paren x ∉ P k

theorem expand_fold {env : List (Str × Str)} {P E : Str → List EnvTok} (hP : EnvIn env P)
    (hE : ∀ k v, (k, v) ∈ env → E k = instantiate (env.map Prod.fst) E (P k)) :
    ∀ (p q : List (Str × Str)), env = p ++ q →
      (∀ a k v b, env = a ++ (k, v) :: b → ∀ x, EnvTok.ref .brace x ∈ P k → x ∉ ((k, v) :: b).map Prod.fst) →
      ∀ l, Readable l → NoBare l → (∀ st x, EnvTok.ref st x ∈ l → x ∉ q.map Prod.fst) →
        expandEnvVars (showToks l) p = showToks (instantiate (env.map Prod.fst) E l) := by
  intro p
  induction p using List.reverseRecOn with
  | nil =>
    intro q he _ l _ _ hq
    simp only [List.nil_append] at he
    subst he
    unfold expandEnvVars
    simp only [List.reverse_nil, List.foldl_nil]
    congr 1
    unfold instantiate
    conv_lhs => rw [← List.flatMap_singleton' l]
    apply List.flatMap_congr
    intro t ht
    cases t with
    | lit c => rfl
    | ref st x => simp only; rw [if_neg (hq st x ht)]
  | append_singleton p kv ih =>
    obtain ⟨k, v⟩ := kv
    intro q he hord l hl hb hq
    have hmem : (k, v) ∈ env := by rw [he]; simp
    obtain ⟨hk, hv, hr, hnb, hnp⟩ := hP k v hmem
    obtain ⟨h1, r1, b1⟩ := expand_step hk hr hnb hnp hl hb
    have hstep : expandEnvVars (showToks l) (p ++ [(k, v)]) =
        expandEnvVars (showToks (l.flatMap (substTok k (P k)))) p := by
      unfold expandEnvVars
      rw [List.reverse_append, List.reverse_singleton, List.singleton_append, List.foldl_cons]
      simp only
      rw [hv, h1]
    rw [hstep, ih ((k, v) :: q) (by rw [he]; simp) hord _ r1 b1]
    · congr 1
      unfold instantiate
      rw [List.flatMap_assoc]
      apply List.flatMap_congr
      intro t ht
      cases t with
      | lit c => rfl
      | ref st x =>
        simp only [substTok]
        by_cases hx : x = k
        · subst hx
          rw [if_pos rfl, if_pos (List.mem_map.mpr ⟨_, hmem, rfl⟩)]
          exact (hE x v hmem).symm
        · rw [if_neg hx]; simp
    · intro st x hx
      obtain ⟨t, ht, hxt⟩ := List.mem_flatMap.mp hx
      cases t with
      | lit c => simp [substTok] at hxt
      | ref st' y =>
        simp only [substTok] at hxt
        by_cases hy : y = k
        · rw [if_pos hy] at hxt
          have hst : st = .brace := by
            cases st with
            | brace => rfl
            | paren => exact absurd hxt (hnp x)
            | bare => exact absurd hxt (hnb x)
          subst hst
          exact hord p k v q (by rw [he]; simp) x hxt
        · rw [if_neg hy] at hxt
          have e := List.mem_singleton.mp hxt
          cases e
          simp only [List.map_cons, List.mem_cons, not_or]
          exact ⟨hy, hq st x ht⟩

/-- In the sorted environment no value refers to its own or a later variable. -/
theorem sorted_no_later {l : List (Str × Str)} (hn : (akeys l).Nodup)
    (hord : ∀ k v k' v', (k, v) ∈ l → (k', v') ∈ l → RefersTo v k' → Before l (k', v') (k, v))
    {a b : List (Str × Str)} {k v : Str} (he : l = a ++ (k, v) :: b) {x : Str} (hr : RefersTo v x) :
    x ∉ ((k, v) :: b).map Prod.fst := by
  intro hx
  obtain ⟨⟨x', w⟩, hw, e⟩ := List.mem_map.mp hx
  simp only at e
  subst e
  have hkl : (k, v) ∈ l := by rw [he]; simp
  have hxl : (x', w) ∈ l := by rw [he]; exact List.mem_append_right _ hw
  obtain ⟨p, q, r, hb⟩ := hord k v x' w hkl hxl hr
  have hnl : l.Nodup := List.Nodup.of_map _ hn
  -- the position of (k, v) is unique
  have h1 : p ++ (x', w) :: q = a := by
    have e : (p ++ (x', w) :: q) ++ (k, v) :: r = a ++ (k, v) :: b := by
      rw [← he, hb]; simp
    have hnd : ((p ++ (x', w) :: q) ++ (k, v) :: r).Nodup := by
      rw [e, ← he]; exact hnl
    have hnd' : (a ++ (k, v) :: b).Nodup := he ▸ hnl
    have n1 : (k, v) ∉ p ++ (x', w) :: q := by
      intro hm
      exact (List.nodup_append.mp hnd).2.2 _ hm _ (by simp) rfl
    have n2 : (k, v) ∉ a := by
      intro hm
      exact (List.nodup_append.mp hnd').2.2 _ hm _ (by simp) rfl
    have := congrArg (List.takeWhile (fun z => decide (z ≠ (k, v)))) e
    rw [List.takeWhile_append_of_pos, List.takeWhile_append_of_pos] at this
    · simpa using this
    · intro z hz; exact decide_eq_true (fun e => n2 (e ▸ hz))
    · intro z hz; exact decide_eq_true (fun e => n1 (e ▸ hz))
  have : (x', w) ∈ a := by rw [← h1]; simp
  rw [he] at hnl
  exact (List.nodup_append.mp hnl).2.2 _ this _ hw rfl

theorem instantiate_congr {keys : List Str} {E E' : Str → List EnvTok} {l : List EnvTok}
    (h : ∀ st x, EnvTok.ref st x ∈ l → x ∈ keys → E x = E' x) :
    instantiate keys E l = instantiate keys E' l := by
  unfold instantiate
  apply List.flatMap_congr
  intro t ht
  cases t with
  | lit c => rfl
  | ref st x =>
    simp only
    by_cases hx : x ∈ keys
    · rw [if_pos hx, if_pos hx, h st x ht hx]
    · rw [if_neg hx, if_neg hx]

/-- In a sorted environment fully expanded values exist. -/
theorem full_values_exist {env : List (Str × Str)} (hn : (akeys env).Nodup) {P : Str → List EnvTok}
    (hord : ∀ a k v b, env = a ++ (k, v) :: b → ∀ st x, EnvTok.ref st x ∈ P k →
      x ∉ ((k, v) :: b).map Prod.fst) :
    ∃ E : Str → List EnvTok, ∀ k v, (k, v) ∈ env → E k = instantiate (env.map Prod.fst) E (P k) := by
  have key : ∀ p q, env = p ++ q →
      ∃ E : Str → List EnvTok, ∀ k v, (k, v) ∈ p → E k = instantiate (env.map Prod.fst) E (P k) := by
    intro p
    induction p using List.reverseRecOn with
    | nil => intro q _; exact ⟨fun _ => [], by simp⟩
    | append_singleton p kv ih =>
      obtain ⟨k, v⟩ := kv
      intro q he
      have he' : env = p ++ (k, v) :: q := by rw [he]; simp
      obtain ⟨E, hE⟩ := ih ((k, v) :: q) he'
      let E' : Str → List EnvTok := fun x =>
        if x = k then instantiate (env.map Prod.fst) E (P k) else E x
      refine ⟨E', ?_⟩
      have hkp : ∀ v', (k, v') ∉ p := by
        intro v' h
        have hn' := hn
        unfold akeys at hn'
        rw [he', List.map_append, List.nodup_append] at hn'
        exact hn'.2.2 k (List.mem_map.mpr ⟨_, h, rfl⟩) k (by simp) rfl
      have hsame : ∀ k0 v0, (k0, v0) ∈ p ++ [(k, v)] →
          instantiate (env.map Prod.fst) E' (P k0) = instantiate (env.map Prod.fst) E (P k0) := by
        intro k0 v0 h0
        apply instantiate_congr
        intro st x hx _
        show (if x = k then _ else _) = _
        rw [if_neg]
        intro e
        subst e
        rcases List.mem_append.mp h0 with h0 | h0
        · obtain ⟨a, b, hab⟩ := List.append_of_mem h0
          refine hord a k0 v0 (b ++ (x, v) :: q) (by rw [he', hab]; simp) st x hx ?_
          simp
        · have e := List.mem_singleton.mp h0
          cases e
          exact hord p _ _ q he' st _ hx (by simp)
      intro k0 v0 h0
      rw [hsame k0 v0 h0]
      rcases List.mem_append.mp h0 with h0 | h0
      · show (if k0 = k then _ else _) = _
        rw [if_neg (fun e : k0 = k => hkp v0 (e ▸ h0))]
        exact hE k0 v0 h0
      · have e := List.mem_singleton.mp h0
        cases e
        show (if k = k then _ else _) = _
        rw [if_pos rfl]
  exact key env [] (by simp)

/-- C48, the use of the order: expanding a text (whose references are in brackets) with the
exported list replaces every reference to a variable of the environment by the fully expanded
value of that variable. -/
theorem C48_expand {ord : List Str → List Str} (ho : SomeOrder ord) {depth : Nat}
    {computed additional : List (Str × Str)} (ha : (akeys additional).Nodup)
    (hd : (xcodeEnv computed additional).length < depth)
    (hvals : ∀ k v, (k, v) ∈ computed ++ additional →
      EnvName k ∧ ∃ l, Readable l ∧ v = showToks l)
    {env : List (Str × Str)} (h : sortedXcodeEnv ord depth computed additional = .ok env) :
    ∃ E, FullValues env E ∧ ∀ l, Readable l → (∀ x, EnvTok.ref .bare x ∉ l) →
      expandEnvVars (showToks l) env = showToks (instantiate (env.map Prod.fst) E l) := by
  obtain ⟨hperm, hbef⟩ := C48_sorted ho ha hd h
  have hnE : (akeys env).Nodup :=
    ((hperm.map Prod.fst).nodup_iff).mpr (xcodeEnv_nodup (computed := computed) ha)
  -- every entry comes from the settings
  have hfrom : ∀ k v, (k, v) ∈ env → ∃ w, (k, w) ∈ computed ++ additional ∧ v = normalizeRefs w := by
    intro k v hkv
    have := hperm.mem_iff.mp hkv
    unfold xcodeEnv at this
    obtain ⟨⟨k', w⟩, hw, e⟩ := List.mem_map.mp this
    simp only [Prod.mk.injEq] at e
    obtain ⟨rfl, rfl⟩ := e
    refine ⟨w, ?_, rfl⟩
    have hset : ∀ (c d : List (Str × Str)),
        ∀ p, p ∈ c.foldl (fun d p => aset d p.1 p.2) d → p ∈ c ++ d := by
      intro c
      induction c with
      | nil => intro d p hp; exact hp
      | cons q c ih =>
        intro d p hp
        have := ih _ p hp
        rcases List.mem_append.mp this with h | h
        · simp [h]
        · have has : ∀ (d : List (Str × Str)) (k v : Str), ∀ p ∈ aset d k v, p = (k, v) ∨ p ∈ d := by
            intro d k v
            induction d with
            | nil => intro p hp; exact Or.inl (by simpa [aset] using hp)
            | cons r d ih =>
              intro p hp
              unfold aset at hp
              by_cases hr : r.1 = k
              · rw [if_pos hr] at hp
                rcases List.mem_cons.mp hp with h | h
                · exact Or.inl h
                · exact Or.inr (by simp [h])
              · rw [if_neg hr] at hp
                rcases List.mem_cons.mp hp with h | h
                · exact Or.inr (by simp [h])
                · rcases ih p h with h | h
                  · exact Or.inl h
                  · exact Or.inr (by simp [h])
          rcases has d q.1 q.2 p h with h | h
          · rw [h]; simp
          · simp [h]
    exact hset computed additional _ hw
  -- the values in pieces
  have hpieces : ∀ k, ∃ l : List EnvTok, ∀ v, (k, v) ∈ env → EnvName k ∧ v = showToks l ∧
      Readable l ∧ NoBare l ∧ ∀ x, EnvTok.ref .paren x ∉ l := by
    intro k
    by_cases hk : ∃ v, (k, v) ∈ env
    · obtain ⟨v, hv⟩ := hk
      obtain ⟨w, hw, rfl⟩ := hfrom k v hv
      obtain ⟨hname, l, hl, rfl⟩ := hvals k w hw
      refine ⟨l.map EnvTok.braced, ?_⟩
      intro v' hv'
      have e1 := aget_of_mem hnE hv
      have e2 := aget_of_mem hnE hv'
      rw [e1] at e2
      have e3 := Option.some.inj e2
      have hnb : NoBare (l.map EnvTok.braced) := by
        intro x hx
        obtain ⟨t, -, e⟩ := List.mem_map.mp hx
        cases t <;> cases e
      refine ⟨hname, by rw [← e3, C48_normalise hl], readable_of_mem hnb ?_, hnb, ?_⟩
      · intro t ht
        obtain ⟨u, hu, rfl⟩ := List.mem_map.mp ht
        rcases readable_mem hl u hu with ⟨c, rfl, hc⟩ | ⟨st, x, rfl, hx⟩
        · exact Or.inl ⟨c, rfl, hc⟩
        · exact Or.inr ⟨.brace, x, rfl, hx⟩
      · intro x hx
        obtain ⟨t, -, e⟩ := List.mem_map.mp hx
        cases t <;> cases e
    · exact ⟨[], fun v hv => absurd ⟨v, hv⟩ hk⟩
  choose P hP using hpieces
  have hEnvIn : EnvIn env P := fun k v hkv => hP k v hkv
  have hlater : ∀ a k v b, env = a ++ (k, v) :: b → ∀ x, EnvTok.ref .brace x ∈ P k →
      x ∉ ((k, v) :: b).map Prod.fst := by
    intro a k v b he x hx
    obtain ⟨-, hv, hr, hnb, -⟩ := hP k v (by rw [he]; simp)
    refine sorted_no_later hnE hbef he ?_
    rw [hv]
    exact refersTo_toks hr hnb hx
  have hlater' : ∀ a k v b, env = a ++ (k, v) :: b → ∀ st x, EnvTok.ref st x ∈ P k →
      x ∉ ((k, v) :: b).map Prod.fst := by
    intro a k v b he st x hx
    obtain ⟨-, -, -, hnb, hnp⟩ := hP k v (by rw [he]; simp)
    cases st with
    | brace => exact hlater a k v b he x hx
    | paren => exact absurd hx (hnp x)
    | bare => exact absurd hx (hnb x)
  obtain ⟨E, hE⟩ := full_values_exist hnE hlater'
  refine ⟨E, ?_, ?_⟩
  · intro k v hkv
    obtain ⟨-, hv, hr, -⟩ := hP k v hkv
    exact ⟨P k, hr, hv, hE k v hkv⟩
  · intro l hl hb
    exact expand_fold hEnvIn hE env [] (by simp) hlater l hl hb (by simp)

/-- C48: the variables are the computed settings and those additional settings that are not
computed, each value normalised. -/
theorem C48_variables {computed additional : List (Str × Str)} (hc : (computed.map Prod.fst).Nodup)
    (ha : (additional.map Prod.fst).Nodup) (k v : Str) :
    (k, v) ∈ xcodeEnv computed additional ↔
      ∃ w, v = normalizeRefs w ∧
        ((k, w) ∈ computed ∨ (k ∉ computed.map Prod.fst ∧ (k, w) ∈ additional)) := by
  have hn : (akeys (computed.foldl (fun d p => aset d p.1 p.2) additional)).Nodup := by
    have := xcodeEnv_nodup (computed := computed) (additional := additional) ha
    have e : akeys (xcodeEnv computed additional) =
        akeys (computed.foldl (fun d p => aset d p.1 p.2) additional) := by
      unfold xcodeEnv akeys; rw [List.map_map]; rfl
    rw [← e]; exact this
  have hcr : (akeys computed.reverse).Nodup := by
    unfold akeys; rw [List.map_reverse]; exact List.nodup_reverse.mpr hc
  have hmem : ∀ w, (k, w) ∈ computed.foldl (fun d p => aset d p.1 p.2) additional ↔
      ((k, w) ∈ computed ∨ (k ∉ computed.map Prod.fst ∧ (k, w) ∈ additional)) := by
    intro w
    have h1 : (k, w) ∈ computed.foldl (fun d p => aset d p.1 p.2) additional ↔
        aget (computed.foldl (fun d p => aset d p.1 p.2) additional) k = some w :=
      ⟨aget_of_mem hn, aget_some_mem⟩
    rw [h1, aget_foldl_aset]
    cases hg : aget computed.reverse k with
    | some u =>
      simp only [Option.some.injEq]
      have hu : (k, u) ∈ computed := List.mem_reverse.mp (aget_some_mem hg)
      constructor
      · rintro rfl; exact Or.inl hu
      · rintro (h | ⟨h, -⟩)
        · have := aget_of_mem hcr (List.mem_reverse.mpr h)
          rw [hg] at this; exact Option.some.inj this
        · exact absurd (List.mem_map.mpr ⟨_, hu, rfl⟩) h
    | none =>
      simp only
      have hk : k ∉ computed.map Prod.fst := by
        intro h
        have : (aget computed.reverse k).isSome = true := by
          rw [aget_isSome]; unfold akeys; rw [List.map_reverse]; exact List.mem_reverse.mpr h
        rw [hg] at this; cases this
      constructor
      · intro h; exact Or.inr ⟨hk, aget_some_mem h⟩
      · rintro (h | ⟨-, h⟩)
        · exact absurd (List.mem_map.mpr ⟨_, h, rfl⟩) hk
        · exact aget_of_mem ha h
  constructor
  · intro h
    unfold xcodeEnv at h
    obtain ⟨⟨a, b⟩, h', e⟩ := List.mem_map.mp h
    cases e; exact ⟨b, rfl, (hmem b).mp h'⟩
  · rintro ⟨w, rfl, h⟩; exact List.mem_map.mpr ⟨(k, w), (hmem w).mpr h, rfl⟩

/-- A bare reference to a variable whose name another variable's name extends is replaced in
part: this is why `C48_expand` asks for references in brackets. -/
theorem C48_bare_prefix :
    expandEnvVars c!"$FOOBAR" [(c!"FOOBAR", c!"y"), (c!"FOO", c!"x")] = c!"xBAR" := by
  decide +kernel

/-- Settings for the examples. -/
def envSample : List (Str × Str) :=
  [(c!"PRODUCT", c!"$(DIR)/$NAME.app"), (c!"DIR", c!"/out/${CONF}"), (c!"CONF", c!"Release"),
    (c!"NAME", c!"app")]

example : sortedXcodeEnv id 10 envSample [(c!"MODE", c!"$CONF-$(other)"), (c!"CONF", c!"none")] =
    .ok [(c!"CONF", c!"Release"), (c!"DIR", c!"/out/${CONF}"), (c!"MODE", c!"${CONF}-${other}"),
      (c!"NAME", c!"app"), (c!"PRODUCT", c!"${DIR}/${NAME}.app")] := by
  decide +kernel

example : expandEnvVars c!"${PRODUCT}/x $(MODE)"
    [(c!"CONF", c!"Release"), (c!"DIR", c!"/out/${CONF}"), (c!"MODE", c!"${CONF}-${other}"),
      (c!"NAME", c!"app"), (c!"PRODUCT", c!"${DIR}/${NAME}.app")] =
    c!"/out/Release/app.app/x Release-${other}" := by decide +kernel

example : sortedXcodeEnv id 10 [(c!"A", c!"$(B)"), (c!"B", c!"x${A}")] [] =
    .error (.cycle [c!"B", c!"A"]) := by decide +kernel

example : SomeOrder id := fun _ => .refl _

example : Readable [.lit 'a', .ref .bare c!"NAME", .lit '.', .ref .paren c!"DIR-1", .ref .brace c!"x"] := by
  refine ⟨by decide, ⟨'N', c!"AME", rfl, by decide, ?_⟩, ?_, by decide, ⟨by decide, ?_⟩, ⟨by decide, ?_⟩, trivial⟩
  · intro d hd; revert d; unfold IdentCont; decide
  · intro c hc
    have : c = '.' := by have := Option.some.inj hc; exact this.symm
    subst this; unfold IdentCont; decide
  · decide
  · decide

end Gyp
