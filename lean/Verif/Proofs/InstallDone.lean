import Verif.Proofs.Install
import Mathlib.Data.List.Induction
/-
What a successful installation has done.
-/
namespace Gyp
open Spec

/-- Where files are put: the temporary directory on Windows, else the version directory. -/
def Store (E : InstEnv) (dir : Str) (s : InstState) : Option Files :=
  if E.win = true then some s.tmp else aget s.disk dir

/-- On Windows the disk stays as it is. -/
def WinKeep (E : InstEnv) (s s' : InstState) : Prop := E.win = true → s'.disk = s.disk

theorem putFile_store {E : InstEnv} {dir f c : Str} (kind : FsOp) {s : InstState} {st : Files}
    (hst : Store E dir s = some st) :
    wp (putFile E kind dir f c)
      (fun _ s' => Store E dir s' = some (aset st f c) ∧ WinKeep E s s' ∧ SameNet s s')
      (fun _ _ => True) s := by
  unfold putFile
  apply wp_op
  · intros; trivial
  · intro _ a s' hs
    unfold Store at hst ⊢
    by_cases hw : E.win = true
    · rw [if_pos hw] at hs hst ⊢
      cases hs
      cases hst
      exact ⟨rfl, fun _ => rfl, rfl, rfl⟩
    · rw [if_neg hw] at hs hst ⊢
      have hst' : aget ({ s with n := s.n + 1 } : InstState).disk dir = some st := hst
      rw [hst'] at hs
      cases hs
      refine ⟨?_, fun h => absurd h hw, rfl, rfl⟩
      show aget (aset s.disk dir (aset st f c)) dir = _
      rw [aget_aset, if_pos rfl]
  · intros; trivial

theorem fetch_store {E : InstEnv} {dir : Str} (url : Str) {s : InstState} {st : Files}
    (hst : Store E dir s = some st) :
    wp (fetch E url)
      (fun _ s' => Store E dir s' = some st ∧ WinKeep E s s' ∧ SameNet s s')
      (fun _ _ => True) s := by
  unfold fetch
  rw [wp_bind]
  apply wp_op
  · intros; trivial
  · intro _ a s' hs
    cases hs
    split
    · trivial
    · exact ⟨hst, fun _ => rfl, rfl, rfl⟩
  · intros; trivial

theorem extractAll_store {E : InstEnv} {dir : Str} : ∀ (ms : Files) (s : InstState) (st : Files),
    Store E dir s = some st →
    wp (extractAll E dir ms)
      (fun k s' => Store E dir s' =
          some ((ms.filter fun p => validMember p.1).foldl (fun d p => aset d p.1 p.2) st) ∧
        k = (ms.filter fun p => validMember p.1).length ∧ WinKeep E s s' ∧ SameNet s s')
      (fun _ _ => True) s
  | [], s, st, hst => ⟨hst, rfl, fun _ => rfl, rfl, rfl⟩
  | (f, c) :: rest, s, st, hst => by
    unfold extractAll
    by_cases hv : validMember f = true
    · rw [if_pos hv, wp_bind, List.filter_cons_of_pos (by exact hv)]
      refine wp_mono (putFile_store .extract hst) ?_ (fun _ _ _ => trivial)
      rintro - s1 ⟨h1, k1, e1⟩
      rw [wp_bind]
      refine wp_mono (extractAll_store rest s1 _ h1) ?_ (fun _ _ _ => trivial)
      rintro k s2 ⟨h2, hk, k2, e2⟩
      refine ⟨h2, ?_, fun hw => (k2 hw).trans (k1 hw), e2.1.trans e1.1, e2.2.trans e1.2⟩
      rw [List.length_cons, hk]
    · rw [if_neg hv, List.filter_cons_of_neg (by exact hv)]
      exact extractAll_store rest s st hst

theorem filter_ne_nil_header {ms : Files} (h : ¬ (ms.filter fun p => validMember p.1).length = 0) :
    ∃ m ∈ ms, IsHeader m.1 := by
  cases hf : ms.filter fun p => validMember p.1 with
  | nil => rw [hf] at h; exact absurd rfl h
  | cons m l =>
    have : m ∈ ms.filter fun p => validMember p.1 := by rw [hf]; simp
    obtain ⟨h1, h2⟩ := List.mem_filter.mp this
    exact ⟨m, h1, (validMember_iff _).mp h2⟩

theorem getTarball_store {E : InstEnv} {dir : Str} (rel : InstRelease) {s : InstState} {st : Files}
    (hst : Store E dir s = some st) :
    wp (getTarball E rel dir)
      (fun _ s' => ∃ ms, ArchiveOf E rel true s'.got ms ∧ Store E dir s' =
          some ((ms.filter fun p => validMember p.1).foldl (fun d p => aset d p.1 p.2) st) ∧
        WinKeep E s s')
      (fun _ _ => True) s := by
  unfold getTarball
  cases ht : E.tarball with
  | some bytes =>
    dsimp only
    rw [wp_bind]
    refine wp_mono (extractAll_store _ s st hst) ?_ (fun _ _ _ => trivial)
    rintro k s1 ⟨h1, hk, k1, e1⟩
    split
    · trivial
    · rename_i hno
      push Not at hno
      refine ⟨(E.untar bytes).1, Or.inr ⟨rfl, filter_ne_nil_header (hk ▸ hno.2), bytes, ?_, Or.inl ht⟩, h1, k1⟩
      have := hno.1
      cases hu : E.untar bytes with
      | mk a b => rw [hu] at this; simp at this; simp [this]
  | none =>
    dsimp only
    rw [wp_bind]
    refine wp_mono (fetch_store _ hst) ?_ (fun _ _ _ => trivial)
    rintro bytes s1 ⟨h1, k1, e1⟩
    rw [wp_bind, wp_upd, wp_bind]
    refine wp_mono (extractAll_store _ _ st h1) ?_ (fun _ _ _ => trivial)
    rintro k s2 ⟨h2, hk, k2, e2⟩
    split
    · trivial
    · rename_i hno
      push Not at hno
      refine ⟨(E.untar bytes).1, Or.inr ⟨rfl, filter_ne_nil_header (hk ▸ hno.2), bytes, ?_,
        Or.inr ⟨ht, ?_⟩⟩, h2, fun hw => (k2 hw).trans (k1 hw)⟩
      · have := hno.1
        cases hu : E.untar bytes with
        | mk a b => rw [hu] at this; simp at this; simp [this]
      · rw [e2.1]; exact List.mem_cons_self

theorem getNodeLib_store {E : InstEnv} {dir : Str} (rel : InstRelease) (content : List (Str × Str))
    {s : InstState} {st : Files} (hst : Store E dir s = some st) :
    wp (getNodeLib E rel dir content)
      (fun _ s' => ∃ b, (rel.libPath, b) ∈ s'.got ∧ (∀ x ∈ s.got, x ∈ s'.got) ∧
        Store E dir s' = some (aset st (E.arch ++ c!"/" ++ rel.name ++ c!".lib") b) ∧ WinKeep E s s')
      (fun _ _ => True) s := by
  unfold getNodeLib
  rw [wp_bind]
  refine wp_mono (fetch_store _ hst) ?_ (fun _ _ _ => trivial)
  rintro bytes s1 ⟨h1, k1, e1⟩
  rw [wp_bind, wp_upd, wp_bind]
  refine wp_mono (putFile_store (st := st) .write h1) ?_ (fun _ _ _ => trivial)
  rintro - s2 ⟨h2, k2, e2⟩
  rw [wp_pure]
  refine ⟨bytes, ?_, ?_, ?_, fun hw => (k2 hw).trans (k1 hw)⟩
  · rw [e2.1]; exact List.mem_cons_self
  · intro x hx; rw [e2.1]; exact List.mem_cons_of_mem _ (e1.1 ▸ hx)
  · rw [h2]; simp

theorem copyAll_store {E : InstEnv} {dir : Str} : ∀ (tmp : Files) (s : InstState) (fs : Files),
    aget s.disk dir = some fs → (akeys tmp).Nodup →
    wp (copyAll E dir tmp)
      (fun _ s' => SameNet s s' ∧ ∃ fs', aget s'.disk dir = some fs' ∧
        ∀ f, (match aget tmp f with
          | some c => aget fs' f = some c ∨
            (E.ensure = true ∧ aget fs f ≠ none ∧ aget fs' f = aget fs f)
          | none => aget fs' f = aget fs f))
      (fun _ _ => True) s
  | [], s, fs, hfs, _ => ⟨⟨rfl, rfl⟩, fs, hfs, fun f => rfl⟩
  | (f, c) :: rest, s, fs, hfs, hn => by
    have hf : f ∉ akeys rest := (List.nodup_cons.mp hn).1
    have hnr : (akeys rest).Nodup := (List.nodup_cons.mp hn).2
    have hfn : aget rest f = none := by
      cases h : aget rest f with
      | none => rfl
      | some v => exact absurd ((aget_isSome rest f).mp (by rw [h]; rfl)) hf
    unfold copyAll
    rw [wp_bind, wp_attempt]
    have herr : ∀ (e : InstErr) s1, s1.disk = s.disk → SameNet s s1 →
        wp (match (Except.error e : Except InstErr Unit) with
          | .ok _ => copyAll E dir rest
          | .error e =>
            if E.ensure = true ∧ e = .fs .ebusy then do
              let x ← InstM.attempt (statFile E dir f)
              match x with
              | .ok _ => copyAll E dir rest
              | .error _ => InstM.fail e
            else InstM.fail e)
          (fun _ s' => SameNet s s' ∧ ∃ fs', aget s'.disk dir = some fs' ∧
        ∀ g, (match aget ((f, c) :: rest) g with
          | some c => aget fs' g = some c ∨
            (E.ensure = true ∧ aget fs g ≠ none ∧ aget fs' g = aget fs g)
          | none => aget fs' g = aget fs g))
      (fun _ _ => True) s1 := by
      intro e s1 hd1 e1
      dsimp only
      split
      · rename_i hen
        rw [wp_bind, wp_attempt]
        unfold statFile
        apply wp_op
        · intros; trivial
        · intro _ a s2 hs
          have hs1 : aget ({ s1 with n := s1.n + 1 } : InstState).disk dir = some fs := by
            rw [← hfs, ← hd1]
          rw [hs1] at hs
          dsimp only at hs
          have h' := congrArg Prod.snd hs
          have h'' := congrArg Prod.fst hs
          dsimp only at h' h''
          subst h'
          have hsome : aget fs f ≠ none := by
            intro hx; rw [hx] at h''; simp at h''
          dsimp only
          refine wp_mono (copyAll_store rest _ fs hs1 hnr) ?_ (fun _ _ _ => trivial)
          rintro - s3 ⟨e3, fs', h3, h4⟩
          refine ⟨⟨e3.1.trans e1.1, e3.2.trans e1.2⟩, fs', h3, ?_⟩
          intro g
          by_cases hg : f = g
          · subst hg
            rw [aget, if_pos rfl]
            have := h4 f
            rw [hfn] at this
            exact Or.inr ⟨hen.1, hsome, this⟩
          · rw [aget, if_neg hg]; exact h4 g
        · intros; trivial
      · trivial
    apply wp_op
    · intro e _; exact herr _ _ rfl ⟨rfl, rfl⟩
    · intro _ a s' hs
      have hs1 : aget ({ s with n := s.n + 1 } : InstState).disk dir = some fs := hfs
      rw [hs1] at hs
      have h' := congrArg Prod.snd hs
      dsimp only at h' ⊢
      subst h'
      refine wp_mono (copyAll_store rest _ (aset fs f c) ?_ hnr) ?_ (fun _ _ _ => trivial)
      · show aget (aset s.disk dir _) dir = _
        rw [aget_aset, if_pos rfl]
      · rintro - s3 ⟨e3, fs', h3, h4⟩
        refine ⟨e3, fs', h3, ?_⟩
        intro g
        have h4g := h4 g
        by_cases hg : f = g
        · subst hg
          rw [hfn] at h4g
          rw [aget, if_pos rfl]
          rw [aget_aset, if_pos rfl] at h4g
          exact Or.inl h4g
        · rw [aget, if_neg hg]
          rw [aget_aset, if_neg (fun e => hg e.symm)] at h4g
          exact h4g
    · intro _ e s' hs
      have hs1 : aget ({ s with n := s.n + 1 } : InstState).disk dir = some fs := hfs
      rw [hs1] at hs
      have h'' := congrArg Prod.fst hs
      cases h''

theorem verifySums_same (expect : List (Str × Str)) : ∀ (content : List (Str × Str)) (s : InstState),
    wp (verifySums expect content) (fun _ s' => s' = s) (fun _ _ => True) s
  | [], _ => rfl
  | (k, d) :: rest, s => by
    unfold verifySums
    split
    · exact verifySums_same expect rest s
    · trivial

theorem akeys_foldl_nodup (l st : Files) (h : (akeys st).Nodup) :
    (akeys (l.foldl (fun d p => aset d p.1 p.2) st)).Nodup := by
  induction l generalizing st with
  | nil => exact h
  | cons p l ih => exact ih _ (akeys_aset_nodup h _ _)

theorem aget_none_iff' {d : Files} {k : Str} : aget d k = none ↔ k ∉ akeys d := by
  rw [← aget_isSome]
  cases aget d k <;> simp

/-- The header members, the last one of each name. -/
theorem aget_headers (ms : Files) (f : Str) :
    (∀ c, aget (ms.filter fun p => validMember p.1).reverse f = some c ↔
      IsHeader f ∧ ∃ before after, ms = before ++ (f, c) :: after ∧ ∀ m ∈ after, m.1 ≠ f) := by
  intro c
  induction ms using List.reverseRecOn with
  | nil => simp [aget]
  | append_singleton ms p ih =>
    obtain ⟨k, v⟩ := p
    by_cases hv : validMember k = true
    · rw [List.filter_append, List.filter_cons_of_pos (by exact hv), List.filter_nil,
        List.reverse_append, List.reverse_singleton, List.singleton_append, aget]
      by_cases hk : k = f
      · subst hk
        rw [if_pos rfl]
        constructor
        · intro h; cases h
          exact ⟨(validMember_iff k).mp hv, ms, [], rfl, by simp⟩
        · rintro ⟨-, before, after, he, hn⟩
          rcases List.eq_nil_or_concat after with rfl | ⟨a', x, rfl⟩
          · have := List.append_inj_right' he (by simp)
            simp at this; rw [this]
          · have he' : ms ++ [(k, v)] = (before ++ (k, c) :: a') ++ [x] := by simp [he]
            have := List.append_inj_right' he' (by simp)
            have hx : x = (k, v) := by simpa using this.symm
            exact absurd (by rw [hx]) (hn x (by simp))
      · rw [if_neg hk, ih]
        refine and_congr_right (fun _ => ?_)
        constructor
        · rintro ⟨b, a, rfl, hn⟩
          refine ⟨b, a ++ [(k, v)], by simp, ?_⟩
          intro m hm
          rcases List.mem_append.mp hm with hm | hm
          · exact hn m hm
          · rw [List.mem_singleton.mp hm]; exact hk
        · rintro ⟨before, after, he, hn⟩
          rcases List.eq_nil_or_concat after with rfl | ⟨a', x, rfl⟩
          · have := List.append_inj_right' he (by simp)
            simp at this; exact absurd this.1 hk
          · have he' : ms ++ [(k, v)] = (before ++ (f, c) :: a') ++ [x] := by simp [he]
            have := List.append_inj_left' he' (by simp)
            exact ⟨before, a', this, fun m hm => hn m (by simp [hm])⟩
    · rw [List.filter_append, List.filter_cons_of_neg (by exact hv), List.filter_nil,
        List.append_nil, ih]
      constructor
      · rintro ⟨hh, b, a, rfl, hn⟩
        refine ⟨hh, b, a ++ [(k, v)], by simp, ?_⟩
        intro m hm
        rcases List.mem_append.mp hm with hm | hm
        · exact hn m hm
        · rw [List.mem_singleton.mp hm]
          rintro rfl
          exact hv ((validMember_iff _).mpr hh)
      · rintro ⟨hh, before, after, he, hn⟩
        rcases List.eq_nil_or_concat after with rfl | ⟨a', x, rfl⟩
        · have := List.append_inj_right' he (by simp)
          simp at this
          rw [this.1] at hv
          exact absurd ((validMember_iff _).mpr hh) hv
        · have he' : ms ++ [(k, v)] = (before ++ (f, c) :: a') ++ [x] := by simp [he]
          have := List.append_inj_left' he' (by simp)
          exact ⟨hh, before, a', this, fun m hm => hn m (by simp [hm])⟩

theorem IsHeader_ne_marker {f : Str} (h : IsHeader f) : f ≠ c!"installVersion" := by
  rintro rfl
  exact absurd ((validMember_iff _).mpr h) (by decide)

theorem lib_not_header (a n : Str) : ¬ IsHeader (a ++ c!"/" ++ n ++ c!".lib") := by
  rintro ⟨p, b, stem, h1, h2, h3, h4⟩
  have hsuf : ∃ q, a ++ c!"/" ++ n ++ c!".lib" = q ++ b := by
    rcases h1 with h | h
    · exact ⟨[], h⟩
    · exact ⟨p ++ ['/'], by rw [h]; simp⟩
  obtain ⟨q, hq⟩ := hsuf
  rcases h4 with rfl | rfl
  · have := congrArg List.getLast? hq
    rw [show q ++ (stem ++ c!".h") = (q ++ stem ++ c!".") ++ ['h'] by simp,
      show a ++ c!"/" ++ n ++ c!".lib" = (a ++ c!"/" ++ n ++ c!".li") ++ ['b'] by simp] at this
    rw [List.getLast?_append, List.getLast?_append] at this
    simp at this
  · have := congrArg List.getLast? hq
    rw [show q ++ (stem ++ c!".gypi") = (q ++ stem ++ c!".gyp") ++ ['i'] by simp,
      show a ++ c!"/" ++ n ++ c!".lib" = (a ++ c!"/" ++ n ++ c!".li") ++ ['b'] by simp] at this
    rw [List.getLast?_append, List.getLast?_append] at this
    simp at this

theorem lib_ne_marker (a n : Str) : a ++ c!"/" ++ n ++ c!".lib" ≠ c!"installVersion" := by
  intro h
  have : '/' ∈ c!"installVersion" := by rw [← h]; simp
  exact absurd this (by decide)

/-- What the puts of an installation amount to. -/
theorem complete_of_puts {E : InstEnv} {rel : InstRelease} {got : List (Str × Str)}
    {ms old new : Files} (lib : Option Str)
    (hl : E.win = true → ∃ b, lib = some b ∧ (rel.libPath, b) ∈ got)
    (hnl : E.win ≠ true → lib = none)
    (base : Files)
    (hnew : ∀ f, (match aget (aset ((match lib with
          | some b => aset ((ms.filter fun p => validMember p.1).foldl
              (fun d p => aset d p.1 p.2) base) (E.arch ++ c!"/" ++ rel.name ++ c!".lib") b
          | none => (ms.filter fun p => validMember p.1).foldl (fun d p => aset d p.1 p.2) base))
          c!"installVersion" (installVersionText E)) f with
        | some c => Put E old new f c ∨ (aget base f = some c ∧ aget new f = aget old f)
        | none => aget new f = aget old f))
    (hbase : ∀ f c, aget base f = some c → aget old f = some c) :
    Complete E rel got ms old new := by
  have hput : ∀ {f c}, (Put E old new f c ∨ (aget base f = some c ∧ aget new f = aget old f)) →
      Put E old new f c := by
    rintro f c (h | ⟨h1, h2⟩)
    · exact h
    · exact Or.inl (h2.trans (hbase f c h1))
  refine ⟨?_, ?_, ?_, ?_⟩
  · have := hnew c!"installVersion"
    rw [aget_aset, if_pos rfl] at this
    exact hput this
  · intro before f c after hms hh hlast
    have h1 := (aget_headers ms f c).mpr ⟨hh, before, after, hms, hlast⟩
    have := hnew f
    rw [aget_aset, if_neg (IsHeader_ne_marker hh)] at this
    have hnlib : f ≠ E.arch ++ c!"/" ++ rel.name ++ c!".lib" := by
      rintro rfl; exact lib_not_header _ _ hh
    cases lib with
    | none =>
      dsimp only at this
      rw [aget_foldl_aset, h1] at this
      exact hput this
    | some b =>
      dsimp only at this
      rw [aget_aset, if_neg hnlib, aget_foldl_aset, h1] at this
      exact hput this
  · intro hw
    obtain ⟨b, rfl, hb⟩ := hl hw
    refine ⟨b, hb, ?_⟩
    have := hnew (E.arch ++ c!"/" ++ rel.name ++ c!".lib")
    rw [aget_aset, if_neg (lib_ne_marker _ _)] at this
    dsimp only at this
    rw [aget_aset, if_pos rfl] at this
    exact hput this
  · intro f hm hlib hms
    have hnone : aget (ms.filter fun p => validMember p.1).reverse f = none := by
      cases h : aget (ms.filter fun p => validMember p.1).reverse f with
      | none => rfl
      | some c =>
        obtain ⟨hh, b, a, hms', -⟩ := (aget_headers ms f c).mp h
        exact absurd rfl (hms (f, c) (by rw [hms']; simp) hh)
    have := hnew f
    rw [aget_aset, if_neg hm] at this
    have hres : (match aget base f with
        | some c => Put E old new f c ∨ (aget base f = some c ∧ aget new f = aget old f)
        | none => aget new f = aget old f) := by
      cases lib with
      | none =>
        dsimp only at this
        rw [aget_foldl_aset, hnone] at this
        exact this
      | some b =>
        have hw : E.win = true := by
          by_contra hw
          cases hnl hw
        dsimp only at this
        rw [aget_aset, if_neg (hlib hw), aget_foldl_aset, hnone] at this
        exact this
    cases hb : aget base f with
    | none => rw [hb] at hres; exact hres
    | some c =>
      rw [hb] at hres
      rcases hres with (h | ⟨-, -, -, h⟩) | ⟨-, h⟩
      · rw [h, hbase f c hb]
      · exact h
      · exact h

theorem goBody_done {E : InstEnv} {s : InstState} {dir : Str} (rel : InstRelease) (want : Bool)
    {old : Files} (hold : aget s.disk dir = some old) :
    wp (goBody E rel dir want)
      (fun _ s' => ∃ ms new, ArchiveOf E rel want s'.got ms ∧ aget s'.disk dir = some new ∧
        Complete E rel s'.got ms old new)
      (fun _ _ => True) s := by
  have hmonoA : ∀ {got got' : List (Str × Str)} {ms}, (∀ x ∈ got, x ∈ got') →
      ArchiveOf E rel want got ms → ArchiveOf E rel want got' ms := by
    rintro got got' ms h (h1 | ⟨h1, h2, b, h3, h4⟩)
    · exact Or.inl h1
    · refine Or.inr ⟨h1, h2, b, h3, ?_⟩
      rcases h4 with h4 | h4
      · exact Or.inl h4
      · exact Or.inr ⟨h4.1, h _ h4.2⟩
  unfold goBody
  rw [wp_bind, wp_upd]
  show wp _ _ _ (goStart s dir)
  obtain ⟨base, hbase, hb1, hb2⟩ : ∃ base, Store E dir (goStart s dir) = some base ∧
      (E.win = true → base = []) ∧ (E.win ≠ true → base = old) := by
    by_cases hw : E.win = true
    · exact ⟨[], by unfold Store; rw [if_pos hw]; rfl, fun _ => rfl, fun h => absurd hw h⟩
    · exact ⟨old, by unfold Store; rw [if_neg hw]; exact hold, fun h => absurd h hw, fun _ => rfl⟩
  rw [wp_bind]
  have hT : wp (if want = true then getTarball E rel dir else pure [])
      (fun _ s' => ∃ ms, ArchiveOf E rel want s'.got ms ∧ Store E dir s' =
          some ((ms.filter fun p => validMember p.1).foldl (fun d p => aset d p.1 p.2) base) ∧
        WinKeep E (goStart s dir) s') (fun _ _ => True) (goStart s dir) := by
    cases want with
    | true => rw [if_pos rfl]; exact getTarball_store rel hbase
    | false => exact ⟨[], Or.inl ⟨rfl, rfl⟩, hbase, fun _ => rfl⟩
  refine wp_mono hT ?_ (fun _ _ _ => trivial)
  rintro content s1 ⟨ms, ha, h1, k1⟩
  rw [wp_bind]
  have hL : wp (if E.win = true then getNodeLib E rel dir content else pure content)
      (fun _ s' => ∃ lib, (E.win = true → ∃ b, lib = some b ∧ (rel.libPath, b) ∈ s'.got) ∧
        (E.win ≠ true → lib = none) ∧ (∀ x ∈ s1.got, x ∈ s'.got) ∧
        Store E dir s' = some (match lib with
          | some b => aset ((ms.filter fun p => validMember p.1).foldl
              (fun d p => aset d p.1 p.2) base) (E.arch ++ c!"/" ++ rel.name ++ c!".lib") b
          | none => (ms.filter fun p => validMember p.1).foldl (fun d p => aset d p.1 p.2) base) ∧
        WinKeep E s1 s') (fun _ _ => True) s1 := by
    by_cases hw : E.win = true
    · rw [if_pos hw]
      refine wp_mono (getNodeLib_store rel content h1) ?_ (fun _ _ _ => trivial)
      rintro - s2 ⟨b, hb, hm, hst, k⟩
      exact ⟨some b, fun _ => ⟨b, rfl, hb⟩, fun h => absurd hw h, hm, hst, k⟩
    · rw [if_neg hw]
      exact ⟨none, fun h => absurd h hw, fun _ => rfl, fun _ h => h, h1, fun _ => rfl⟩
  refine wp_mono hL ?_ (fun _ _ _ => trivial)
  rintro content s2 ⟨lib, hl1, hl2, hm2, h2, k2⟩
  rw [wp_bind]
  refine wp_mono (putFile_store .write h2) ?_ (fun _ _ _ => trivial)
  rintro - s3 ⟨h3, k3, e3⟩
  rw [wp_bind]
  have hS : wp (if E.tarball = none ∨ E.win = true then getShasums E rel else pure [])
      (fun _ s' => Store E dir s' = Store E dir s3 ∧ WinKeep E s3 s' ∧ s'.got = s3.got)
      (fun _ _ => True) s3 := by
    split
    · unfold getShasums
      rw [wp_bind]
      refine wp_mono (fetch_store _ h3) ?_ (fun _ _ _ => trivial)
      rintro text s4 ⟨h4, k4, e4⟩
      rw [wp_bind, wp_upd, wp_pure]
      exact ⟨h4.trans h3.symm, k4, e4.1⟩
    · exact ⟨rfl, fun _ => rfl, rfl⟩
  refine wp_mono hS ?_ (fun _ _ _ => trivial)
  rintro expect s4 ⟨h4, k4, g4⟩
  rw [wp_bind]
  refine wp_mono (verifySums_same expect content s4) ?_ (fun _ _ _ => trivial)
  rintro - s5 rfl
  rw [h3] at h4
  have hgot : ∀ x ∈ s1.got, x ∈ s5.got := fun x hx => by
    rw [g4, e3.1]; exact hm2 x hx
  have hl1' : E.win = true → ∃ b, lib = some b ∧ (rel.libPath, b) ∈ s5.got := fun hw => by
    rw [g4, e3.1]; exact hl1 hw
  by_cases hw : E.win = true
  · rw [if_pos hw, wp_bind]
    refine wp_mono (Q := fun tmp s' => tmp = s5.tmp ∧ s' = s5) (R := fun _ _ => False) ?_ ?_ ?_
    · exact ⟨rfl, rfl⟩
    · rintro tmp s6 ⟨rfl, rfl⟩
      have hdisk : aget s6.disk dir = some old := by
        rw [k4 hw, k3 hw, k2 hw, k1 hw]; exact hold
      have htmp : s6.tmp = _ := Option.some.inj (by rw [← h4]; unfold Store; rw [if_pos hw])
      refine wp_mono (copyAll_store s6.tmp s6 old hdisk ?_) ?_ (fun _ _ _ => trivial)
      · rw [htmp]
        apply akeys_aset_nodup
        cases lib with
        | none => exact akeys_foldl_nodup _ _ (by rw [hb1 hw]; simp [akeys])
        | some b => exact akeys_aset_nodup (akeys_foldl_nodup _ _ (by rw [hb1 hw]; simp [akeys])) _ _
      · rintro - s7 ⟨e7, new, hn7, hf7⟩
        refine ⟨ms, new, hmonoA (fun x hx => by rw [e7.1]; exact hgot x hx) ha, hn7, ?_⟩
        refine complete_of_puts lib (fun hw => by rw [e7.1]; exact hl1' hw) hl2 base ?_ ?_
        · intro f
          have := hf7 f
          rw [htmp] at this
          split at this
          · rename_i c hc
            rw [hc]
            rcases this with h | ⟨h, h', h''⟩
            · exact Or.inl (Or.inl h)
            · exact Or.inl (Or.inr ⟨hw, h, h', h''⟩)
          · rename_i hc
            rw [hc]; exact this
        · intro f c hc
          rw [hb1 hw] at hc; cases hc
    · intro _ _ h; exact h.elim
  · rw [if_neg hw, wp_pure]
    have hst := h4
    unfold Store at hst
    rw [if_neg hw] at hst
    refine ⟨ms, _, hmonoA hgot ha, hst, ?_⟩
    refine complete_of_puts lib hl1' hl2 base ?_ ?_
    · intro f
      split
      · rename_i c hc; exact Or.inl (Or.inl hc)
      · rename_i hc
        rw [hc]
        rw [aget_none_iff', mem_akeys_aset] at hc
        push Not at hc
        have hlib := hl2 hw
        subst hlib
        dsimp only at hc
        rw [← aget_none_iff', aget_foldl_aset] at hc
        have h2 := hc.2
        split at h2
        · cases h2
        · rw [← hb2 hw, h2]
    · intro f c hc
      rw [hb2 hw] at hc; exact hc

/-- What a successful installation of `a` has done. -/
def OutcomeOf (E : InstEnv) (a : List Str) (s s' : InstState) : Prop :=
  ((E.release a).pre = true ∧ E.nodedir = true ∧ NothingDone s s') ∨
  (E.ensure = true ∧ NothingDone s s' ∧
    UpToDate E s.disk (versionPath s'.devDir (E.release a).versionDir)) ∨
  (InstalledNow E (E.release a) (versionPath s'.devDir (E.release a).versionDir) s s' ∧
    s'.begun = versionPath s'.devDir (E.release a).versionDir :: s.begun)

theorem Quiet.outcome {E : InstEnv} {a : List Str} {s s1 s' : InstState} (h : Quiet s s1)
    (h' : OutcomeOf E a s1 s') : OutcomeOf E a s s' := by
  unfold OutcomeOf InstalledNow NothingDone at h' ⊢
  rw [h.disk, h.got, h.begun] at h'
  exact h'

/-- The marker records the version. -/
def MarkerOk (E : InstEnv) (disk : Disk) (dir : Str) : Prop :=
  ∃ fs text v, aget disk dir = some fs ∧ aget fs c!"installVersion" = some text ∧
    StartsWithNumber text v ∧ E.installVersion ≤ v

theorem goInstall_done {E : InstEnv} {s : InstState} (a : List Str) (want : Bool)
    (hne : (E.release a).tarballName ≠ (E.release a).libPath)
    (hw : want = false → E.ensure = true ∧ E.win = true ∧
      MarkerOk E s.disk (versionPath s.devDir (E.release a).versionDir))
    (P : InstState → InstState → Prop) (hP : ∀ s s', OutcomeOf E a s s' → P s s')
    (hPq : ∀ s s1 s', Quiet s s1 → P s1 s' → P s s')
    (fallback : InstErr → InstM Unit)
    (hf : ∀ e s, wp (fallback e) (fun _ s' => P s s') (fun _ _ => True) s) :
    wp (goInstall E (E.release a) (versionPath s.devDir (E.release a).versionDir) want fallback)
      (fun _ s' => P s s') (fun _ _ => True) s := by
  unfold goInstall
  rw [wp_bind, wp_attempt]
  refine wp_mono (mkdir_wp E _ s) ?_ ?_
  · rintro - s1 ⟨hd, hg, hs, hb, hdir, hfr⟩
    dsimp only
    refine wp_mono (wp_and (goBody_done (E.release a) want hdir) (goBody_inv (E.release a) want hne))
      ?_ (fun _ _ _ => trivial)
    rintro - s' ⟨⟨ms, new, ha, hn, hc⟩, hi, -⟩
    apply hP
    have hdev : s'.devDir = s.devDir := hi.devDir.trans hd
    refine Or.inr (Or.inr ⟨⟨want, ms, new, ha, ?_, ?_, ?_, ?_⟩, ?_⟩)
    · rw [hdev]; exact hn
    · rw [hdev]; exact hc
    · rw [hdev]; intro d hd'; exact (hi.frame d hd').trans (hfr d hd')
    · rw [hdev]; exact hw
    · rw [hdev, hi.begun, ← hb]; rfl
  · rintro e s1 ⟨hq, hd⟩
    dsimp only
    split
    · exact wp_mono (hf e s1) (fun _ _ h => hPq _ _ _ hq h) (fun _ _ _ => trivial)
    · trivial

theorem goOrRollback_done {E : InstEnv} {s : InstState} (a : List Str) (want : Bool)
    (hne : (E.release a).tarballName ≠ (E.release a).libPath)
    (hw : want = false → E.ensure = true ∧ E.win = true ∧
      MarkerOk E s.disk (versionPath s.devDir (E.release a).versionDir))
    (P : InstState → InstState → Prop) (hP : ∀ s s', OutcomeOf E a s s' → P s s')
    (hPq : ∀ s s1 s', Quiet s s1 → P s1 s' → P s s')
    (fallback : InstErr → InstM Unit)
    (hf : ∀ e s, wp (fallback e) (fun _ s' => P s s') (fun _ _ => True) s) :
    wp (goOrRollback E (E.release a) (versionPath s.devDir (E.release a).versionDir) want fallback)
      (fun _ s' => P s s') (fun _ _ => True) s := by
  unfold goOrRollback
  rw [wp_bind, wp_attempt]
  refine wp_mono (goInstall_done a want hne hw P hP hPq fallback hf) ?_ ?_
  · rintro - s1 h1; exact h1
  · rintro e s1 -
    dsimp only
    rw [wp_bind]
    unfold wp
    split <;> trivial

theorem readFile_wp (E : InstEnv) (dir file : Str) (s : InstState) :
    wp (readFile E dir file) (fun t s' => (Quiet s s' ∧ s'.devDir = s.devDir) ∧
      ∃ fs, aget s.disk dir = some fs ∧ aget fs file = some t)
      (fun _ s' => Quiet s s' ∧ s'.devDir = s.devDir) s := by
  have h1 := readFile_quiet E dir file s
  refine wp_mono (wp_and h1 (Q' := fun t _ => ∃ fs, aget s.disk dir = some fs ∧ aget fs file = some t)
    (R' := fun _ _ => True) ?_) (fun _ _ h => h) (fun _ _ h => h.1)
  unfold readFile
  apply wp_op
  · intros; trivial
  · intro _ t s' hs
    dsimp only at hs
    split at hs
    · cases hs
    · rename_i fs hfs
      split at hs
      · cases hs
      · rename_i c hc
        cases hs
        exact ⟨fs, hfs, hc⟩
  · intros; trivial

theorem statFile_wp (E : InstEnv) (dir file : Str) (s : InstState) :
    wp (statFile E dir file) (fun _ s' => (Quiet s s' ∧ s'.devDir = s.devDir) ∧
      ∃ fs, aget s.disk dir = some fs ∧ aget fs file ≠ none)
      (fun _ s' => Quiet s s' ∧ s'.devDir = s.devDir) s := by
  have h1 := statFile_quiet E dir file s
  refine wp_mono (wp_and h1 (Q' := fun _ _ => ∃ fs, aget s.disk dir = some fs ∧ aget fs file ≠ none)
    (R' := fun _ _ => True) ?_) (fun _ _ h => h) (fun _ _ h => h.1)
  unfold statFile
  apply wp_op
  · intros; trivial
  · intro _ t s' hs
    dsimp only at hs
    split at hs
    · cases hs
    · rename_i fs hfs
      refine ⟨fs, hfs, ?_⟩
      intro hn
      rw [hn] at hs
      cases hs
  · intros; trivial

theorem jsSpace_Space {c : Char} (h : jsSpace c = true) : Space c := (jsSpace_iff c).mp h

theorem leadingNat_spec (s : Str) : ∃ ds r, s = ds ++ r ∧ (∀ c ∈ ds, '0' ≤ c ∧ c ≤ '9') ∧
    (∀ c, r.head? = some c → ¬ ('0' ≤ c ∧ c ≤ '9')) ∧ decValue ds = leadingNat s := by
  refine ⟨s.takeWhile fun c => decide ('0' ≤ c ∧ c ≤ '9'),
    s.dropWhile fun c => decide ('0' ≤ c ∧ c ≤ '9'), List.takeWhile_append_dropWhile.symm, ?_, ?_, rfl⟩
  · intro c hc
    exact of_decide_eq_true (List.all_eq_true.mp List.all_takeWhile c hc)
  · intro c hc
    have := List.head?_dropWhile_not (fun c => decide ('0' ≤ c ∧ c ≤ '9')) s
    rw [hc] at this
    simpa using this

theorem parseIntOr0_spec {text : Str} {k : Nat} (hk : 0 < k) (h : ¬ parseIntOr0 text < (k : Int)) :
    ∃ v, StartsWithNumber text v ∧ k ≤ v := by
  have hsplit : text = text.takeWhile jsSpace ++ text.dropWhile jsSpace :=
    List.takeWhile_append_dropWhile.symm
  have hbl : Blank (text.takeWhile jsSpace) := fun c hc =>
    jsSpace_Space (List.all_eq_true.mp List.all_takeWhile c hc)
  unfold parseIntOr0 at h
  split at h
  · rename_i r hr
    exfalso
    have : (0 : Int) ≤ (leadingNat r : Int) := Int.natCast_nonneg _
    omega
  · rename_i r hr
    obtain ⟨ds, t, h1, h2, h3, h4⟩ := leadingNat_spec r
    refine ⟨leadingNat r, ⟨_, c!"+", ds, t, ?_, hbl, Or.inr rfl, h2, h3, h4⟩, by omega⟩
    conv_lhs => rw [hsplit, hr, h1]
    simp
  · obtain ⟨ds, t, h1, h2, h3, h4⟩ := leadingNat_spec (text.dropWhile jsSpace)
    refine ⟨leadingNat (text.dropWhile jsSpace), ⟨_, [], ds, t, ?_, hbl, Or.inl rfl, h2, h3, h4⟩, by omega⟩
    conv_lhs => rw [hsplit, h1]
    simp

theorem ensureInstall_done {E : InstEnv} {s : InstState} (a : List Str) (hpos : 0 < E.installVersion)
    (hne : (E.release a).tarballName ≠ (E.release a).libPath) (hen : E.ensure = true)
    (P : InstState → InstState → Prop) (hP : ∀ s s', OutcomeOf E a s s' → P s s')
    (hPq : ∀ s s1 s', Quiet s s1 → P s1 s' → P s s')
    (fallback : InstErr → InstM Unit)
    (hf : ∀ e s, wp (fallback e) (fun _ s' => P s s') (fun _ _ => True) s) :
    wp (ensureInstall E (E.release a) (versionPath s.devDir (E.release a).versionDir) fallback)
      (fun _ s' => P s s') (fun _ _ => True) s := by
  have hgo : ∀ s2 want, Quiet s s2 → s2.devDir = s.devDir →
      (want = false → E.ensure = true ∧ E.win = true ∧
        MarkerOk E s.disk (versionPath s.devDir (E.release a).versionDir)) →
      wp (goOrRollback E (E.release a) (versionPath s.devDir (E.release a).versionDir) want fallback)
        (fun _ s' => P s s') (fun _ _ => True) s2 := by
    intro s2 want hq hd hw
    rw [← hd]
    refine wp_mono (goOrRollback_done a want hne ?_ P hP hPq fallback hf)
      (fun _ _ h => hPq _ _ _ hq h) (fun _ _ h => h)
    rw [hd, hq.disk]; exact hw
  have hfb : ∀ e s2, Quiet s s2 → wp (fallback e) (fun _ s' => P s s') (fun _ _ => True) s2 :=
    fun e s2 hq => wp_mono (hf e s2) (fun _ _ h => hPq _ _ _ hq h) (fun _ _ h => h)
  unfold ensureInstall
  rw [wp_bind, wp_attempt]
  refine wp_mono (statDir_quiet E _ _ s) ?_ ?_
  swap
  · rintro e s1 ⟨hq, hd⟩
    dsimp only
    split
    · exact hgo s1 true hq hd (fun h => by cases h)
    · split
      · exact hfb e s1 hq
      · trivial
  · rintro - s1 ⟨hq1, hd1⟩
    dsimp only
    rw [wp_bind, wp_attempt]
    have hcont : ∀ s2 version, Quiet s s2 → s2.devDir = s.devDir →
        (¬ version < (E.installVersion : Int) →
          MarkerOk E s.disk (versionPath s.devDir (E.release a).versionDir)) →
        wp (if version < (E.installVersion : Int) then
            goOrRollback E (E.release a) (versionPath s.devDir (E.release a).versionDir) true fallback
          else if E.win = true then do
            let l ← InstM.attempt (statFile E (versionPath s.devDir (E.release a).versionDir)
              (E.arch ++ c!"/node.lib"))
            match l with
            | .ok _ => pure ()
            | .error e =>
              if e = .fs .enoent then
                goOrRollback E (E.release a) (versionPath s.devDir (E.release a).versionDir) false fallback
              else if e = .fs .eacces then fallback e
              else InstM.fail e
          else pure ()) (fun _ s' => P s s') (fun _ _ => True) s2 := by
      intro s2 version hq hd hmk
      split
      · exact hgo s2 true hq hd (fun h => by cases h)
      · rename_i hv
        obtain ⟨fs, text, v, hm1, hm2, hm3, hm4⟩ := hmk hv
        have hup : ∀ s3, Quiet s s3 → s3.devDir = s.devDir →
            (E.win = true → aget fs (E.arch ++ c!"/node.lib") ≠ none) → P s s3 := by
          intro s3 hq3 hd3 hl
          apply hP
          refine Or.inr (Or.inl ⟨hen, ⟨hq3.disk, hq3.got, hq3.begun⟩, fs, text, v, ?_, hm2, hm3, hm4, hl⟩)
          rw [hd3]; exact hm1
        split
        · rename_i hw
          rw [wp_bind, wp_attempt]
          refine wp_mono (statFile_wp E _ _ s2) ?_ ?_
          · rintro - s3 ⟨⟨hq3, hd3⟩, fs', h1, h2⟩
            apply hup s3 (hq.trans hq3) (hd3.trans hd)
            rw [hq.disk, hm1] at h1
            cases h1
            exact fun _ => h2
          · rintro e s3 ⟨hq3, hd3⟩
            dsimp only
            split
            · exact hgo s3 false (hq.trans hq3) (hd3.trans hd)
                (fun _ => ⟨hen, hw, fs, text, v, hm1, hm2, hm3, hm4⟩)
            · split
              · exact hfb e s3 (hq.trans hq3)
              · trivial
        · rename_i hw
          exact hup s2 hq hd (fun h => absurd h hw)
    refine wp_mono (readFile_wp E _ _ s1) ?_ ?_
    · rintro t s2 ⟨⟨hq2, hd2⟩, fs, h1, h2⟩
      rw [wp_bind]
      refine hcont s2 (parseIntOr0 t) (hq1.trans hq2) (hd2.trans hd1) ?_
      intro hv
      obtain ⟨v, hv1, hv2⟩ := parseIntOr0_spec hpos hv
      exact ⟨fs, t, v, hq1.disk ▸ h1, h2, hv1, hv2⟩
    · rintro e s2 ⟨hq2, hd2⟩
      rw [wp_bind]
      dsimp only
      split
      · refine hcont s2 0 (hq1.trans hq2) (hd2.trans hd1) ?_
        intro hv
        exact absurd (by omega) hv
      · trivial

theorem installRun_done {E : InstEnv} (hpos : 0 < E.installVersion)
    (hne : ∀ a, (E.release a).tarballName ≠ (E.release a).libPath) :
    ∀ fuel argv s, wp (installRun E fuel argv)
      (fun _ s' => ∃ a, (a = argv ∨ (noretryWord ∉ argv ∧ a = noretryWord :: argv)) ∧
        OutcomeOf E a s s')
      (fun _ _ => True) s
  | 0, _, s => trivial
  | fuel + 1, argv, s => by
    have hPq : ∀ s s1 s', Quiet s s1 →
        (∃ a, (a = argv ∨ (noretryWord ∉ argv ∧ a = noretryWord :: argv)) ∧ OutcomeOf E a s1 s') →
        (∃ a, (a = argv ∨ (noretryWord ∉ argv ∧ a = noretryWord :: argv)) ∧ OutcomeOf E a s s') := by
      rintro s s1 s' hq ⟨a, ha, h⟩; exact ⟨a, ha, hq.outcome h⟩
    have hf : ∀ e s, wp (eaccesFallback E argv (installRun E fuel) e)
        (fun _ s' => ∃ a, (a = argv ∨ (noretryWord ∉ argv ∧ a = noretryWord :: argv)) ∧
          OutcomeOf E a s s') (fun _ _ => True) s := by
      intro e s
      unfold eaccesFallback
      split
      · trivial
      · rename_i hno
        rw [wp_bind, wp_upd, wp_bind, wp_upd]
        refine wp_mono (installRun_done hpos hne fuel (noretryWord :: argv) _) ?_ (fun _ _ h => h)
        rintro - s' ⟨a, ha, h⟩
        refine ⟨a, ?_, Quiet.outcome ?_ h⟩
        · rcases ha with ha | ⟨ha, -⟩
          · exact Or.inr ⟨hno, ha⟩
          · exact absurd List.mem_cons_self ha
        · split <;> exact ⟨rfl, rfl, rfl, rfl⟩
    have hq : Quiet s { s with tries := s.tries + 1 } := ⟨rfl, rfl, rfl, rfl⟩
    unfold wp
    rw [installRun]
    dsimp only
    by_cases h1 : (E.release argv).valid = false
    · rw [if_pos h1]; trivial
    · rw [if_neg h1]
      by_cases h2 : (E.release argv).tooOld = true
      · rw [if_pos h2]; trivial
      · rw [if_neg h2]
        by_cases h3 : (E.release argv).pre = true
        · rw [if_pos h3]
          by_cases h4 : E.nodedir = true
          · rw [if_pos h4]; exact ⟨argv, Or.inl rfl, Or.inl ⟨h3, h4, rfl, rfl, rfl⟩⟩
          · rw [if_neg h4]; trivial
        · rw [if_neg h3]
          by_cases h5 : E.ensure = true
          · rw [if_pos h5]
            exact wp_mono (ensureInstall_done (s := { s with tries := s.tries + 1 }) argv hpos
              (hne argv) h5 _ (fun s s' h => ⟨argv, Or.inl rfl, h⟩) hPq _ hf)
              (fun _ _ h => hPq _ _ _ hq h) (fun _ _ h => h)
          · rw [if_neg h5]
            exact wp_mono (goOrRollback_done (s := { s with tries := s.tries + 1 }) argv true
              (hne argv) (fun h => by cases h) _ (fun s s' h => ⟨argv, Or.inl rfl, h⟩) hPq _ hf)
              (fun _ _ h => hPq _ _ _ hq h) (fun _ _ h => h)

end Gyp
