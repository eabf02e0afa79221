import Verif.Model.HeaderMap
import Verif.Spec.HeaderMap
import Mathlib.Data.List.Forall2
/-
C119: header maps.
-/
namespace Gyp
open Spec

theorem bitLength_lt (n : Nat) : n < 2 ^ bitLength n := by
  unfold bitLength
  by_cases h : n = 0
  · simp [h]
  · rw [if_neg h]
    exact Nat.lt_log2_self

theorem hmapKey_start (s : Str) : hmapKey s = startSlot s := by
  unfold hmapKey startSlot
  induction s with
  | nil => rfl
  | cons c s ih => simp only [List.map_cons, List.sum_cons, ih]; omega

theorem startSlot_same {a b : Str} (h : sameName a b = true) : startSlot a = startSlot b := by
  unfold sameName at h
  have h := of_decide_eq_true h
  have e : ∀ s : Str, (s.map fun c => c.toLower.toNat) = (s.map Char.toLower).map Char.toNat := by
    intro s; simp
  unfold startSlot
  rw [e, e, h]

/-- Slots as the code reads them. -/
theorem getD_slotAt {bs : List HmapSlot} {k : Nat} (hl : bs.length = 2 ^ k) (i : Nat) :
    bs.getD (i &&& (bs.length - 1)) none = slotAt bs i := by
  unfold slotAt
  rw [hl, Nat.and_two_pow_sub_one_eq_mod]
  have : i % 2 ^ k < bs.length := by rw [hl]; exact Nat.mod_lt _ (Nat.two_pow_pos k)
  simp [List.getD, List.getElem?_eq_getElem this]

/-- The loop finds the first empty slot. -/
theorem freeSlot_first {bs : List HmapSlot} {k : Nat} (hl : bs.length = 2 ^ k) : ∀ (bound key : Nat),
    (∃ d < bound, slotAt bs (key + d) = none) →
    ∃ d, freeSlot bs bs.length key bound = some ((key + d) % bs.length) ∧ slotAt bs (key + d) = none ∧
      ∀ i < d, (slotAt bs (key + i)).isSome = true
  | 0, key, h => by obtain ⟨d, hd, _⟩ := h; omega
  | bound + 1, key, h => by
    unfold freeSlot
    rw [getD_slotAt hl]
    have ea : key &&& (bs.length - 1) = key % bs.length := by rw [hl, Nat.and_two_pow_sub_one_eq_mod]
    cases hs : slotAt bs key with
    | none => exact ⟨0, by simp [ea], by simpa using hs, by omega⟩
    | some e =>
      obtain ⟨d, hd, hn⟩ := h
      have hd0 : d ≠ 0 := by
        rintro rfl
        rw [Nat.add_zero, hs] at hn
        cases hn
      obtain ⟨d', h1, h2, h3⟩ := freeSlot_first hl bound (key + 1) ⟨d - 1, by omega, by
        rw [show key + 1 + (d - 1) = key + d by omega]; exact hn⟩
      refine ⟨d' + 1, ?_, ?_, ?_⟩
      · rw [show key + (d' + 1) = key + 1 + d' by omega]
        simpa using h1
      · rw [show key + (d' + 1) = key + 1 + d' by omega]
        exact h2
      · intro i hi
        cases i with
        | zero => simp [hs]
        | succ i =>
          rw [show key + (i + 1) = key + 1 + i by omega]
          exact h3 i (by omega)

/-- From any start, an empty slot is reached. -/
theorem reach_empty {bs : List HmapSlot} (hc : bs.countP (·.isSome) < bs.length) (key : Nat) :
    ∃ d < bs.length, slotAt bs (key + d) = none := by
  have hx : ∃ b ∈ bs, b = none := by
    by_contra hn
    push Not at hn
    have := List.countP_eq_length (p := fun b : HmapSlot => b.isSome) (l := bs) |>.mpr fun b hb =>
      Option.isSome_iff_ne_none.mpr (hn b hb)
    omega
  obtain ⟨b, hb, rfl⟩ := hx
  obtain ⟨j, hj, ej⟩ := List.mem_iff_getElem.mp hb
  have hpos : 0 < bs.length := by omega
  have hk := Nat.mod_lt key hpos
  refine ⟨(j + (bs.length - key % bs.length)) % bs.length, Nat.mod_lt _ hpos, ?_⟩
  unfold slotAt
  have : (key + (j + (bs.length - key % bs.length)) % bs.length) % bs.length = j := by
    rw [Nat.add_mod, Nat.mod_mod, ← Nat.add_mod]
    have e : key + (j + (bs.length - key % bs.length)) = j + bs.length * (key / bs.length + 1) := by
      have := Nat.div_add_mod key bs.length
      rw [Nat.mul_add]
      omega
    rw [e, Nat.add_mul_mod_self_left, Nat.mod_eq_of_lt hj]
  rw [this, List.getElem?_eq_getElem hj, ej]
  rfl

theorem slotAt_set {bs : List HmapSlot} {e : Str × Str} {i j : Nat} (hpos : 0 < bs.length) :
    slotAt (bs.set (i % bs.length) (some e)) j =
      if j % bs.length = i % bs.length then some e else slotAt bs j := by
  unfold slotAt
  rw [List.length_set, List.getElem?_set]
  have hi := Nat.mod_lt i hpos
  by_cases h : j % bs.length = i % bs.length
  · simp [h, hi]
  · rw [if_neg (Ne.symm h), if_neg h]

/-- What holds of the table after some names are in. -/
structure HmapInv (k : Nat) (done : List (Str × Str)) (bs : List HmapSlot) : Prop where
  len : bs.length = 2 ^ k
  count : bs.countP (·.isSome) = done.length
  from_done : ∀ i e, slotAt bs i = some e → e ∈ done
  found : ∀ name e, done.find? (fun e => sameName e.1 name) = some e → LooksUp bs name (some e.2)

theorem HmapInv.missing {k : Nat} {done : List (Str × Str)} {bs : List HmapSlot} (inv : HmapInv k done bs)
    (hlt : done.length < 2 ^ k) {name : Str} (h : done.find? (fun e => sameName e.1 name) = none) :
    LooksUp bs name none := by
  have hc : bs.countP (·.isSome) < bs.length := by rw [inv.count, inv.len]; exact hlt
  obtain ⟨d, -, h2, h3⟩ := freeSlot_first inv.len bs.length (startSlot name) (reach_empty hc _)
  refine ⟨d, fun i hi => ?_, h2⟩
  obtain ⟨e, he⟩ := Option.isSome_iff_exists.mp (h3 i hi)
  refine ⟨e, he, ?_⟩
  have := List.find?_eq_none.mp h e (inv.from_done _ e he)
  simpa using this

theorem HmapInv.insert {k : Nat} {done : List (Str × Str)} {bs : List HmapSlot} (inv : HmapInv k done bs)
    (hlt : done.length < 2 ^ k) (e : Str × Str) :
    ∃ i, freeSlot bs (2 ^ k) (hmapKey e.1) (2 ^ k) = some i ∧ HmapInv k (done ++ [e]) (bs.set i (some e)) := by
  have hc : bs.countP (·.isSome) < bs.length := by rw [inv.count, inv.len]; exact hlt
  have hpos : 0 < bs.length := by omega
  obtain ⟨d, h1, h2, h3⟩ := freeSlot_first inv.len bs.length (startSlot e.1) (reach_empty hc _)
  rw [inv.len] at h1
  rw [hmapKey_start]
  refine ⟨_, h1, ?_⟩
  rw [← inv.len]
  have keep : ∀ j x, slotAt bs j = some x →
      slotAt (bs.set ((startSlot e.1 + d) % bs.length) (some e)) j = some x := by
    intro j x hj
    rw [slotAt_set hpos]
    by_cases h : j % bs.length = (startSlot e.1 + d) % bs.length
    · have : slotAt bs j = slotAt bs (startSlot e.1 + d) := by unfold slotAt; rw [h]
      rw [this, h2] at hj
      cases hj
    · rw [if_neg h, hj]
  refine ⟨by rw [List.length_set]; exact inv.len, ?_, ?_, ?_⟩
  · have hi := Nat.mod_lt (startSlot e.1 + d) hpos
    have hn : bs[(startSlot e.1 + d) % bs.length] = none := by
      have := h2
      unfold slotAt at this
      rw [List.getElem?_eq_getElem hi] at this
      simpa using this
    rw [List.countP_set hi, hn, inv.count]
    simp
  · intro i x hx
    rw [slotAt_set hpos] at hx
    split at hx
    · cases hx
      simp
    · exact List.mem_append_left _ (inv.from_done i x hx)
  · intro name x hx
    rw [List.find?_append] at hx
    cases hf : done.find? (fun e => sameName e.1 name) with
    | some y =>
      rw [hf] at hx
      simp at hx
      subst hx
      obtain ⟨d', g1, file, g2, g3⟩ := inv.found name y hf
      refine ⟨d', fun i hi => ?_, file, keep _ _ g2, g3⟩
      obtain ⟨z, z1, z2⟩ := g1 i hi
      exact ⟨z, keep _ _ z1, z2⟩
    | none =>
      rw [hf] at hx
      have hs : sameName e.1 name = true ∧ e = x := by
        cases hb : sameName e.1 name with
        | true => simp [hb] at hx; exact ⟨rfl, hx⟩
        | false => simp [hb] at hx
      obtain ⟨hs, rfl⟩ := hs
      have hst := startSlot_same hs
      refine ⟨d, fun i hi => ?_, e.1, ?_, hs⟩
      · obtain ⟨z, hz⟩ := Option.isSome_iff_exists.mp (h3 i hi)
        rw [← hst]
        refine ⟨z, keep _ _ hz, ?_⟩
        have := List.find?_eq_none.mp hf z (inv.from_done _ z hz)
        simpa using this
      · rw [← hst, slotAt_set hpos, if_pos rfl]

theorem fillBuckets_inv {k : Nat} : ∀ (es done : List (Str × Str)) (bs : List HmapSlot), HmapInv k done bs →
    done.length + es.length < 2 ^ k →
    ∃ out, fillBuckets (2 ^ k) es bs = some out ∧ HmapInv k (done ++ es) out
  | [], done, bs, inv, _ => ⟨bs, rfl, by simpa using inv⟩
  | e :: es, done, bs, inv, h => by
    rw [List.length_cons] at h
    obtain ⟨i, h1, h2⟩ := inv.insert (by omega) e
    obtain ⟨out, h3, h4⟩ := fillBuckets_inv es (done ++ [e]) _ h2 (by simp; omega)
    refine ⟨out, ?_, by simpa using h4⟩
    unfold fillBuckets
    rw [h1]
    exact h3

theorem hmapBuckets_inv (files : List (Str × Str)) :
    ∃ out, hmapBuckets files = some out ∧ HmapInv (bitLength files.length) files out := by
  have h0 : HmapInv (bitLength files.length) [] (List.replicate (2 ^ bitLength files.length) none) := by
    refine ⟨by simp, by simp, ?_, by simp⟩
    intro i e he
    unfold slotAt at he
    rw [List.length_replicate, List.getElem?_replicate] at he
    split at he <;> cases he
  have hlt := bitLength_lt files.length
  obtain ⟨out, h1, h2⟩ := fillBuckets_inv files [] _ h0 (by simpa using hlt)
  exact ⟨out, h1, by rwa [List.nil_append] at h2⟩

/-- C119: the table of a header map is always filled without running round for ever, and a compiler
that looks up any name finds the path of the first file with this name, without regard to case, and
finds nothing if there is no such file. -/
theorem C119_lookup (files : List (Str × Str)) : ∃ table, hmapBuckets files = some table ∧
    ∀ name, LooksUp table name ((files.find? fun e => sameName e.1 name).map (·.2)) := by
  obtain ⟨out, h1, h2⟩ := hmapBuckets_inv files
  refine ⟨out, h1, fun name => ?_⟩
  cases hf : files.find? (fun e => sameName e.1 name) with
  | none => exact h2.missing (bitLength_lt _) hf
  | some e => exact h2.found name e hf

/-- C119: a look-up has one result. -/
theorem C119_one_result (table : List (Option (Str × Str))) (name : Str) (r s : Option Str)
    (h1 : LooksUp table name r) (h2 : LooksUp table name s) : r = s := by
  obtain ⟨d, a1, a2⟩ := h1
  obtain ⟨d', b1, b2⟩ := h2
  have stop : ∀ {d : Nat} {r : Option Str}, (match r with
     | none => slotAt table (startSlot name + d) = none
     | some path => ∃ file, slotAt table (startSlot name + d) = some (file, path) ∧ sameName file name = true) →
     ¬ ∃ e, slotAt table (startSlot name + d) = some e ∧ sameName e.1 name = false := by
    rintro d r h ⟨e, e1, e2⟩
    cases r with
    | none => simp only at h; rw [h] at e1; cases e1
    | some p =>
      obtain ⟨file, f1, f2⟩ := h
      rw [f1] at e1
      cases e1
      rw [f2] at e2
      cases e2
  have : d = d' := by
    rcases Nat.lt_trichotomy d d' with h | h | h
    · exact absurd (b1 d h) (stop a2)
    · exact h
    · exact absurd (a1 d' h) (stop b2)
  subst this
  cases r with
  | none =>
    cases s with
    | none => rfl
    | some p => obtain ⟨f, f1, _⟩ := b2; simp only at a2; rw [a2] at f1; cases f1
  | some p =>
    obtain ⟨f, f1, _⟩ := a2
    cases s with
    | none => simp only at b2; rw [b2] at f1; cases f1
    | some q => obtain ⟨g, g1, _⟩ := b2; rw [f1] at g1; cases g1; rfl

theorem textAt_front (pre s rest : Str) (h : '\x00' ∉ s) : textAt (pre ++ (s ++ '\x00' :: rest)) pre.length = s := by
  unfold textAt
  rw [List.drop_left]
  induction s with
  | nil => simp
  | cons c s ih =>
    have hc : c ≠ '\x00' := fun e => h (by simp [e])
    simp only [List.cons_append, List.takeWhile_cons, hc, ne_eq, not_false_eq_true, decide_true, if_true]
    rw [ih fun hm => h (List.mem_cons_of_mem _ hm)]

theorem hmapOffsets_texts : ∀ (bs : List HmapSlot) (pre : Str),
    (∀ e, some e ∈ bs → '\x00' ∉ e.1 ∧ '\x00' ∉ dirname e.2 ∧ '\x00' ∉ basename e.2) →
    List.Forall₂ (fun (b : HmapSlot) (o : Nat × Nat × Nat) => match b with
      | none => o = (0, 0, 0)
      | some e => pre.length ≤ o.1 ∧ textAt (pre ++ hmapTexts bs) o.1 = e.1 ∧
          textAt (pre ++ hmapTexts bs) o.2.1 = dirname e.2 ++ ['/'] ∧
          textAt (pre ++ hmapTexts bs) o.2.2 = basename e.2) bs (hmapOffsets pre.length bs)
  | [], _, _ => .nil
  | none :: bs, pre, h => by
    unfold hmapOffsets hmapTexts
    exact .cons rfl (hmapOffsets_texts bs pre fun e he => h e (List.mem_cons_of_mem _ he))
  | some (file, path) :: bs, pre, h => by
    obtain ⟨z1, z2, z3⟩ := h (file, path) (List.mem_cons_self ..)
    have z2' : '\x00' ∉ dirname path ++ ['/'] := by
      intro hm
      rcases List.mem_append.mp hm with hm | hm
      · exact z2 hm
      · simp at hm
    unfold hmapOffsets hmapTexts
    refine .cons ⟨Nat.le_refl _, ?_, ?_, ?_⟩ ?_
    · have := textAt_front pre file ((dirname path ++ ['/']) ++ ['\x00'] ++ (basename path ++ ['\x00']) ++ hmapTexts bs) z1
      simpa using this
    · have := textAt_front (pre ++ file ++ ['\x00']) (dirname path ++ ['/']) (basename path ++ ['\x00'] ++ hmapTexts bs) z2'
      simpa [Nat.add_assoc] using this
    · have := textAt_front (pre ++ file ++ ['\x00'] ++ (dirname path ++ ['/']) ++ ['\x00']) (basename path) (hmapTexts bs) z3
      have el : (pre ++ file ++ ['\x00'] ++ (dirname path ++ ['/']) ++ ['\x00']).length =
          pre.length + file.length + 1 + (dirname path ++ ['/']).length + 1 := by
        simp only [List.length_append, List.length_cons, List.length_nil]
      rw [el] at this
      simpa only [List.append_assoc, List.cons_append, List.nil_append] using this
    · have := hmapOffsets_texts bs
        (pre ++ (file ++ ['\x00'] ++ ((dirname path ++ ['/']) ++ ['\x00']) ++ (basename path ++ ['\x00'])))
        fun e he => h e (List.mem_cons_of_mem _ he)
      have el : (pre ++ (file ++ ['\x00'] ++ ((dirname path ++ ['/']) ++ ['\x00']) ++ (basename path ++ ['\x00']))).length =
          pre.length + file.length + 1 + (dirname path ++ ['/']).length + 1 + (basename path).length + 1 := by
        simp only [List.length_append, List.length_cons, List.length_nil]
        omega
      rw [el, List.append_assoc] at this
      refine this.imp ?_
      intro b o hbo
      cases b with
      | none => exact hbo
      | some e => exact ⟨by have := hbo.1; omega, hbo.2⟩

/-- C119: the numbers of the slots are the places of the name, the directory and the file name in
the texts that follow the table; empty slots have zeros, and no text is at place 0. -/
theorem C119_places (table : List (Option (Str × Str)))
    (h : ∀ e, some e ∈ table → '\x00' ∉ e.1 ∧ '\x00' ∉ dirname e.2 ∧ '\x00' ∉ basename e.2) :
    List.Forall₂ (fun (b : Option (Str × Str)) (o : Nat × Nat × Nat) => match b with
      | none => o = (0, 0, 0)
      | some e => o.1 ≠ 0 ∧ textAt ('\x00' :: hmapTexts table) o.1 = e.1 ∧
          textAt ('\x00' :: hmapTexts table) o.2.1 = dirname e.2 ++ ['/'] ∧
          textAt ('\x00' :: hmapTexts table) o.2.2 = basename e.2) table (hmapOffsets 1 table) := by
  refine (hmapOffsets_texts table ['\x00'] h).imp ?_
  intro b o hbo
  cases b with
  | none => exact hbo
  | some e =>
    obtain ⟨h1, h2⟩ := hbo
    simp only [List.length_cons, List.length_nil] at h1
    exact ⟨by omega, h2⟩

theorem foldl_max_spec : ∀ (l : List Nat) (a : Nat), a ≤ l.foldl max a ∧ (∀ x ∈ l, x ≤ l.foldl max a) ∧
    (l.foldl max a = a ∨ l.foldl max a ∈ l)
  | [], a => ⟨Nat.le_refl _, by simp, .inl rfl⟩
  | x :: l, a => by
    obtain ⟨h1, h2, h3⟩ := foldl_max_spec l (max a x)
    rw [List.foldl_cons]
    refine ⟨by omega, ?_, ?_⟩
    · intro y hy
      rcases List.mem_cons.mp hy with rfl | hy
      · omega
      · exact h2 y hy
    · rcases h3 with h3 | h3
      · by_cases hax : x ≤ a
        · exact .inl (by rw [h3]; omega)
        · exact .inr (by rw [h3, show max a x = x by omega]; exact List.mem_cons_self ..)
      · exact .inr (List.mem_cons_of_mem _ h3)

theorem hmapOffsets_length : ∀ (bs : List HmapSlot) (n : Nat), (hmapOffsets n bs).length = bs.length
  | [], _ => rfl
  | none :: bs, n => by unfold hmapOffsets; simp [hmapOffsets_length bs]
  | some (f, p) :: bs, n => by unfold hmapOffsets; simp [hmapOffsets_length bs]

/-- C119: the start of the file tells the number of names, the number of slots (a power of two
greater than the number of names), where the texts begin and the length of the longest path, and
the table follows.  Missing: the texts, which are refused (`C119_never_finished`). -/
theorem C119_header_partial (files : List (Str × Str)) (hne : files ≠ []) : ∃ table h,
    writeHmap files = .textRefused h ∧ hmapBuckets files = some table ∧
    h.count = files.length ∧ h.capacity = table.length ∧ files.length < table.length ∧
    (∃ k, table.length = 2 ^ k) ∧ h.stringsOffset = 24 + 12 * table.length ∧ h.table = hmapOffsets 1 table ∧
    h.table.length = table.length ∧
    (∀ e ∈ files, e.2.length ≤ h.maxValueLength) ∧ (∃ e ∈ files, e.2.length = h.maxValueLength) := by
  obtain ⟨out, h1, inv⟩ := hmapBuckets_inv files
  have hlt := bitLength_lt files.length
  have hany : out.any (·.isSome) = true := by
    have : 0 < out.countP (·.isSome) := by
      rw [inv.count]
      exact List.length_pos_of_ne_nil hne
    obtain ⟨b, hb, hs⟩ := List.countP_pos_iff.mp this
    exact List.any_eq_true.mpr ⟨b, hb, hs⟩
  have hw : writeHmap files = .textRefused
      { stringsOffset := 24 + 12 * nextGreaterPowerOf2 files.length
        count := files.length
        capacity := nextGreaterPowerOf2 files.length
        maxValueLength := (files.map fun e => e.2.length).foldl max 0
        table := hmapOffsets 1 out } := by
    unfold writeHmap
    rw [if_neg hne, h1]
    simp only [hany, if_true]
  obtain ⟨m1, m2, m3⟩ := foldl_max_spec (files.map fun e => e.2.length) 0
  refine ⟨out, _, hw, h1, rfl, inv.len.symm, by rw [inv.len]; exact hlt, ⟨_, inv.len⟩, ?_, rfl,
    hmapOffsets_length _ _, ?_, ?_⟩
  · rw [inv.len]
    rfl
  · intro e he
    exact m2 _ (List.mem_map.mpr ⟨e, he, rfl⟩)
  · rcases m3 with m3 | m3
    · obtain ⟨e, he⟩ := List.exists_mem_of_ne_nil files hne
      have := m2 _ (List.mem_map.mpr ⟨e, he, rfl⟩)
      exact ⟨e, he, by simp only; omega⟩
    · obtain ⟨e, he, h⟩ := List.mem_map.mp m3
      exact ⟨e, he, h⟩

/-- C119 deviation: no header map is ever complete: without files there is no longest path, and
with files the first name is refused since it is not made of bytes. -/
theorem C119_never_finished (files : List (Str × Str)) (h : Hmap) (texts : Str) :
    writeHmap files ≠ .finished h texts := by
  by_cases hne : files = []
  · subst hne
    unfold writeHmap
    simp
  · obtain ⟨_, _, hw, _⟩ := C119_header_partial files hne
    rw [hw]
    simp

/-! Concrete cases: three names in four slots; the last one goes on from the first slot to the third. -/

def threeHeaders : List (Str × Str) :=
  [(c!"B.h", c!"/s/B.h"), (c!"F/B.h", c!"/s/B.h"), (c!"b.H", c!"/t/b.H")]

example : hmapBuckets threeHeaders = some [some (c!"B.h", c!"/s/B.h"), some (c!"F/B.h", c!"/s/B.h"),
    some (c!"b.H", c!"/t/b.H"), none] := by decide +kernel

example : (threeHeaders.find? fun e => sameName e.1 c!"b.h").map (·.2) = some c!"/s/B.h" := by decide +kernel

example : ∀ e, some e ∈ [some (c!"B.h", c!"/s/B.h"), none] →
    '\x00' ∉ e.1 ∧ '\x00' ∉ dirname e.2 ∧ '\x00' ∉ basename e.2 := by
  intro e he
  simp at he
  subst he
  decide +kernel

end Gyp
