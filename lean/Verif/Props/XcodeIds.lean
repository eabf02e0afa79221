import Verif.Spec.XcodeIds
import Verif.Props.XcodeGroups
/-
C114: the ids of the objects of an Xcode project.
-/
namespace Gyp
open Gyp.Spec

/-! ### What is hashed -/

theorem utf8_prefix {c c' : Char} {r r' : List UInt8}
    (h : String.utf8EncodeChar c ++ r = String.utf8EncodeChar c' ++ r') : c = c' ∧ r = r' := by
  have h₁ := congrArg (fun l => (List.toByteArray l).utf8DecodeChar? 0) h
  simp only [List.toByteArray_append] at h₁
  rw [ByteArray.utf8DecodeChar?_utf8EncodeChar_append, ByteArray.utf8DecodeChar?_utf8EncodeChar_append] at h₁
  have := Option.some.inj h₁
  subst this
  exact ⟨rfl, List.append_cancel_left h⟩

theorem utf8_same_length {s s' : Str} {r r' : List UInt8} (hl : s.length = s'.length)
    (h : s.flatMap String.utf8EncodeChar ++ r = s'.flatMap String.utf8EncodeChar ++ r') : s = s' ∧ r = r' := by
  induction s generalizing s' with
  | nil =>
    cases s' with
    | nil => exact ⟨rfl, by simpa using h⟩
    | cons c cs => simp at hl
  | cons c cs ih =>
    cases s' with
    | nil => simp at hl
    | cons c' cs' =>
      rw [List.flatMap_cons, List.flatMap_cons, List.append_assoc, List.append_assoc] at h
      obtain ⟨rfl, h₁⟩ := utf8_prefix h
      obtain ⟨rfl, h₂⟩ := ih (by simpa using hl) h₁
      exact ⟨rfl, h₂⟩

theorem packInt_inj {n m : Nat} (hn : n < 2147483648) (hm : m < 2147483648) (h : packInt n = packInt m) :
    n = m := by
  unfold packInt at h
  simp only [List.cons.injEq, and_true] at h
  obtain ⟨h₁, h₂, h₃, h₄⟩ := h
  have g₁ := congrArg UInt8.toNat h₁
  have g₂ := congrArg UInt8.toNat h₂
  have g₃ := congrArg UInt8.toNat h₃
  have g₄ := congrArg UInt8.toNat h₄
  simp only [UInt8.toNat_ofNat'] at g₁ g₂ g₃ g₄
  omega

theorem hashUpdate_inj {s s' : Str} {r r' : List UInt8} (hs : s.length < 2147483648)
    (hs' : s'.length < 2147483648) (h : hashUpdate s ++ r = hashUpdate s' ++ r') : s = s' ∧ r = r' := by
  unfold hashUpdate at h
  rw [List.append_assoc, List.append_assoc] at h
  obtain ⟨h₁, h₂⟩ := List.append_inj h rfl
  exact utf8_same_length (packInt_inj hs hs' h₁) h₂

/-- **C114.**  Different lists of names and parts of paths are hashed as different bytes: no name can be
made up so that the hash sees another list (the lengths must fit in 31 bits). -/
theorem C114_hashed {a b : List Str} (ha : ∀ s ∈ a, s.length < 2147483648)
    (hb : ∀ s ∈ b, s.length < 2147483648) (h : hashedBytes a = hashedBytes b) : a = b := by
  induction a generalizing b with
  | nil =>
    cases b with
    | nil => rfl
    | cons s ss => simp [hashedBytes, hashUpdate, packInt] at h
  | cons s ss ih =>
    cases b with
    | nil => simp [hashedBytes, hashUpdate, packInt] at h
    | cons s' ss' =>
      unfold hashedBytes at h
      rw [List.flatMap_cons, List.flatMap_cons] at h
      obtain ⟨rfl, h₁⟩ := hashUpdate_inj (ha s (by simp)) (hb s' (by simp)) h
      rw [ih (fun x hx => ha x (by simp [hx])) (fun x hx => hb x (by simp [hx])) h₁]

/-! ### What an id is -/

theorem hexDigitOf_inj {n m : Nat} (hn : n < 16) (hm : m < 16) (h : hexDigitOf n = hexDigitOf m) : n = m := by
  have : ∀ a < 16, ∀ b < 16, hexDigitOf a = hexDigitOf b → a = b := by decide
  exact this n hn m hm h

theorem hexWord_inj {v w : UInt32} (h : hexWord v = hexWord w) : v = w := by
  have hv : v.toNat < 2 ^ 32 := v.toNat_lt
  have hw : w.toNat < 2 ^ 32 := w.toNat_lt
  unfold hexWord at h
  simp only [List.map_cons, List.map_nil, List.cons.injEq, and_true] at h
  obtain ⟨h7, h6, h5, h4, h3, h2, h1, h0⟩ := h
  have d : ∀ {x y : Nat}, hexDigitOf (x % 16) = hexDigitOf (y % 16) → x % 16 = y % 16 :=
    fun hxy => hexDigitOf_inj (Nat.mod_lt _ (by decide)) (Nat.mod_lt _ (by decide)) hxy
  have h7 := d h7
  have h6 := d h6
  have h5 := d h5
  have h4 := d h4
  have h3 := d h3
  have h2 := d h2
  have h1 := d h1
  have h0 := d h0
  apply UInt32.toNat_inj.1
  omega

/-- **C114.**  An id is 24 digits to the base 16, with capitals. -/
theorem C114_form (sha1 : List UInt8 → UInt32 × UInt32 × UInt32 × UInt32 × UInt32) (chain : List Str) :
    (idOf sha1 chain).length = 24 ∧ ∀ c ∈ idOf sha1 chain, c ∈ "0123456789ABCDEF".toList := by
  have hd : ∀ n < 16, hexDigitOf n ∈ "0123456789ABCDEF".toList := by decide
  have hw : ∀ w : UInt32, (hexWord w).length = 8 ∧ ∀ c ∈ hexWord w, c ∈ "0123456789ABCDEF".toList := by
    intro w
    refine ⟨by simp [hexWord], ?_⟩
    intro c hc
    unfold hexWord at hc
    obtain ⟨i, _, rfl⟩ := List.mem_map.1 hc
    exact hd _ (Nat.mod_lt _ (by decide))
  unfold idOf
  dsimp only
  refine ⟨by simp [hw], ?_⟩
  intro c hc
  rcases List.mem_append.1 hc with hc | hc
  · rcases List.mem_append.1 hc with hc | hc
    · exact (hw _).2 c hc
    · exact (hw _).2 c hc
  · exact (hw _).2 c hc

/-- **C114.**  Two ids are the same only if the folded digests are: writing them down loses nothing. -/
theorem C114_same {sha1 : List UInt8 → UInt32 × UInt32 × UInt32 × UInt32 × UInt32} {a b : List Str}
    (h : idOf sha1 a = idOf sha1 b) : FoldSame (sha1 (hashedBytes a)) (sha1 (hashedBytes b)) := by
  have hl : ∀ w, (hexWord w).length = 8 := fun w => by simp [hexWord]
  unfold idOf at h
  dsimp only at h
  obtain ⟨h₁, h₂⟩ := List.append_inj h (by simp [hl])
  obtain ⟨h₃, h₄⟩ := List.append_inj h₁ (by simp [hl])
  refine ⟨_, _, _, ⟨rfl, rfl, rfl⟩, ?_, ?_, ?_⟩
  · exact hexWord_inj h₃
  · exact hexWord_inj h₄
  · exact hexWord_inj h₂

/-- **C114.**  When SHA-1, folded to 96 bits, has no collision, different lists have different ids. -/
theorem C114_differ {sha1 : List UInt8 → UInt32 × UInt32 × UInt32 × UInt32 × UInt32}
    (hsha : ∀ x y, FoldSame (sha1 x) (sha1 y) → x = y) {a b : List Str}
    (ha : ∀ s ∈ a, s.length < 2147483648) (hb : ∀ s ∈ b, s.length < 2147483648) (hne : a ≠ b) :
    idOf sha1 a ≠ idOf sha1 b :=
  fun h => hne (C114_hashed ha hb (hsha _ _ (C114_same h)))

/-! ### No collisions -/

theorem noCollisions_iff (seen ids : List Str) :
    noCollisions seen ids = true ↔ ids.Nodup ∧ ∀ i ∈ ids, i ∉ seen := by
  induction ids generalizing seen with
  | nil => simp [noCollisions]
  | cons i ids ih =>
    unfold noCollisions
    by_cases h : i ∈ seen
    · rw [if_pos h]; simp [h]
    · rw [if_neg h, ih, List.nodup_cons]
      constructor
      · rintro ⟨h₁, h₂⟩
        refine ⟨⟨fun hm => (h₂ i hm) (by simp), h₁⟩, ?_⟩
        intro j hj
        rcases List.mem_cons.1 hj with rfl | hj
        · exact h
        · exact fun hm => h₂ j hj (by simp [hm])
      · rintro ⟨⟨h₁, h₂⟩, h₃⟩
        refine ⟨h₂, ?_⟩
        intro j hj hm
        rcases List.mem_cons.1 hm with rfl | hm
        · exact h₁ hj
        · exact h₃ j (by simp [hj]) hm

/-- **C114.**  A project is written only if no two of its objects have the same id. -/
theorem C114_unique (ids : List Str) : noCollisions [] ids = true ↔ ids.Nodup := by
  rw [noCollisions_iff]
  simp

/-! ### Merging groups -/

theorem fileChainsAll_append (seed : List Str) (a b : List XNode) :
    fileChainsAll seed (a ++ b) = fileChainsAll seed a ++ fileChainsAll seed b := by
  induction a with
  | nil => simp [fileChainsAll]
  | cons x xs ih => simp [fileChainsAll, ih]

theorem relPath_join {a b : Str} (ha : RelPath a) (hb : RelPath b) :
    pathJoin a b = a ++ '/' :: b ∧ RelPath (a ++ '/' :: b) := by
  constructor
  · unfold pathJoin
    rw [if_neg, if_neg]
    · rintro (h | h)
      · exact ha.1 h
      · exact ha.2.2 (by unfold endsWith at h; exact List.isSuffixOf_iff_suffix.1 h)
    · intro h
      apply hb.2.1
      cases b with
      | nil => exact absurd rfl hb.1
      | cons x xs =>
        have : x = '/' := by
          by_contra hx
          have : isAbs (x :: xs) = false := by
            rw [isAbs_false_iff]
            simp only [List.head?_cons, ne_eq, Option.some.injEq]
            exact hx
          rw [this] at h
          cases h
        subst this
        exact ⟨xs, rfl⟩
  · refine ⟨by simp, ?_, ?_⟩
    · intro h
      apply ha.2.1
      obtain ⟨z, hz⟩ := h
      cases a with
      | nil => exact absurd rfl ha.1
      | cons x xs =>
        simp only [List.cons_append, List.nil_append, List.cons.injEq] at hz
        exact ⟨xs, by rw [← hz.1]; rfl⟩
    · intro h
      apply hb.2.2
      have h' : b <:+ a ++ '/' :: b := (List.suffix_cons '/' b).trans (List.suffix_append a _)
      rcases List.suffix_or_suffix_of_suffix h h' with g | g
      · exact g
      · obtain ⟨z, hz⟩ := g
        cases b with
        | nil => exact absurd rfl hb.1
        | cons y ys =>
          cases z with
          | nil => rw [List.nil_append] at hz; rw [hz]
          | cons _ _ => simp at hz

theorem hier_join {cls : Str} {n : Option Str} {a b : Str} :
    hierHashables cls n c!"<group>" (some a) ++ hierHashables cls none c!"<group>" (some b) =
      hierHashables cls n c!"<group>" (some (a ++ '/' :: b)) := by
  have hg : ∀ x : Str, treePath c!"<group>" (some x) = some x := fun _ => rfl
  unfold hierHashables
  rw [hg, hg, hg]
  dsimp only
  rw [splitOn_append_sep, List.flatMap_append]
  simp

theorem takeOverProps_dir {n : Option Str} {a b : Str} (ha : RelPath a) (hb : RelPath b)
    (hn : ∀ m, n = some m → '/' ∉ m) :
    takeOverProps n c!"<group>" (some a) none c!"<group>" (some b) =
      (n, c!"<group>", some (a ++ '/' :: b)) := by
  unfold takeOverProps
  dsimp only
  rw [if_pos (show c!"<group>" = groupTree from rfl)]
  dsimp only
  rw [(relPath_join ha hb).1]
  cases n with
  | none => simp
  | some m =>
    have : m ≠ a ++ '/' :: b := by
      intro e
      exact hn m rfl (by rw [e]; simp)
    simp [xcName, this]

mutual
theorem fileChains_takeOver (seed : List Str) (n : Option Str) (p : Str) (hp : RelPath p)
    (hn : ∀ m, n = some m → '/' ∉ m) : (cs : List XNode) → DirTreeAll cs →
    fileChains seed (takeOver n c!"<group>" (some p) cs) =
      fileChainsAll (seed ++ hierHashables c!"PBXGroup" n c!"<group>" (some p)) cs
  | [.group false n' t' p' cs'], h => by
    obtain ⟨⟨hd, hcs⟩, _⟩ := h
    obtain ⟨rfl, rfl, q, rfl, hq⟩ := hd rfl
    rw [takeOver, takeOverProps_dir hp hq hn,
      fileChains_takeOver seed n _ (relPath_join hp hq).2 hn cs' hcs, ← hier_join]
    simp [fileChainsAll, fileChains, groupClass]
  | [], _ => by simp [takeOver, takeOverAll, fileChains, fileChainsAll]
  | [.file a b c], _ => by
    rw [takeOver]
    · simp [takeOverAll, fileChains, groupClass]
    · intro _ _ _ _ e; cases e
  | [.group true a b c d], _ => by
    rw [takeOver]
    · simp [takeOverAll, fileChains, groupClass]
    · intro _ _ _ _ e; cases e
  | x :: y :: rest, h => by
    rw [takeOver]
    · rw [fileChains, fileChains_takeOverAll _ (x :: y :: rest) h]; rfl
    · intro _ _ _ _ e; cases e
termination_by cs => (sizeOf cs, 1)

theorem fileChains_takeOverAll (seed : List Str) : (cs : List XNode) → DirTreeAll cs →
    fileChainsAll seed (takeOverAll cs) = fileChainsAll seed cs
  | [], _ => by simp [takeOverAll]
  | .group false n t p cs :: rest, h => by
    obtain ⟨⟨hd, hcs⟩, hr⟩ := h
    obtain ⟨rfl, rfl, q, rfl, hq⟩ := hd rfl
    rw [takeOverAll, fileChainsAll, fileChains_takeOver seed none q hq (by simp) cs hcs,
      fileChains_takeOverAll seed rest hr]
    simp [fileChainsAll, fileChains, groupClass]
  | .group true n t p cs :: rest, h => by
    rw [takeOverAll]
    · simp [fileChainsAll, fileChains_takeOverAll seed rest h.2]
    · intro _ _ _ _ e; cases e
  | .file n t p :: rest, h => by
    rw [takeOverAll]
    · simp [fileChainsAll, fileChains_takeOverAll seed rest h.2]
    · intro _ _ _ _ e; cases e
termination_by cs => (sizeOf cs, 0)
end

/-- **C114.**  Merging the groups with one child changes no id of a file: a root group has a name and no
path, what is in it are directories, and its only child is not a directory of the same name. -/
theorem C114_merged_partial (seed : List Str) {m : Str} (hm : '/' ∉ m) {cs : List XNode} (hcs : DirTreeAll cs)
    (hne : ∀ n t ds, cs ≠ [.group false n t (some m) ds]) :
    fileChains seed (takeOver (some m) c!"<group>" none cs) =
      fileChains seed (.group false (some m) c!"<group>" none cs) := by
  match cs, hcs, hne with
  | [.group false n' t' p' cs'], h, hne =>
    obtain ⟨⟨hd, hcs⟩, _⟩ := h
    obtain ⟨rfl, rfl, q, rfl, hq⟩ := hd rfl
    have hqm : m ≠ q := by
      rintro rfl
      exact hne _ _ _ rfl
    have hp : takeOverProps (some m) c!"<group>" none none c!"<group>" (some q) =
        (some m, c!"<group>", some q) := by
      unfold takeOverProps
      dsimp only
      rw [if_pos (show c!"<group>" = groupTree from rfl)]
      simp [xcName, hqm]
    rw [takeOver, hp]
    dsimp only
    rw [fileChains_takeOver seed (some m) q hq (by rintro _ ⟨⟩; exact hm) cs' hcs]
    have hj : hierHashables c!"PBXGroup" (some m) c!"<group>" none ++
        hierHashables c!"PBXGroup" none c!"<group>" (some q) =
        hierHashables c!"PBXGroup" (some m) c!"<group>" (some q) := by
      simp [hierHashables, treePath, groupTree]
    rw [← hj]
    simp [fileChainsAll, fileChains, groupClass]
  | [], _, _ => simp [takeOver, takeOverAll, fileChains, fileChainsAll]
  | [.file a b c], _, _ =>
    rw [takeOver]
    · simp [takeOverAll, fileChains]
    · intro _ _ _ _ e; cases e
  | [.group true a b c d], _, _ =>
    rw [takeOver]
    · simp [takeOverAll, fileChains]
    · intro _ _ _ _ e; cases e
  | x :: y :: rest, h, _ =>
    rw [takeOver]
    · rw [fileChains, fileChains_takeOverAll _ (x :: y :: rest) h]; rfl
    · intro _ _ _ _ e; cases e

/-! ### Adding files -/

theorem dirTreeAll_iff (cs : List XNode) : DirTreeAll cs ↔ ∀ c ∈ cs, DirTree c := by
  induction cs with
  | nil => simp [DirTreeAll]
  | cons c cs ih => simp [DirTreeAll, ih]

theorem dirTreeAll_snoc {cs : List XNode} {c : XNode} (h : DirTreeAll cs) (hc : DirTree c) :
    DirTreeAll (cs ++ [c]) := by
  rw [dirTreeAll_iff] at *
  intro x hx
  rcases List.mem_append.1 hx with hx | hx
  · exact h x hx
  · rw [List.mem_singleton.1 hx]; exact hc

theorem dirTreeAll_set {cs : List XNode} {i : Nat} {c : XNode} (h : DirTreeAll cs) (hc : DirTree c) :
    DirTreeAll (cs.set i c) := by
  rw [dirTreeAll_iff] at *
  intro x hx
  rcases List.mem_or_eq_of_mem_set hx with hx | rfl
  · exact h x hx
  · exact hc

theorem dirTree_at {cs : List XNode} {i : Nat} {c : XNode} (h : DirTreeAll cs) (hi : cs[i]? = some c) :
    DirTree c := (dirTreeAll_iff cs).1 h c (List.mem_of_getElem? hi)

theorem fileChainsAll_set (seed : List Str) {cs ds ds' : List XNode} {i : Nat} {v : Bool} {n : Option Str}
    {t : Str} {p : Option Str} (hi : cs[i]? = some (.group v n t p ds))
    (h : ∀ s, fileChainsAll s ds ⊆ fileChainsAll s ds') :
    fileChainsAll seed cs ⊆ fileChainsAll seed (cs.set i (.group v n t p ds')) := by
  induction cs generalizing i with
  | nil => simp at hi
  | cons c cs ih =>
    intro x hx
    rw [fileChainsAll] at hx
    cases i with
    | zero =>
      rw [List.getElem?_cons_zero, Option.some.injEq] at hi
      subst hi
      rw [List.set_cons_zero, fileChainsAll]
      rcases List.mem_append.1 hx with hx | hx
      · refine List.mem_append_left _ ?_
        rw [fileChains] at hx ⊢
        exact h _ hx
      · exact List.mem_append_right _ hx
    | succ i =>
      rw [List.getElem?_cons_succ] at hi
      rw [List.set_cons_succ, fileChainsAll]
      rcases List.mem_append.1 hx with hx | hx
      · exact List.mem_append_left _ hx
      · exact List.mem_append_right _ (ih hi hx)

theorem fileChainsAll_snoc (seed : List Str) (cs : List XNode) (c : XNode) :
    fileChainsAll seed cs ⊆ fileChainsAll seed (cs ++ [c]) := by
  rw [fileChainsAll_append]
  exact List.subset_append_left _ _

/-- What adding keeps: the tree stays one of directories, and no chain of a file goes away. -/
def Grows (cs cs' : List XNode) : Prop :=
  (DirTreeAll cs → DirTreeAll cs') ∧ ∀ seed, fileChainsAll seed cs ⊆ fileChainsAll seed cs'

theorem grows_refl (cs : List XNode) : Grows cs cs := ⟨id, fun _ => List.Subset.refl _⟩

theorem newFile_dirTree (name : Option Str) (path : Str) : DirTree (newFile name path) := by
  unfold newFile
  simp [DirTree]

theorem grows_fileHere {children children' : List XNode} {q : Str} {place : List Nat}
    (h : addFileHere children q = some (children', place)) : Grows children children' := by
  unfold addFileHere at h
  split at h
  · split at h
    · obtain ⟨rfl, rfl⟩ := Prod.mk.inj (Option.some.inj h)
      exact grows_refl _
    · cases h
  · obtain ⟨cs, h₁, h₂⟩ := Option.map_eq_some_iff.1 h
    obtain ⟨rfl, rfl⟩ := Prod.mk.inj h₂
    rw [appendChild_some h₁]
    exact ⟨fun hd => dirTreeAll_snoc hd (newFile_dirTree _ _), fun s => fileChainsAll_snoc s _ _⟩

theorem grows_addVariant {cs cs' : List XNode} {name q : Str} (h : addVariant cs name q = some cs') :
    Grows cs cs' := by
  unfold addVariant at h
  split at h
  · split at h
    · rw [← Option.some.inj h]; exact grows_refl _
    · cases h
  · rw [appendChild_some h]
    exact ⟨fun hd => dirTreeAll_snoc hd (newFile_dirTree _ _), fun s => fileChainsAll_snoc s _ _⟩

theorem grows_set {cs ds ds' : List XNode} {i : Nat} {v : Bool} {n : Option Str}
    {t : Str} {p : Option Str} (hi : cs[i]? = some (.group v n t p ds)) (h : Grows ds ds') :
    Grows cs (cs.set i (.group v n t p ds')) := by
  refine ⟨fun hd => dirTreeAll_set hd ?_, fun s => fileChainsAll_set s hi h.2⟩
  have := dirTree_at hd hi
  rw [DirTree] at this ⊢
  exact ⟨this.1, h.1 this.2⟩

theorem grows_variantHere {children children' : List XNode} {variant name q : Str} {g : Option Str}
    {place : List Nat} (h : addVariantHere children variant name g q = some (children', place)) :
    Grows children children' := by
  unfold addVariantHere at h
  split at h
  · split at h
    · rename_i v n t p cs hg
      obtain ⟨cs', h₃, h₄⟩ := Option.map_eq_some_iff.1 h
      obtain ⟨rfl, rfl⟩ := Prod.mk.inj h₄
      exact grows_set hg (grows_addVariant h₃)
    · cases h
  · unfold newGroup at h
    dsimp only at h
    split at h
    · rename_i children'' cs' h₁ h₃
      rw [appendChild_some h₁, set_snoc] at h
      obtain ⟨rfl, rfl⟩ := Prod.mk.inj (Option.some.inj h)
      refine ⟨fun hd => dirTreeAll_snoc hd ?_, fun s => fileChainsAll_snoc s _ _⟩
      rw [DirTree]
      exact ⟨fun e => Bool.noConfusion e, (grows_addVariant h₃).1 (by rw [DirTreeAll]; trivial)⟩
    · cases h

/-- A path that begins with no slash has a first part. -/
theorem head_part {p : Str} (h0 : (splitOn '/' p).headD [] ≠ []) : RelPath ((splitOn '/' p).headD []) := by
  have hs : '/' ∉ (splitOn '/' p).headD [] := by
    cases hsp : splitOn '/' p with
    | nil => simp
    | cons a as => exact mem_splitOn (s := p) (by rw [hsp]; simp)
  refine ⟨h0, ?_, ?_⟩
  · rintro ⟨z, hz⟩
    exact hs (by rw [← hz]; simp)
  · rintro ⟨z, hz⟩
    exact hs (by rw [← hz]; simp)

theorem newGroup_part {q : Str} (hq : '$' ∉ q) (hs : '/' ∉ q) :
    newGroup false none (some q) = .group false none groupTree (some q) [] := by
  have hb : basename q = q := by unfold basename; rw [rsplit1_none_iff.2 hs]
  obtain ⟨n, hg⟩ := newGroup_plain hq false none
  rw [hg]
  unfold newGroup xcInit at hg
  dsimp only at hg
  rw [hb, if_pos (Or.inr rfl)] at hg
  split at hg
  · simp only [XNode.group.injEq, true_and] at hg
    rw [← hg.1]
  · simp only [XNode.group.injEq, true_and] at hg
    rw [← hg.1]
  · simp at hg

theorem grows_added {fuel : Nat} {children children' : List XNode} {path : Str} {place : List Nat}
    {hier : Bool} (h : addOrGetFile fuel children path hier = some (children', place))
    (habs : isAbs path = false) (hvar : '$' ∉ path) : Grows children children' := by
  induction fuel generalizing children children' path place with
  | zero => simp [addOrGetFile] at h
  | succ fuel ih =>
    have hp : PlainPath path := ⟨habs, hvar⟩
    unfold addOrGetFile at h
    dsimp only at h
    split at h
    · cases h
    · split at h
      · split at h
        · exact grows_variantHere h
        · exact grows_fileHere h
      · rename_i hlen
        have hsp := cleanPath_split hp (by
          intro hx
          rcases hx with e | ⟨e₁, e₂⟩
          · exact hlen (.inl e)
          · exact hlen (.inr (.inl ⟨by rw [e₁, Bool.true_or], e₂⟩)))
        obtain ⟨hn, hn0, hrest, _, hw⟩ := hsp
        split at h
        · rename_i i hi
          split at h
          · rename_i n t p cs hg
            obtain ⟨r, h₃, h₄⟩ := Option.map_eq_some_iff.1 h
            obtain ⟨rfl, rfl⟩ := Prod.mk.inj h₄
            exact grows_set hg (ih h₃ hrest.1 hrest.2)
          · cases h
        · have hrel := head_part hn0
          rw [newGroup_part hn.2 (by
            cases hsp : splitOn '/' (cleanPath path) with
            | nil => simp
            | cons a as => exact mem_splitOn (s := cleanPath path) (by rw [hsp]; simp))] at h
          dsimp only at h
          split at h
          · rename_i h₁
            obtain ⟨r, h₃, h₄⟩ := Option.map_eq_some_iff.1 h
            obtain ⟨rfl, rfl⟩ := Prod.mk.inj h₄
            rw [appendChild_some h₁, set_snoc]
            refine ⟨fun hd => dirTreeAll_snoc hd ?_, fun s => fileChainsAll_snoc s _ _⟩
            rw [DirTree]
            exact ⟨fun _ => ⟨rfl, rfl, _, rfl, hrel⟩,
              (ih h₃ hrest.1 hrest.2).1 (by rw [DirTreeAll]; trivial)⟩
          · cases h

/-- **C114.**  The groups that adding files makes are for directories. -/
theorem C114_directories {fuel : Nat} {children children' : List XNode} {path : Str} {place : List Nat}
    {hier : Bool} (h : addOrGetFile fuel children path hier = some (children', place))
    (habs : isAbs path = false) (hvar : '$' ∉ path) (hd : DirTreeAll children) : DirTreeAll children' :=
  (grows_added h habs hvar).1 hd

/-- **C114** (partial: the case that `C114_same_name` shows is missing).  A file keeps its id when another one is added to the project: with the groups merged, all
that was hashed for the files before is hashed after (neither time the only thing in the root group may
be a directory of the same name). -/
theorem C114_kept_partial {fuel : Nat} {children children' : List XNode} {path : Str} {place : List Nat}
    {hier : Bool} (h : addOrGetFile fuel children path hier = some (children', place))
    (habs : isAbs path = false) (hvar : '$' ∉ path) (hd : DirTreeAll children)
    (seed : List Str) {m : Str} (hm : '/' ∉ m)
    (hne : ∀ n t ds, children ≠ [.group false n t (some m) ds])
    (hne' : ∀ n t ds, children' ≠ [.group false n t (some m) ds]) :
    ∀ chain ∈ fileChains seed (takeOver (some m) c!"<group>" none children),
      chain ∈ fileChains seed (takeOver (some m) c!"<group>" none children') := by
  have hg := grows_added h habs hvar
  rw [C114_merged_partial seed hm hd hne, C114_merged_partial seed hm (hg.1 hd) hne']
  intro chain hc
  rw [fileChains] at hc ⊢
  exact hg.2 _ hc

mutual
theorem fileChains_sub (seed : List Str) : (n : XNode) → fileChains seed n ⊆ nodeChains seed n
  | .file n t p => by rw [fileChains, nodeChains]; exact List.Subset.refl _
  | .group v n t p cs => by
    rw [fileChains, nodeChains]
    exact List.Subset.trans (fileChainsAll_sub _ cs) (List.subset_cons_self _ _)

theorem fileChainsAll_sub (seed : List Str) : (cs : List XNode) → fileChainsAll seed cs ⊆ chainsOf seed cs
  | [] => by rw [fileChainsAll, chainsOf]; exact List.Subset.refl _
  | n :: rest => by
    rw [fileChainsAll, chainsOf]
    intro x hx
    rcases List.mem_append.1 hx with hx | hx
    · exact List.mem_append_left _ (fileChains_sub seed n hx)
    · exact List.mem_append_right _ (fileChainsAll_sub seed rest hx)
end

/-- **C114.**  What is said of files is hashed for the objects of the project. -/
theorem C114_files (seed : List Str) (n : XNode) : ∀ chain ∈ fileChains seed n, chain ∈ nodeChains seed n :=
  fileChains_sub seed n

/-! ### Cases -/

/-- The docstring's case: `a/b/f1` alone is merged into one group `a/b`; with `a/f2` it is not, and the
id of `f1` stays. -/
example :
    addOrGetFile 9 [.group false none c!"<group>" (some c!"a") [.group false none c!"<group>" (some c!"b")
      [.file none c!"<group>" (some c!"f1")]]] c!"a/f2" true =
      some ([.group false none c!"<group>" (some c!"a") [.group false none c!"<group>" (some c!"b")
        [.file none c!"<group>" (some c!"f1")], .file none c!"<group>" (some c!"f2")]], [0, 1]) ∧
    DirTreeAll [.group false none c!"<group>" (some c!"a") [.group false none c!"<group>" (some c!"b")
      [.file none c!"<group>" (some c!"f1")]]] := by
  refine ⟨rfl, ?_⟩
  refine ⟨⟨fun _ => ⟨rfl, rfl, _, rfl, by decide, by decide, by decide⟩,
    ⟨⟨fun _ => ⟨rfl, rfl, _, rfl, by decide, by decide, by decide⟩, trivial, trivial⟩, trivial⟩⟩, trivial⟩

/-- **C114.**  The exception is real: the root group `Source` of a project whose only directory is called
`Source` loses its name when they are merged, and not when there is another file: then the ids of all
files are made from something else. -/
theorem C114_same_name :
    let inner := XNode.group false none c!"<group>" (some c!"Source") [.file none c!"<group>" (some c!"f1")]
    addOrGetFile 9 [inner] c!"f2" true = some ([inner, .file none c!"<group>" (some c!"f2")], [1]) ∧
    fileChains [] (takeOver (some c!"Source") c!"<group>" none [inner]) =
      [[c!"PBXGroup.path", c!"Source", c!"PBXFileReference.path", c!"f1"]] ∧
    fileChains [] (takeOver (some c!"Source") c!"<group>" none
      [inner, .file none c!"<group>" (some c!"f2")]) =
      [[c!"PBXGroup.name", c!"Source", c!"PBXGroup.path", c!"Source", c!"PBXFileReference.path", c!"f1"],
       [c!"PBXGroup.name", c!"Source", c!"PBXFileReference.path", c!"f2"]] := by
  refine ⟨rfl, ?_, ?_⟩
  · rw [takeOver, takeOver]
    · simp only [takeOverAll]
      decide +kernel
    · intro _ _ _ _ e; cases e
  · rw [takeOver]
    · simp only [takeOverAll]
      rw [takeOver]
      · simp only [takeOverAll]
        decide +kernel
      · intro _ _ _ _ e; cases e
    · intro _ _ _ _ e; cases e

/-- Two files of one name in two directories, and one id for both is refused. -/
example : noCollisions [] [c!"A", c!"B"] = true ∧ noCollisions [] [c!"A", c!"B", c!"A"] = false := by decide

/-- Parts of names that would be the same bytes without the lengths. -/
example : hashedBytes [c!"ab", c!"c"] ≠ hashedBytes [c!"a", c!"bc"] := by decide

/-- An id. -/
example : idOf (fun _ => (0x0123ABCD, 1, 2, 0, 0)) [c!"x"] = c!"0123ABCD0000000100000002" := by decide

end Gyp
