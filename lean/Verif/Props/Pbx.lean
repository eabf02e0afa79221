import Verif.Proofs.Pbx
/-
C105: what is printed into a project file for Xcode is what a reader of property lists reads from it.
-/
namespace Gyp
open Spec

/-! ### Texts and comments -/

/-- **C105** (texts).  A text, with or without quotation marks and whatever its class does with control
characters, is read back as it is, up to the end of what was printed.  A text with a carriage return is
not, nor is one of two kinds of text that are printed without quotation marks; see the witnesses. -/
theorem C105_text_partial (alt : Bool) (s : Str) (h : PlainText s) (rest : Str) (hrest : After rest) :
    gap .blank (pbxString alt s ++ rest) = pbxString alt s ++ rest ∧
      ∃ r, plistText (pbxString alt s ++ rest) = some (s, r) ∧ gap .blank r = gap .blank rest :=
  (textReads_string alt h).2 rest hrest

/-- The texts that are excluded are only a few: any text with a character that needs quotation marks, no
carriage return and no newline at its end is fine. -/
theorem C105_text_quoted {s : Str} (hr : '\r' ∉ s) (hn : s.getLast? ≠ some '\n')
    (hq : ∃ c ∈ s, ¬ (c.isAlphanum = true ∨ c ∈ ['$', '.', '/', '_'])) : PlainText s := by
  refine ⟨hr, fun hb => ?_, ?_⟩
  · obtain ⟨c, hc, h⟩ := hq
    exact absurd (hb.2.1 c hc) h
  · rintro t rfl
    exact absurd (by rw [List.getLast?_append]; rfl) hn

example : PlainText c!"a \"b\" \\ \t\x01 ü; */ // {}" := by
  refine C105_text_quoted (by decide) (by decide) ⟨' ', by decide, by decide⟩
example : PlainText c!"../src/a.c" :=
  ⟨by decide, fun _ => by decide, by
    intro t ht
    have : (c!"../src/a.c").getLast? = some '\n' := by rw [ht, List.getLast?_append]; rfl
    exact absurd this (by decide)⟩
example : pbxString false c!"a \"b\"\t\x01" = c!"\"a \\\"b\\\"\\t\\U0001\"" := by decide
example : pbxString true c!"../src/a.c" = c!"../src/a.c" := by decide +kernel
example : pbxString true c!"a___b" = c!"\"a___b\"" := by decide +kernel

/-- **C105** (comments).  The comment after an identifier is skipped as a whole, whatever its text: it
does not end early and it does not go on. -/
theorem C105_comment (c x : Str) : gap .blank (pbxComment c ++ x) = gap .blank x := skipped_comment c x

example : pbxComment c!"a */ b **// c" = c!"/* a (*)/ b *(*)// c */" := by decide +kernel

/-! ### Values -/

/-- **C105** (values).  Any value that can be printed, of any depth, is read back as what it says,
wherever it is in the file, on one line or many, followed by `,`, `;` or a space. -/
theorem C105_value_partial (st : PbxStyle) (flat : Bool) (n : Nat) (v : PbxVal) (p : Str) (hv : Plain v)
    (h : pbxVal st flat n v = some p) (rest : Str) (hrest : After rest) :
    ∃ N, ∀ m ≥ N, ∃ r, readVal m (p ++ rest) = some (said flat v, r) ∧ gap .blank r = gap .blank rest :=
  ((printsAs_val st flat n v p hv h).2 rest hrest).2

example : pbxVal ⟨false, false⟩ false 0
    (.dict [(c!"b c", .list [.ref c!"AB12" (some c!"x */ y"), .int (-4)]), (c!"a", .text c!"t")]) =
    some c!"{\n\ta = t;\n\t\"b c\" = (\n\t\tAB12 /* x (*)/ y */,\n\t\t-4,\n\t);\n}" := by decide +kernel

/-! ### The whole file -/

/-- **C105** (the file).  A project file says: its own properties, and under `objects`, for each object
exactly one dictionary, found by the object's identifier, with its class and its properties and nothing
else; no other objects.  The identifiers of the objects must differ. -/
theorem C105_file_partial (props : List (Str × PbxVal)) (objects : List PbxObject) (t : Str)
    (hprops : ∀ k v, (k, v) ∈ props → PlainText k ∧ Plain v)
    (hkeys : (c!"objects" :: akeys props).Nodup)
    (hobjects : ∀ o ∈ objects, PlainObject o)
    (hids : (objects.map PbxObject.id).Nodup)
    (h : pbxFile props objects = some t) :
    ∃ top objs, FileSays t (.dict top) ∧ aget top c!"objects" = some (.dict objs) ∧
      (∀ o ∈ objects, ∃ d, aget objs o.id = some d ∧ ObjectSaid o d) ∧
      (akeys objs).Perm (objects.map PbxObject.id) ∧
      (∀ k v, (k, v) ∈ props → aget top k = some (said false v)) ∧
      (akeys top).Perm (c!"objects" :: akeys props) := by
  unfold pbxFile at h
  obtain ⟨u, hu, rfl⟩ := Option.map_eq_some_iff.mp h
  let all : List (Str × Option PbxVal) := (c!"objects", none) :: props.map fun p => (p.1, some p.2)
  obtain ⟨ws, hws, hr⟩ := pbxTexts_read_one
    (R := fun (p : Str × Option PbxVal) w => p.1 = w.1 ∧
      match p.2 with
      | none => ∃ objs, w.2 = .dict objs ∧
          List.Forall₂ (fun o w => w.1 = o.id ∧ ObjectSaid o w.2) (fileOrder objects) objs
      | some v => w.2 = said false v) hu fun p hp q hq => by
        have hm : p ∈ all := (pySorted_perm keyLe all).mem_iff.mp hp
        rcases List.mem_cons.mp hm with rfl | hm
        · obtain ⟨objs, h1, h2⟩ := objects_read hobjects hq
          exact ⟨_, ⟨rfl, objs, rfl, h1⟩, h2⟩
        · obtain ⟨⟨k, v⟩, hkv, rfl⟩ := List.mem_map.mp hm
          obtain ⟨hk, hv⟩ := hprops k v hkv
          have hsaid := PropSaid.other (cls := c!"XCProjectFile") (key := k) (v := v) (by simp) (by simp) hv
          have e : decide (k = c!"buildSettings" ∧ c!"XCProjectFile" = c!"XCBuildConfiguration") = false := by simp
          rw [e] at hsaid
          exact ⟨(k, said false v), ⟨rfl, rfl⟩, pairsRead_kv hk hsaid hq⟩
  have hall : akeys all = c!"objects" :: akeys props := by simp [all, akeys]
  have hkeys' : (akeys ws).Perm (c!"objects" :: akeys props) := by
    rw [← forall₂_akeys (fun a b hab => hab.1) hws, ← hall]
    exact akeys_pySorted keyLe all
  have hnd : (akeys ws).Nodup := hkeys'.nodup_iff.mpr hkeys
  have hmem : ∀ p ∈ all, p ∈ pySorted keyLe all := fun p hp => (pySorted_perm keyLe all).mem_iff.mpr hp
  obtain ⟨w, hw, e, objs, ew, hobjs⟩ := forall₂_mem_left hws (hmem (c!"objects", none) (by simp [all]))
  have hids' : (akeys objs).Perm (objects.map PbxObject.id) := by
    rw [forall₂_object_ids hobjs]; exact (fileOrder_perm hids).map _
  refine ⟨ws, objs, ?_, ?_, ?_, hids', ?_, hkeys'⟩
  · have hpre : Skipped c!"// !$*UTF8*$!\n" := fun x => by simp [gap]
    have := fileSays_dict hpre (skipped_newline.pairs.append hr)
    simpa using this
  · refine aget_of_mem hnd ?_
    rw [← ew, show c!"objects" = w.1 from e]
    exact hw
  · intro o ho
    obtain ⟨x, hx, hid, hsaid⟩ := forall₂_mem_left hobjs ((mem_fileOrder objects o).mpr ho)
    refine ⟨x.2, aget_of_mem (hids'.nodup_iff.mpr hids) ?_, hsaid⟩
    rw [← hid]; exact hx
  · intro k v hkv
    obtain ⟨x, hx, e', hs⟩ := forall₂_mem_left hws (hmem (k, some v) (by simp [all]; exact hkv))
    refine aget_of_mem hnd ?_
    simp only at hs e'
    rw [← hs, e']
    exact hx

/-- A project with a target in another project, a file in a phase with settings, and settings for a
build. -/
def pbxSample : List PbxObject :=
  [{ id := c!"AA", comment := some c!"Project object", cls := c!"PBXProject", props := [(c!"name", .text c!"a b")] },
   { id := c!"BB", comment := some c!"h.h in */", cls := c!"PBXBuildFile",
     props := [(c!"settings", .text (c!"{ATTRIBUTES = (" ++ c!"Public" ++ c!", ); }")), (c!"fileRef", .ref c!"AA" none)] },
   { id := c!"CC", comment := none, cls := c!"PBXContainerItemProxy",
     props := [(c!"remoteGlobalIDString", .ref c!"AA" (some c!"x"))] },
   { id := c!"DD", comment := some c!"Debug", cls := c!"XCBuildConfiguration",
     props := [(c!"buildSettings", .dict [(c!"A", .list [.text c!"x y"]), (c!"B", .list []), (c!"C", .list [.text c!"1", .text c!"2"])])] }]

theorem plainText_id {s : Str} (h : s ≠ [] ∧ s.all Char.isAlphanum = true) : PlainText s :=
  plainId_text ⟨h.1, fun c hc => List.all_eq_true.mp h.2 c hc⟩

example : ∀ o ∈ pbxSample, PlainObject o := by
  have hid : ∀ s : Str, s ≠ [] ∧ s.all Char.isAlphanum = true → PlainId s :=
    fun s h => ⟨h.1, fun c hc => List.all_eq_true.mp h.2 c hc⟩
  intro o ho
  simp only [pbxSample, List.mem_cons, List.not_mem_nil, or_false] at ho
  rcases ho with rfl | rfl | rfl | rfl
  · refine ⟨hid _ (by decide), hid _ (by decide), by decide, ?_⟩
    intro k v h
    simp only [List.mem_singleton, Prod.mk.injEq] at h
    obtain ⟨rfl, rfl⟩ := h
    refine ⟨plainText_id (by decide), _, .other (by decide) (by decide) ?_⟩
    simp only [Plain]
    exact C105_text_quoted (by decide) (by decide) ⟨' ', by decide, by decide⟩
  · refine ⟨hid _ (by decide), hid _ (by decide), by decide, ?_⟩
    intro k v h
    simp only [List.mem_cons, List.not_mem_nil, or_false, Prod.mk.injEq] at h
    rcases h with ⟨rfl, rfl⟩ | ⟨rfl, rfl⟩
    · exact ⟨plainText_id (by decide), _, .settings rfl rfl (hid _ (by decide))⟩
    · refine ⟨plainText_id (by decide), _, .other (by decide) (by decide) ?_⟩
      simp only [Plain]; exact hid _ (by decide)
  · refine ⟨hid _ (by decide), hid _ (by decide), by decide, ?_⟩
    intro k v h
    simp only [List.mem_singleton, Prod.mk.injEq] at h
    obtain ⟨rfl, rfl⟩ := h
    exact ⟨plainText_id (by decide), _, .target rfl rfl (hid _ (by decide))⟩
  · refine ⟨hid _ (by decide), hid _ (by decide), by decide, ?_⟩
    intro k v h
    simp only [List.mem_singleton, Prod.mk.injEq] at h
    obtain ⟨rfl, rfl⟩ := h
    refine ⟨plainText_id (by decide), _, .other (by decide) (by decide) ?_⟩
    simp only [Plain, PlainPairs, PlainItems, and_true, true_and]
    refine ⟨⟨plainText_id (by decide), ?_⟩, plainText_id (by decide), plainText_id (by decide), plainText_id (by decide), plainText_id (by decide)⟩
    exact C105_text_quoted (by decide) (by decide) ⟨' ', by decide, by decide⟩
example : (pbxSample.map PbxObject.id).Nodup := by decide
example : (pbxFile [(c!"rootObject", .ref c!"AA" (some c!"Project object")), (c!"archiveVersion", .int 1)] pbxSample).isSome = true := by
  decide +kernel
example : pbxObject pbxSample[1] =
    some (c!"\t\tBB /* h.h in (*)/ */ = {isa = PBXBuildFile;" ++ c!" fileRef = AA; settings = " ++
      c!"{ATTRIBUTES = (Public, ); }; };\n") := by
  decide +kernel

/-- A file says at most one thing. -/
theorem C105_one_reading {t : Str} {v w : Plist} (hv : FileSays t v) (hw : FileSays t w) : v = w := by
  obtain ⟨N, hN⟩ := hv
  obtain ⟨M, hM⟩ := hw
  obtain ⟨r, h1, -⟩ := hN (max N M) (by omega)
  obtain ⟨r', h2, -⟩ := hM (max N M) (by omega)
  rw [h1] at h2
  injection h2 with h2
  injection h2

/-! ### Texts that are not read back -/

/-- **C105** (witness).  A carriage return is read as a newline. -/
theorem C105_return_witness : plistText (pbxString true c!"a\rb" ++ c!";") = some (c!"a\nb", c!";") := by decide +kernel

/-- **C105** (witness).  A newline after a text that needs no quotation marks is lost. -/
theorem C105_newline_witness : plistText (pbxString false c!"a\n" ++ c!";") = some (c!"a", c!"\n;") := by decide +kernel

/-- **C105** (witness).  A text that begins with `//` is a comment to its reader: of a list with a share
on a network and a second text, the first is lost with its comma. -/
theorem C105_slashes_witness :
    (∃ p, pbxVal ⟨false, false⟩ false 0 (.list [.text c!"//server/a", .text c!"b"]) = some p ∧
      readVal 9 (p ++ c!";") = some (.list [.text c!"b"], c!";")) := by
  refine ⟨c!"(\n\t//server/a,\n\tb,\n)", by decide +kernel, ?_⟩
  rfl

end Gyp
