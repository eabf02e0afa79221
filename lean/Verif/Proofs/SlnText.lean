import Verif.Proofs.SlnEntries
import Verif.Proofs.Path
import Verif.Spec.MsvsSolution
/-
Reading back the text of a solution.
-/
namespace Gyp
open Spec

theorem splitEq_append {a b : Str} (h : '=' ∉ a) : splitEq (a ++ c!" = " ++ b) = some (a, b) := by
  induction a with
  | nil => simp [splitEq, startsWith]
  | cons c a ih =>
    simp only [List.mem_cons, not_or] at h
    have hs : startsWith (c :: (a ++ c!" = " ++ b)) c!" = " = false := by
      cases a with
      | nil => simp [startsWith, List.isPrefixOf]
      | cons c' a' =>
        simp only [List.mem_cons, not_or] at h
        have : ('=' == c') = false := by simpa using h.2.1
        simp [startsWith, List.isPrefixOf, this]
    have ih := ih h.2
    have e : c :: a ++ c!" = " ++ b = c :: (a ++ c!" = " ++ b) := rfl
    rw [e, splitEq, if_neg (by rw [hs]; simp), ih]
    rfl

theorem slnLines_linesText {lines : List Str} (h : ∀ l ∈ lines, '\n' ∉ l) :
    slnLines (linesText lines) = lines ++ [[]] := by
  induction lines with
  | nil => rfl
  | cons l lines ih =>
    have h1 := h l (by simp)
    have ih := ih fun x hx => h x (List.mem_cons_of_mem _ hx)
    have e : linesText (l :: lines) = (l ++ ['\r']) ++ '\n' :: linesText lines := by
      simp [linesText]
    unfold slnLines at ih ⊢
    rw [e, splitOn_append_sep, List.map_append, ih, splitOn_noSep (by simpa using h1)]
    simp

theorem slnLine_pair (st : SlnState) {a b : Str} (h : '=' ∉ a) :
    slnLine st (c!"\t\t" ++ a ++ c!" = " ++ b) =
      { st with inside := st.inside.map fun s => { s with pairs := s.pairs ++ [(a, b)] } } := by
  have e : c!"\t\t" ++ a ++ c!" = " ++ b = '\t' :: '\t' :: (a ++ c!" = " ++ b) := by simp
  rw [e]
  unfold slnLine
  rw [if_neg (by simp [startsWith]), if_neg (by simp), if_neg (by simp [startsWith]),
    if_neg (by simp), if_neg (by simp), if_pos (by simp [startsWith])]
  simp only [List.drop_succ_cons, List.drop_zero, splitEq_append h, Option.toList]

theorem foldl_pairs (st : SlnState) (ps : List (Str × Str)) (h : ∀ p ∈ ps, '=' ∉ p.1)
    {s : SlnSection} (hs : st.inside = some s) :
    (ps.map fun p => c!"\t\t" ++ p.1 ++ c!" = " ++ p.2).foldl slnLine st =
      { st with inside := some { s with pairs := s.pairs ++ ps } } := by
  induction ps generalizing st s with
  | nil =>
    simp only [List.map_nil, List.foldl_nil, List.append_nil]
    rw [← hs]
  | cons p ps ih =>
    rw [List.map_cons, List.foldl_cons, slnLine_pair st (h p (by simp)), hs]
    rw [ih _ (fun x hx => h x (List.mem_cons_of_mem _ hx)) (s := { s with pairs := s.pairs ++ [p] }) rfl]
    simp

/-- A global section. -/
theorem foldl_section (st : SlnState) (name : Str) (rest : Str) (ps : List (Str × Str))
    (h : ∀ p ∈ ps, '=' ∉ p.1) (hn : ')' ∉ name) (hi : st.inside = none) :
    ([c!"\tGlobalSection(" ++ name ++ c!")" ++ rest] ++
      (ps.map fun p => c!"\t\t" ++ p.1 ++ c!" = " ++ p.2) ++ [c!"\tEndGlobalSection"]).foldl slnLine st =
      { st with sections := st.sections ++ [⟨name, ps⟩] } := by
  have hname : sectionName (c!"\tGlobalSection(" ++ name ++ c!")" ++ rest) = name := by
    have : (c!"\tGlobalSection(" ++ name ++ c!")" ++ rest).dropWhile (· ≠ '(') =
        '(' :: (name ++ (c!")" ++ rest)) := by
      simp [List.dropWhile]
    unfold sectionName
    rw [this, List.drop_one, List.tail_cons]
    rw [List.takeWhile_append_of_pos (by
      intro c hc
      simp only [ne_eq, decide_not, Bool.not_eq_eq_eq_not, Bool.not_true, decide_eq_false_iff_not]
      rintro rfl
      exact hn hc)]
    simp
  have h1 : slnLine st (c!"\tGlobalSection(" ++ name ++ c!")" ++ rest) =
      { st with inside := some ⟨name, []⟩ } := by
    have hs : startsWith (c!"\tGlobalSection(" ++ name ++ c!")" ++ rest) c!"\tGlobalSection(" = true := by
      simp [startsWith]
    unfold slnLine
    rw [if_neg (by simp [startsWith]), if_neg (by simp), if_pos (Or.inr hs), hname]
  rw [List.foldl_append, List.foldl_append]
  simp only [List.foldl_cons, List.foldl_nil]
  rw [h1, foldl_pairs _ ps h (s := ⟨name, []⟩) rfl]
  unfold slnLine
  rw [if_neg (by simp [startsWith]), if_neg (by simp), if_neg (by simp [startsWith]),
    if_neg (by simp), if_pos rfl]
  simp [hi]

/-- The entry as it is read. -/
def slnRecordOf (env : SlnEnv) (heap : List (Str × SlnProject)) (sln : Str) (e : SEntry) : SlnRecord :=
  ⟨entryType e, entryName heap e, shownPath env sln (entryPath heap e), entryGuid env heap e,
    (entryDeps heap e).map fun d => entryGuid env heap (.project d)⟩

theorem foldl_entry (env : SlnEnv) (heap : List (Str × SlnProject)) (sln : Str) (e : SEntry)
    (st : SlnState) (hi : st.inside = none) (hr : st.record = none)
    (hn : '"' ∉ entryName heap e) (hp : '"' ∉ shownPath env sln (entryPath heap e))
    (hg : '"' ∉ entryGuid env heap e)
    (hd : ∀ d ∈ entryDeps heap e, '=' ∉ entryGuid env heap (.project d)) :
    (entryLines env heap sln e).foldl slnLine st =
      { st with records := st.records ++ [slnRecordOf env heap sln e] } := by
  have ht : '"' ∉ entryType e := by cases e <;> simp [entryType]
  have h1 : slnLine st (c!"Project(\"" ++ entryType e ++ c!"\") = \"" ++ entryName heap e ++ c!"\", \"" ++
      shownPath env sln (entryPath heap e) ++ c!"\", \"" ++ entryGuid env heap e ++ c!"\"") =
      { st with record := some ⟨entryType e, entryName heap e, shownPath env sln (entryPath heap e),
        entryGuid env heap e, []⟩ } := by
    have hsp : splitOn '"' (c!"Project(\"" ++ entryType e ++ c!"\") = \"" ++ entryName heap e ++ c!"\", \"" ++
      shownPath env sln (entryPath heap e) ++ c!"\", \"" ++ entryGuid env heap e ++ c!"\"") =
        [c!"Project(", entryType e, c!") = ", entryName heap e, c!", ",
          shownPath env sln (entryPath heap e), c!", ", entryGuid env heap e, []] := by
      have : c!"Project(\"" ++ entryType e ++ c!"\") = \"" ++ entryName heap e ++ c!"\", \"" ++
          shownPath env sln (entryPath heap e) ++ c!"\", \"" ++ entryGuid env heap e ++ c!"\"" =
        joinWith ['"'] [c!"Project(", entryType e, c!") = ", entryName heap e, c!", ",
          shownPath env sln (entryPath heap e), c!", ", entryGuid env heap e, []] := by
        simp [joinWith]
      rw [this]
      refine splitOn_joinWith (by simp) ?_
      simp [ht, hn, hp, hg]
    unfold slnLine
    rw [if_pos (by simp [startsWith]), hsp]
  have hshape : entryLines env heap sln e =
      [c!"Project(\"" ++ entryType e ++ c!"\") = \"" ++ entryName heap e ++ c!"\", \"" ++
        shownPath env sln (entryPath heap e) ++ c!"\", \"" ++ entryGuid env heap e ++ c!"\""] ++
      (if entryDeps heap e = [] then []
       else [c!"\tProjectSection(ProjectDependencies) = postProject"] ++
        (entryDeps heap e).map (fun d =>
          c!"\t\t" ++ entryGuid env heap (.project d) ++ c!" = " ++ entryGuid env heap (.project d)) ++
        [c!"\tEndProjectSection"]) ++
      [c!"EndProject"] := rfl
  rw [hshape, List.foldl_append, List.foldl_append, List.foldl_cons (l := []) (b := st), List.foldl_nil (b := slnLine st _), h1]
  by_cases hdeps : entryDeps heap e = []
  · rw [if_pos hdeps, List.foldl_nil, List.foldl_cons, List.foldl_nil]
    unfold slnLine
    rw [if_neg (by simp [startsWith]), if_pos rfl]
    simp [slnRecordOf, hdeps, hr]
  · rw [if_neg hdeps]
    have hmap : (entryDeps heap e).map (fun d =>
        c!"\t\t" ++ entryGuid env heap (.project d) ++ c!" = " ++ entryGuid env heap (.project d)) =
        ((entryDeps heap e).map fun d => (entryGuid env heap (.project d), entryGuid env heap (.project d))).map
          fun p => c!"\t\t" ++ p.1 ++ c!" = " ++ p.2 := by
      rw [List.map_map]; rfl
    rw [hmap]
    have h2 : ∀ s : SlnState, slnLine s c!"\tProjectSection(ProjectDependencies) = postProject" =
        { s with inside := some ⟨c!"ProjectDependencies", []⟩ } := fun s => rfl
    simp only [List.foldl_append, List.foldl_cons, List.foldl_nil, h2]
    rw [foldl_pairs _ _ (by
      intro p hp
      obtain ⟨d, hd', rfl⟩ := List.mem_map.mp hp
      exact hd d hd') (s := ⟨c!"ProjectDependencies", []⟩) rfl]
    have h3 : ∀ s : SlnState, ∀ r sec, s.record = some r → s.inside = some sec →
        sec.name = c!"ProjectDependencies" →
        slnLine s c!"\tEndProjectSection" =
        { s with record := some { r with dependencies := sec.pairs.map (·.1) }, inside := none } := by
      intro s r sec e1 e2 e3
      unfold slnLine
      rw [if_neg (by simp [startsWith]), if_neg (by simp), if_neg (by simp [startsWith]), if_pos rfl]
      simp [e1, e2, e3]
    rw [h3 _ _ _ rfl rfl rfl]
    unfold slnLine
    rw [if_neg (by simp [startsWith]), if_pos rfl]
    simp [slnRecordOf, hr, hi, Function.comp_def]

theorem foldl_entries (env : SlnEnv) (heap : List (Str × SlnProject)) (sln : Str) (es : List SEntry)
    (st : SlnState) (hi : st.inside = none) (hr : st.record = none)
    (hn : ∀ e ∈ es, '"' ∉ entryName heap e)
    (hp : ∀ e ∈ es, '"' ∉ shownPath env sln (entryPath heap e))
    (hg : ∀ e ∈ es, '"' ∉ entryGuid env heap e)
    (hd : ∀ e ∈ es, ∀ d ∈ entryDeps heap e, '=' ∉ entryGuid env heap (.project d)) :
    (es.flatMap (entryLines env heap sln)).foldl slnLine st =
      { st with records := st.records ++ es.map (slnRecordOf env heap sln) } := by
  induction es generalizing st with
  | nil => simp
  | cons e es ih =>
    rw [List.flatMap_cons, List.foldl_append, foldl_entry env heap sln e st hi hr (hn e (by simp))
      (hp e (by simp)) (hg e (by simp)) (hd e (by simp)),
      ih { st with records := st.records ++ [slnRecordOf env heap sln e] } hi hr (fun x hx => hn x (List.mem_cons_of_mem _ hx)) (fun x hx => hp x (List.mem_cons_of_mem _ hx))
        (fun x hx => hg x (List.mem_cons_of_mem _ hx)) (fun x hx => hd x (List.mem_cons_of_mem _ hx))]
    simp

/-- The lines of the section of project configurations, as pairs. -/
def configPairs (over : List (Str × List (Str × Str))) (g v : Str) : List (Str × Str) :=
  let nv := (aget ((aget over g).getD []) v).getD v
  [(g ++ c!"." ++ v ++ c!".ActiveCfg", nv), (g ++ c!"." ++ v ++ c!".Build.0", nv)]

/-- The pairs of the folder mappings. -/
def nestedPairs (env : SlnEnv) (heap : List (Str × SlnProject)) (es : List SEntry) : List (Str × Str) :=
  es.flatMap fun e => (folderEntries e).map fun s => (entryGuid env heap s, entryGuid env heap e)

theorem configLines_eq (over : List (Str × List (Str × Str))) (g v : Str) :
    configLines over g v = (configPairs over g v).map fun p => c!"\t\t" ++ p.1 ++ c!" = " ++ p.2 := by
  simp [configLines, configPairs]

theorem flatMap_configLines (over : List (Str × List (Str × Str))) (gs vs : List Str) :
    (gs.flatMap fun g => vs.flatMap (configLines over g)) =
      (gs.flatMap fun g => vs.flatMap (configPairs over g)).map fun p => c!"\t\t" ++ p.1 ++ c!" = " ++ p.2 := by
  have : (fun g => vs.flatMap (configLines over g)) =
      fun g => (vs.flatMap (configPairs over g)).map fun p => c!"\t\t" ++ p.1 ++ c!" = " ++ p.2 := by
    funext g
    rw [List.map_flatMap, funext (configLines_eq over g)]
  rw [this, List.map_flatMap]

theorem slnLine_other (st : SlnState) (line : Str) (c : Char) (l : Str) (hl : line = c :: l)
    (h1 : c ≠ 'P') (h2 : line ≠ c!"EndProject") (h3 : c ≠ '\t') : slnLine st line = st := by
  subst hl
  have hP : ('P' == c) = false := by simpa using fun e : 'P' = c => h1 e.symm
  have hT : ('\t' == c) = false := by simpa using fun e : '\t' = c => h3 e.symm
  unfold slnLine
  rw [if_neg (by simp [startsWith, List.isPrefixOf, hP]), if_neg h2,
    if_neg (by simp [startsWith, List.isPrefixOf, hT]), if_neg (by simp [h3]), if_neg (by simp [h3]),
    if_neg (by simp [startsWith, List.isPrefixOf, hT])]

/-- The sections of a solution. -/
def sectionsOf (env : SlnEnv) (heap : List (Str × SlnProject)) (vs : List Str) (es : List SEntry) :
    List SlnSection :=
  [⟨c!"SolutionConfigurationPlatforms", vs.map fun v => (v, v)⟩,
   ⟨c!"ProjectConfigurationPlatforms", (configGuids env heap es).flatMap fun g =>
      vs.flatMap (configPairs (guidOverrides env heap es) g)⟩,
   ⟨c!"SolutionProperties", [(c!"HideSolutionNode", c!"FALSE")]⟩] ++
  (if es.any (fun e => !(folderEntries e).isEmpty) then [⟨c!"NestedProjects", nestedPairs env heap es⟩]
   else [])

theorem foldl_solution (env : SlnEnv) (heap : List (Str × SlnProject)) (sln : Str) (vs : List Str)
    (es : List SEntry)
    (hn : ∀ e ∈ es, '"' ∉ entryName heap e)
    (hp : ∀ e ∈ es, '"' ∉ shownPath env sln (entryPath heap e))
    (hg : ∀ e ∈ es, '"' ∉ entryGuid env heap e ∧ '=' ∉ entryGuid env heap e)
    (hs : ∀ e ∈ es, ∀ s ∈ folderEntries e, '=' ∉ entryGuid env heap s)
    (hd : ∀ e ∈ es, ∀ d ∈ entryDeps heap e, '=' ∉ entryGuid env heap (.project d))
    (hv : ∀ v ∈ vs, '=' ∉ v) :
    (solutionLines env heap sln vs es).foldl slnLine {} =
      { records := es.map (slnRecordOf env heap sln), sections := sectionsOf env heap vs es,
        record := none, inside := none } := by
  have hcg : ∀ g ∈ configGuids env heap es, '=' ∉ g := by
    intro g hg'
    unfold configGuids at hg'
    rw [(pySorted_perm strLe _).mem_iff, List.mem_filterMap] at hg'
    obtain ⟨e, he, h⟩ := hg'
    cases e with
    | project q =>
      simp only [Option.some.injEq] at h
      rw [← h]
      exact (hg _ he).2
    | folder p n l => cases h
  have hcp : ∀ p ∈ (configGuids env heap es).flatMap fun g =>
      vs.flatMap (configPairs (guidOverrides env heap es) g), '=' ∉ p.1 := by
    intro p hp'
    obtain ⟨g, hg', hp'⟩ := List.mem_flatMap.mp hp'
    obtain ⟨v, hv', hp'⟩ := List.mem_flatMap.mp hp'
    have h1 := hcg g hg'
    have h2 := hv v hv'
    simp only [configPairs, List.mem_cons, List.not_mem_nil, or_false] at hp'
    rcases hp' with rfl | rfl <;> simp [h1, h2]
  have hnest : ∀ st : SlnState, st.inside = none → (nestedLines env heap es).foldl slnLine st =
      { st with sections := st.sections ++
        (if es.any (fun e => !(folderEntries e).isEmpty) then
          [⟨c!"NestedProjects", nestedPairs env heap es⟩] else []) } := by
    intro st hi
    unfold nestedLines
    by_cases hany : es.any (fun e => !(folderEntries e).isEmpty) = true
    · rw [if_pos hany, if_pos hany]
      have := foldl_section st c!"NestedProjects" c!" = preSolution" (nestedPairs env heap es) (by
        intro p hp'
        obtain ⟨e, he, hp'⟩ := List.mem_flatMap.mp hp'
        obtain ⟨s, hs', rfl⟩ := List.mem_map.mp hp'
        exact hs e he s hs') (by decide) hi
      rw [← this]
      congr 1
      unfold nestedPairs
      simp only [List.map_flatMap, List.map_map]
      rfl
    · rw [if_neg hany, if_neg hany, List.foldl_nil, List.append_nil]
  have hsc : ∀ st : SlnState, st.inside = none →
      ([c!"\tGlobalSection(SolutionConfigurationPlatforms) = preSolution"] ++
        vs.map (fun v => c!"\t\t" ++ v ++ c!" = " ++ v) ++ [c!"\tEndGlobalSection"]).foldl slnLine st =
      { st with sections := st.sections ++
          [⟨c!"SolutionConfigurationPlatforms", vs.map fun v => (v, v)⟩] } := by
    intro st hi
    have := foldl_section st c!"SolutionConfigurationPlatforms" c!" = preSolution" (vs.map fun v => (v, v)) (by
      intro p hp'
      obtain ⟨v, hv', rfl⟩ := List.mem_map.mp hp'
      exact hv v hv') (by decide) hi
    rw [← this]
    congr 1
    simp only [List.map_map]
    rfl
  have hpc : ∀ st : SlnState, st.inside = none →
      ([c!"\tGlobalSection(ProjectConfigurationPlatforms) = postSolution"] ++
        (configGuids env heap es).flatMap (fun g =>
          vs.flatMap (configLines (guidOverrides env heap es) g)) ++ [c!"\tEndGlobalSection"]).foldl slnLine st =
      { st with sections := st.sections ++
          [⟨c!"ProjectConfigurationPlatforms", (configGuids env heap es).flatMap fun g =>
            vs.flatMap (configPairs (guidOverrides env heap es) g)⟩] } := by
    intro st hi
    have := foldl_section st c!"ProjectConfigurationPlatforms" c!" = postSolution" _ hcp (by decide) hi
    rw [← this, flatMap_configLines]
    rfl
  have hsp : ∀ st : SlnState, st.inside = none →
      ([c!"\tGlobalSection(SolutionProperties) = preSolution", c!"\t\tHideSolutionNode = FALSE",
        c!"\tEndGlobalSection"]).foldl slnLine st =
      { st with sections := st.sections ++
          [⟨c!"SolutionProperties", [(c!"HideSolutionNode", c!"FALSE")]⟩] } := by
    intro st hi
    have := foldl_section st c!"SolutionProperties" c!" = preSolution" [(c!"HideSolutionNode", c!"FALSE")]
      (by decide) (by decide) hi
    rw [← this]
    rfl
  have hshape : solutionLines env heap sln vs es =
      [c!"Microsoft Visual Studio Solution File, Format Version " ++ env.version,
        c!"# " ++ env.description] ++ (es.flatMap (entryLines env heap sln) ++ ([c!"Global"] ++
      (([c!"\tGlobalSection(SolutionConfigurationPlatforms) = preSolution"] ++
        vs.map (fun v => c!"\t\t" ++ v ++ c!" = " ++ v) ++ [c!"\tEndGlobalSection"]) ++
      (([c!"\tGlobalSection(ProjectConfigurationPlatforms) = postSolution"] ++
        (configGuids env heap es).flatMap (fun g =>
          vs.flatMap (configLines (guidOverrides env heap es) g)) ++ [c!"\tEndGlobalSection"]) ++
      (([c!"\tGlobalSection(SolutionProperties) = preSolution", c!"\t\tHideSolutionNode = FALSE",
        c!"\tEndGlobalSection"]) ++ (nestedLines env heap es ++ [c!"EndGlobal"])))))) := by
    unfold solutionLines
    simp only [List.append_assoc, List.cons_append, List.nil_append]
  have hM : ∀ st : SlnState,
      slnLine st (c!"Microsoft Visual Studio Solution File, Format Version " ++ env.version) = st :=
    fun st => slnLine_other st _ 'M' _ rfl (by decide) (by simp) (by decide)
  have hN : ∀ st : SlnState, slnLine st (c!"# " ++ env.description) = st :=
    fun st => slnLine_other st _ '#' _ rfl (by decide) (by simp) (by decide)
  have hG : ∀ st : SlnState, slnLine st c!"Global" = st :=
    fun st => slnLine_other st _ 'G' _ rfl (by decide) (by simp) (by decide)
  have hE : ∀ st : SlnState, slnLine st c!"EndGlobal" = st :=
    fun st => slnLine_other st _ 'E' _ rfl (by decide) (by simp) (by decide)
  rw [hshape, List.foldl_append, List.foldl_cons, List.foldl_cons, List.foldl_nil, hM, hN,
    List.foldl_append, foldl_entries env heap sln es {} rfl rfl hn hp (fun e he => (hg e he).1) hd,
    List.foldl_append, List.foldl_cons, List.foldl_nil,
    hG,
    List.foldl_append, hsc _ rfl, List.foldl_append, hpc _ rfl, List.foldl_append, hsp _ rfl,
    List.foldl_append, hnest _ rfl, List.foldl_cons, List.foldl_nil, hE]
  simp [sectionsOf]

end Gyp
