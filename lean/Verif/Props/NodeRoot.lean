import Verif.Model.NodeRoot
import Verif.Spec.NodeRoot
import Verif.Props.Remove
import Verif.Props.Configure
/-
C85: the root directory of the running Node.js.
-/
namespace Gyp
open Spec

theorem pathOf_abs (ns : List Str) : isAbs (pathOf ns) = true := rfl

theorem walk_pathOf {ns : List Str} (h : ∀ c ∈ ns, validName c) (l : Loc) : walk l (pathOf ns) = ns.reverse :=
  walk_cwdStr h l

theorem jsJoin_pathOf {ns : List Str} (h : ∀ c ∈ ns, validName c) (rel : Str) :
    jsJoin (pathOf ns) rel = pathOf (walk ns.reverse rel).reverse := by
  rw [jsJoin, resolveIn_walk (pathOf_abs ns), walk_pathOf h]
  rfl

theorem up1 (l : Loc) : walk l c!".." = l.tail := rfl
theorem up2 (l : Loc) : walk l c!"../.." = l.tail.tail := rfl
theorem up4 (l : Loc) : walk l c!"../../../.." = l.tail.tail.tail.tail := rfl

theorem jsBasename_pathOf {ns : List Str} (h : ∀ c ∈ ns, validName c) : jsBasename (pathOf ns) = ns.getLast?.getD [] := by
  have e := splitOn_abspath 1 h
  have f : pathOf ns = List.replicate 1 '/' ++ joinWith ['/'] ns := rfl
  rw [jsBasename, f, e]
  by_cases hn : ns = []
  · subst hn; rfl
  · rw [if_neg hn]
    have : (List.replicate 1 ([] : Str) ++ ns).filter (· ≠ []) = ns := by
      simp only [List.replicate_one, List.singleton_append, List.filter_cons]
      rw [if_neg (by simp)]
      exact List.filter_eq_self.2 fun a ha => by simpa using (h a ha).1
    rw [this]

theorem rsplit1_pathOf {ns : List Str} {x : Str} (hx : '/' ∉ x) :
    rsplit1 '/' (pathOf (ns ++ [x])) = some (if ns = [] then [] else pathOf ns, x) := by
  have e : pathOf (ns ++ [x]) = (if ns = [] then [] else pathOf ns) ++ '/' :: x := by
    by_cases h : ns = []
    · subst h; rfl
    · rw [if_neg h, pathOf, joinWith_snoc h]
      simp [pathOf]
  rw [e]
  exact rsplit1_append hx

theorem jsDirname_pathOf {ns : List Str} {x : Str} (hx : '/' ∉ x) : jsDirname (pathOf (ns ++ [x])) = pathOf ns := by
  rw [jsDirname, rsplit1_pathOf hx]
  by_cases h : ns = []
  · subst h; rfl
  · simp only [if_neg h]
    rw [if_neg (by simp [pathOf])]

theorem find_eq {script exe : List Str} {x : Str} (hs : ∀ c ∈ script, validName c) (he : ∀ c ∈ exe, validName c)
    (hx : validName x) (win : Bool) :
    findNodeDirectory (pathOf script) (pathOf (exe ++ [x])) win =
      let above := (script.reverse.tail.tail.tail.tail).reverse
      if above.getLast?.getD [] = c!"deps" then pathOf above.dropLast
      else if above.getLast?.getD [] = c!"node_modules" then
        if win then pathOf above.dropLast else pathOf above.dropLast.dropLast
      else if exe.getLast?.getD [] = c!"bin" then pathOf exe.dropLast
      else if exe.getLast?.getD [] = c!"Release" ∨ exe.getLast?.getD [] = c!"Debug" then
        if win then pathOf exe.dropLast else pathOf exe.dropLast.dropLast
      else [] := by
  have ht : ∀ c ∈ (script.reverse.tail.tail.tail.tail).reverse, validName c := by
    intro c hc
    apply hs
    rw [List.mem_reverse] at hc
    exact List.mem_reverse.1 (List.mem_of_mem_tail (List.mem_of_mem_tail (List.mem_of_mem_tail (List.mem_of_mem_tail hc))))
  have r : ∀ l : List Str, l.reverse.tail.reverse = l.dropLast := fun l => by simp
  have r2 : ∀ l : List Str, l.reverse.tail.tail.reverse = l.dropLast.dropLast := fun l => by
    simp
  unfold findNodeDirectory
  simp only [jsJoin_pathOf hs, up4, jsBasename_pathOf ht, jsJoin_pathOf ht, up1, up2, jsDirname_pathOf hx.2.1,
    jsBasename_pathOf he, jsJoin_pathOf he, r, r2]

/-- **C85** (`bundled`).  If node-gyp is part of the npm that comes with a Node.js, then the directory of
that Node.js is found, whatever program runs. -/
theorem C85_bundled {win : Bool} {root script exe : List Str} {x : Str} (h : Bundled win root script)
    (hr : ∀ c ∈ root, validName c) (he : ∀ c ∈ exe, validName c) (hx : validName x) :
    findNodeDirectory (pathOf script) (pathOf (exe ++ [x])) win = pathOf root := by
  have hs : ∀ c ∈ script, validName c := by
    cases h with
    | source =>
      intro c hc
      rcases List.mem_append.1 hc with hc | hc
      · exact hr c hc
      · exact (by decide : ∀ c ∈ _, validName c) c hc
    | installed =>
      intro c hc
      rcases List.mem_append.1 hc with hc | hc
      · exact hr c hc
      · exact (by decide : ∀ c ∈ _, validName c) c hc
    | installedWin =>
      intro c hc
      rcases List.mem_append.1 hc with hc | hc
      · exact hr c hc
      · exact (by decide : ∀ c ∈ _, validName c) c hc
  rw [find_eq hs he hx]
  cases h with
  | source => simp
  | installed => simp
  | installedWin => simp

theorem elsewhere_above {script : List Str} (h : Elsewhere script) :
    (script.reverse.tail.tail.tail.tail).reverse.getLast?.getD [] ≠ c!"deps" ∧
    (script.reverse.tail.tail.tail.tail).reverse.getLast?.getD [] ≠ c!"node_modules" := by
  rcases e : script.reverse with _ | ⟨d, _ | ⟨c, _ | ⟨b, _ | ⟨a, rest⟩⟩⟩⟩
  · decide
  · exact ⟨by simp, by simp⟩
  · exact ⟨by simp, by simp⟩
  · exact ⟨by simp, by simp⟩
  · have es : script = rest.reverse ++ [a, b, c, d] := by
      have := congrArg List.reverse e
      simpa using this
    obtain ⟨h1, h2⟩ := h _ _ _ _ _ es
    simp only [List.tail_cons]
    cases hl : rest.reverse.getLast? with
    | none => exact ⟨by simp, by simp⟩
    | some w =>
      rw [hl] at h1 h2
      exact ⟨by simpa using h1, by simpa using h2⟩

/-- **C85** (`program`).  Otherwise the directory is that of the Node.js that runs: where it is
installed, or its source tree. -/
theorem C85_program {win : Bool} {root script exe : List Str} (h : Program win root exe) (hs : ∀ c ∈ script, validName c)
    (he : ∀ c ∈ exe, validName c) (hel : Elsewhere script) :
    findNodeDirectory (pathOf script) (pathOf exe) win = pathOf root := by
  obtain ⟨n1, n2⟩ := elsewhere_above hel
  cases h with
  | @installed _ _ x =>
    have e : root ++ [c!"bin", x] = (root ++ [c!"bin"]) ++ [x] := by simp
    rw [e] at he ⊢
    rw [find_eq hs (fun c hc => he c (List.mem_append_left _ hc)) (he x (by simp))]
    simp only [if_neg n1, if_neg n2]
    simp
  | @built _ out kind x hk =>
    have e : root ++ [out, kind, x] = (root ++ [out, kind]) ++ [x] := by simp
    rw [e] at he ⊢
    rw [find_eq hs (fun c hc => he c (List.mem_append_left _ hc)) (he x (by simp))]
    simp only [if_neg n1, if_neg n2]
    have l : (root ++ [out, kind]).getLast?.getD [] = kind := by simp
    rw [l, if_neg (by rcases hk with rfl | rfl <;> decide), if_pos hk]
    have d : (root ++ [out, kind]).dropLast.dropLast = root := by
      rw [show root ++ [out, kind] = (root ++ [out]) ++ [kind] by simp, List.dropLast_concat, List.dropLast_concat]
    simp [d]
  | @builtWin _ kind x hk =>
    have e : root ++ [kind, x] = (root ++ [kind]) ++ [x] := by simp
    rw [e] at he ⊢
    rw [find_eq hs (fun c hc => he c (List.mem_append_left _ hc)) (he x (by simp))]
    simp only [if_neg n1, if_neg n2]
    have l : (root ++ [kind]).getLast?.getD [] = kind := by simp
    rw [l, if_neg (by rcases hk with rfl | rfl <;> decide), if_pos hk]
    simp

/-- **C85** (`unknown`).  If the program lies in neither way, no directory is found (except that
`/Release/node` counts as built in the root). -/
theorem C85_unknown {win : Bool} {script exe : List Str} (hs : ∀ c ∈ script, validName c)
    (he : ∀ c ∈ exe, validName c) (hlen : 3 ≤ exe.length) (hel : Elsewhere script) (h : ∀ root, ¬ Program win root exe) :
    findNodeDirectory (pathOf script) (pathOf exe) win = [] := by
  obtain ⟨n1, n2⟩ := elsewhere_above hel
  rcases e : exe.reverse with _ | ⟨x, _ | ⟨k, _ | ⟨o, rest⟩⟩⟩
  · have := congrArg List.length e; simp at this; simp [this] at hlen
  · have := congrArg List.length e; simp at this; omega
  · have := congrArg List.length e; simp at this; omega
  · have ee : exe = (rest.reverse ++ [o, k]) ++ [x] := by
      have := congrArg List.reverse e
      simpa using this
    subst ee
    rw [find_eq hs (fun c hc => he c (List.mem_append_left _ hc)) (he x (by simp))]
    simp only [if_neg n1, if_neg n2]
    have l : (rest.reverse ++ [o, k]).getLast?.getD [] = k := by simp
    rw [l]
    rw [if_neg, if_neg]
    · intro hk
      cases win with
      | false => exact h rest.reverse (by simpa using Program.built (root := rest.reverse) (out := o) (exe := x) hk)
      | true => exact h (rest.reverse ++ [o]) (by simpa using Program.builtWin (root := rest.reverse ++ [o]) (exe := x) hk)
    · rintro rfl
      exact h (rest.reverse ++ [o]) (by simpa using Program.installed (win := win) (root := rest.reverse ++ [o]) (exe := x))

/-- **C85** (`exports`).  On AIX and OS/400 the symbols of the Node.js that brings node-gyp, or else of
the one that runs, are used: the first file of the four that can be read in its directory. -/
theorem C85_exports {W : ConfigureWorld} {root script exe : List Str} {x : Str}
    (hW : W.platform = c!"aix" ∨ W.platform = c!"os400")
    (hroot : W.nodeRoot = findNodeDirectory (pathOf script) (pathOf (exe ++ [x])) false)
    (h : Bundled false root script ∨
      (Elsewhere script ∧ (∀ c ∈ script, validName c) ∧ Program false root (exe ++ [x])))
    (hr : ∀ c ∈ root, validName c) (he : ∀ c ∈ exe, validName c) (hx : validName x) (f : Str) :
    exportsFile W = .ok (some f) ↔
      FirstOf (fun f => W.readable f = true)
        ([c!"include/node/node.exp", c!"out/Release/node.exp", c!"out/Debug/node.exp", c!"node.exp"].map
          (W.resolve (pathOf root))) f := by
  have e : W.nodeRoot = pathOf root := by
    rw [hroot]
    rcases h with h | ⟨h1, h2, h3⟩
    · exact C85_bundled h hr he hx
    · refine C85_program h3 h2 (fun c hc => ?_) h1
      rcases List.mem_append.1 hc with hc | hc
      · exact he c hc
      · obtain rfl : c = x := by simpa using hc
        exact hx
  rw [C64_exports, if_pos (by rcases hW with h | h <;> simp [h]), e,
    if_neg (by rcases hW with h | h <;> (rw [h]; decide))]
  constructor
  · rintro ⟨g, hg, h⟩
    cases hg
    exact h
  · intro h
    exact ⟨f, rfl, h⟩

/-! ### Layouts -/

example : findNodeDirectory c!"/usr/lib/node_modules/npm/node_modules/node-gyp/lib" c!"/usr/bin/node" false = c!"/usr" := by
  decide +kernel

example : Bundled false [c!"usr"] [c!"usr", c!"lib", c!"node_modules", c!"npm", c!"node_modules", c!"node-gyp", c!"lib"] :=
  .installed

example : pathOf [c!"usr", c!"lib"] = c!"/usr/lib" := by decide

/-- node-gyp installed by itself, with a Node.js built in its source tree. -/
example : Elsewhere [c!"usr", c!"lib", c!"node_modules", c!"node-gyp", c!"lib"] ∧
    Program false [c!"home", c!"u", c!"node"] [c!"home", c!"u", c!"node", c!"out", c!"Release", c!"node"] := by
  refine ⟨?_, .built (root := [c!"home", c!"u", c!"node"]) (.inl rfl)⟩
  intro above a b c d h
  have : above = [c!"usr"] := by
    have := congrArg (fun l => (List.dropLast l).dropLast.dropLast.dropLast) h
    rw [show above ++ [a, b, c, d] = (((above ++ [a]) ++ [b]) ++ [c]) ++ [d] by simp] at this
    simp only [List.dropLast_concat] at this
    exact this.symm
  subst this
  decide

example : findNodeDirectory c!"/usr/lib/node_modules/node-gyp/lib" c!"/home/u/node/out/Release/node" false =
    c!"/home/u/node" := by decide +kernel

example : findNodeDirectory c!"/usr/lib/node_modules/node-gyp/lib" c!"/opt/node" false = [] := by decide +kernel

/-! ### Where another directory is found -/

/-- **C85** (witness).  With an npm that a project has among its own dependencies, the directory that is
found is the one the project lies in. -/
theorem C85_project :
    findNodeDirectory c!"/home/u/project/node_modules/npm/node_modules/node-gyp/lib" c!"/usr/bin/node" false =
      c!"/home/u" := by decide +kernel

/-- **C85** (witness).  So it is with any directory named `deps` at that place. -/
theorem C85_deps :
    findNodeDirectory c!"/home/u/deps/tool/node_modules/node-gyp/lib" c!"/usr/bin/node" false = c!"/home/u" := by
  decide +kernel

/-- **C85** (witness).  If no directory is found, the four files are looked for in the working
directory: an addon's own file is taken for that of Node.js. -/
theorem C85_cwd : ∃ W : ConfigureWorld,
    W.platform = c!"aix" ∧ W.nodeRoot = findNodeDirectory c!"/usr/lib/node_modules/node-gyp/lib" c!"/opt/node" false ∧
    W.resolve [] c!"node.exp" = c!"/addon/node.exp" ∧ W.cwd = c!"/addon" ∧
    exportsFile W = .ok (some c!"/addon/node.exp") :=
  ⟨{ exConfigure with
      platform := c!"aix", nodeRoot := [], cwd := c!"/addon"
      resolve := fun a b => if a = [] then c!"/addon/" ++ b else a ++ c!"/" ++ b
      readable := fun f => decide (f = c!"/addon/node.exp") },
    rfl, by decide +kernel, rfl, rfl, rfl⟩

end Gyp
