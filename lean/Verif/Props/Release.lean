import Verif.Proofs.Release
import Verif.Props.Shard
/-
C54: where a release is downloaded from and installed.
-/
namespace Gyp
open Spec

/-! ### Unfolding -/

theorem semver_text (v : Semver) : VersionText v v.text := by
  unfold VersionText Semver.text
  by_cases h : v.pre = [] <;> simp [h]

theorem versionText_unique {v : Semver} {t : Str} (h : VersionText v t) : t = v.text := by
  unfold VersionText at h
  unfold Semver.text
  rcases h with ⟨h, rfl⟩ | ⟨h, rfl⟩ <;> simp [h]

theorem chosenVersion_asked (parse : Str → Option Semver) (o : ReleaseOpts) :
    Asked parse o (chosenVersion parse o) := by
  unfold chosenVersion Asked
  by_cases h1 : (parse o.arg).isSome = true ∧ o.arg ≠ []
  · rw [if_pos (by simpa using h1)]
    exact Or.inl ⟨h1.1, h1.2, rfl⟩
  · rw [if_neg (by simpa using h1)]
    by_cases h2 : o.target ≠ []
    · rw [if_pos h2]; exact Or.inr (Or.inl ⟨h1, h2, rfl⟩)
    · rw [if_neg h2]; exact Or.inr (Or.inr ⟨h1, by simpa using h2, rfl⟩)

theorem asked_unique {parse : Str → Option Semver} {o : ReleaseOpts} {w w' : Str}
    (h : Asked parse o w) (h' : Asked parse o w') : w = w' := by
  unfold Asked at h h'
  rcases h with ⟨a, b, c⟩ | ⟨a, b, c⟩ | ⟨a, b, c⟩ <;>
    rcases h' with ⟨a', b', c'⟩ | ⟨a', b', c'⟩ | ⟨a', b', c'⟩ <;>
    first
    | exact c.trans c'.symm
    | exact absurd (And.intro a b) a'
    | exact absurd (And.intro a' b') a
    | exact absurd b' b
    | exact absurd b b'

theorem overrideUrl_asked {o : ReleaseOpts} {u : Str} (h : DistAsked o u) :
    overrideUrl o = u ∧ u ≠ [] := by
  obtain ⟨hu, h⟩ := h
  refine ⟨?_, hu⟩
  unfold overrideUrl
  rcases h with rfl | ⟨h1, rfl | ⟨h2, rfl⟩⟩
  · simp [hu]
  · simp [h1, hu]
  · simp [h1, h2, hu]

theorem overrideUrl_none {o : ReleaseOpts} (h : NoDistAsked o) : overrideUrl o = [] := by
  obtain ⟨h1, h2, h3⟩ := h
  simp [overrideUrl, h1, h2, h3]

/-- What applies of `process.release`. -/
def ownRelease (v dv : Semver) (o : ReleaseOpts) : Option ReleaseInfo :=
  if decide (v.text = dv.text) = true then o.defaultRelease else none

theorem processRelease_ok {parse : Str → Option Semver} {o : ReleaseOpts} {r : Release}
    (h : processRelease parse o = .ok r) :
    ∃ v dv, parse (chosenVersion parse o) = some v ∧ parse o.defaultVersion = some dv ∧
      r = releaseOf v (ownRelease v dv o) (overrideUrl o) := by
  unfold processRelease at h
  simp only at h
  cases hv : parse (chosenVersion parse o) with
  | none => rw [hv] at h; cases h
  | some v =>
    rw [hv] at h
    cases hd : parse o.defaultVersion with
    | none => rw [hd] at h; cases h
    | some dv =>
      rw [hd] at h
      simp only [ReleaseResult.ok.injEq] at h
      exact ⟨v, dv, rfl, rfl, h.symm⟩

/-- The name used without `process.release`. -/
def guessName (v : Semver) : Str := if 1 ≤ v.major ∧ v.major < 4 then c!"iojs" else c!"node"

def releaseName (v : Semver) (dr : Option ReleaseInfo) : Str :=
  match dr with
  | some d => iojsName d.name
  | none => guessName v

/-- The result when everything is guessed from the distribution directory. -/
def guessed (v : Semver) (name d : Str) : Release :=
  let baseUrl := d ++ c!"/v" ++ v.text ++ c!"/"
  mkRelease v name baseUrl
    (urlResolve baseUrl (name ++ c!"-v" ++ v.text ++
      (if satisfiesHeaders v then c!"-headers" else []) ++ c!".tar.gz"))
    (resolveLibUrl name baseUrl c!"x86" v.major) (resolveLibUrl name baseUrl c!"x64" v.major)
    (resolveLibUrl name baseUrl c!"arm64" v.major)

theorem releaseOf_override (v : Semver) (dr : Option ReleaseInfo) {u : Str} (hu : u ≠ []) :
    releaseOf v dr u = guessed v (releaseName v dr) (stripSlashes u) := by
  unfold releaseOf guessed releaseName guessName
  cases dr <;> simp [hu]

theorem releaseOf_default (v : Semver) (dr : Option ReleaseInfo)
    (h : ∀ d, dr = some d → d.headersUrl = []) :
    releaseOf v dr [] = guessed v (releaseName v dr) c!"https://nodejs.org/dist" := by
  unfold releaseOf guessed releaseName guessName
  cases dr with
  | none => simp
  | some d => simp [h d rfl]

theorem releaseOf_semver (v : Semver) (dr : Option ReleaseInfo) (u : Str) :
    (releaseOf v dr u).semver = v ∧ (releaseOf v dr u).version = v.text ∧
    (releaseOf v dr u).name = releaseName v dr ∧
    (releaseOf v dr u).versionDir =
      (if releaseName v dr ≠ c!"node" then releaseName v dr ++ c!"-" else []) ++ v.text := by
  unfold releaseOf releaseName guessName mkRelease
  cases dr with
  | none => simp
  | some d =>
    by_cases h : d.headersUrl ≠ [] ∧ u = []
    · simp only [if_pos h]; simp
    · simp only [if_neg h]; simp

theorem fromDist_guessed {parse : Str → Option Semver} {o : ReleaseOpts} {r : Release} {d : Str}
    (h : processRelease parse o = .ok r) (hd : FromDist parse o r d) :
    ∃ v s, parse s = some v ∧ r.semver = v ∧ r = guessed v r.name d := by
  obtain ⟨v, dv, hv, hdv, rfl⟩ := processRelease_ok h
  refine ⟨v, _, hv, (releaseOf_semver _ _ _).1, ?_⟩
  rw [(releaseOf_semver _ _ _).2.2.1]
  rcases hd with ⟨u, hu, hw⟩ | ⟨hno, rfl, hrun⟩
  · obtain ⟨e, hne⟩ := overrideUrl_asked hu
    rw [e, releaseOf_override v _ hne, withoutSlashes_unique hw]
  · rw [overrideUrl_none hno] at hrun ⊢
    apply releaseOf_default
    intro info hi
    unfold ownRelease at hi
    by_cases ht : v.text = dv.text
    · rw [if_pos (by simpa using ht)] at hi
      rcases hrun with hr | hr
      · exfalso
        apply hr
        refine ⟨dv, hdv, ?_⟩
        rw [(releaseOf_semver _ _ _).2.1, ht]
        exact semver_text dv
      · exact hr info hi
    · rw [if_neg (by simpa using ht)] at hi
      cases hi

/-! ### The theorems -/

/-- **C54** (version).  The version used is the first argument if it is one, else
`--target`, else that of the running Node; if it is no version nothing else is
computed. -/
theorem C54_version (parse : Str → Option Semver) (o : ReleaseOpts) (w : Str)
    (hw : Asked parse o w) :
    (parse w = none → processRelease parse o = .invalid w) ∧
    (∀ v, parse w = some v → (parse o.defaultVersion).isSome →
      ∃ r, processRelease parse o = .ok r ∧ r.semver = v ∧ VersionText v r.version) := by
  have e : chosenVersion parse o = w := asked_unique (chosenVersion_asked parse o) hw
  constructor
  · intro h
    unfold processRelease
    simp only [e, h]
  · intro v hv hd
    obtain ⟨dv, hdv⟩ := Option.isSome_iff_exists.mp hd
    refine ⟨releaseOf v (ownRelease v dv o) (overrideUrl o), ?_, (releaseOf_semver _ _ _).1, ?_⟩
    · unfold processRelease
      simp only [e, hv, hdv]
      rfl
    · rw [(releaseOf_semver _ _ _).2.1]; exact semver_text v

/-- The exact set of releases with a headers-only tarball. -/
theorem satisfiesHeaders_iff (v : Semver) : satisfiesHeaders v = true ↔ HasHeadersTarball v := by
  unfold satisfiesHeaders HasHeadersTarball Semver.geMain
  by_cases hp : v.pre = []
  · simp only [hp, decide_true, Bool.true_and, Bool.or_eq_true, Bool.and_eq_true,
      decide_eq_true_eq, true_and, Bool.not_eq_true', Bool.or_eq_false_iff, Bool.and_eq_false_iff,
      decide_eq_false_iff_not]
    omega
  · simp [hp]

/-- **C54** (layout).  A release taken from a distribution directory comes from
its directory `v<version>`: the tarball, with only the headers exactly for the
releases that publish that, and the list of checksums.  A distribution URL that
is asked for always is that directory, whatever the running Node says of itself. -/
theorem C54_layout (parse : Str → Option Semver) (o : ReleaseOpts) (r : Release) (d : Str)
    (h : processRelease parse o = .ok r) (hd : FromDist parse o r d) :
    r.baseUrl = d ++ c!"/v" ++ r.version ++ c!"/" ∧
    r.shasumsUrl = r.baseUrl ++ c!"SHASUMS256.txt" ∧
    (HasHeadersTarball r.semver →
      r.tarballUrl = r.baseUrl ++ r.name ++ c!"-v" ++ r.version ++ c!"-headers.tar.gz") ∧
    (¬ HasHeadersTarball r.semver →
      r.tarballUrl = r.baseUrl ++ r.name ++ c!"-v" ++ r.version ++ c!".tar.gz") := by
  obtain ⟨v, s, hv, hs, e⟩ := fromDist_guessed h hd
  have e1 : r.baseUrl = d ++ c!"/v" ++ v.text ++ c!"/" := by rw [e]; rfl
  have e2 : r.version = v.text := by rw [e]; rfl
  have e3 : r.shasumsUrl = urlResolve r.baseUrl c!"SHASUMS256.txt" := by rw [e]; rfl
  have e4 : r.tarballUrl = urlResolve r.baseUrl (r.name ++ c!"-v" ++ v.text ++
      (if satisfiesHeaders v then c!"-headers" else []) ++ c!".tar.gz") := by
    rw [e1]; conv_lhs => rw [e]
    rfl
  refine ⟨by rw [e1, e2], ?_, ?_, ?_⟩
  · rw [e3, e1, urlResolve_dir]
  · intro hh
    rw [e4, e1, urlResolve_dir, e2, if_pos ((satisfiesHeaders_iff v).mpr (hs ▸ hh))]
    simp
  · intro hh
    rw [e4, e1, urlResolve_dir, e2, if_neg (fun q => hh (hs ▸ (satisfiesHeaders_iff v).mp q))]
    simp

/-- No match of the architecture patterns in a distribution directory. -/
theorem noArchDir_base {d : Str} (h : NoArchDir d) {t : Str} (ht : '/' ∉ t) :
    NoArchDir (d ++ c!"/v" ++ t ++ c!"/") := by
  intro w hw
  have e : d ++ c!"/v" ++ t ++ c!"/" = d ++ '/' :: (('v' :: t) ++ '/' :: []) := by simp
  rw [e, splitOn_append_sep, splitOn_append_sep,
    splitOn_noSep (w := 'v' :: t) (by simpa using ht)] at hw
  rcases List.mem_append.mp hw with hw | hw
  · exact h w hw
  · simp only [splitOn, List.cons_append, List.nil_append, List.mem_cons, List.not_mem_nil,
      or_false] at hw
    rcases hw with rfl | rfl
    · intro hm
      simp only [archDirs, List.mem_cons, List.not_mem_nil, or_false, List.cons.injEq] at hm
      rcases hm with hm | hm | hm | hm <;> exact absurd hm.1 (by decide)
    · decide

theorem semver_text_noSlash {v : Semver} (h : '/' ∉ v.pre) : '/' ∉ v.text := by
  have hn : ∀ n, '/' ∉ natStr n := fun n => not_mem_natStr n (by decide)
  unfold Semver.text
  by_cases hp : v.pre = []
  · simp [hp, hn]
  · simp [hp, hn, h]

theorem resolveLibUrl_dir {q name arch : Str} {major : Nat} (h : NoArchDir (q ++ c!"/")) :
    resolveLibUrl name (q ++ c!"/") arch major = q ++ c!"/" ++ libFile major name arch := by
  have h1 : searchArch bitsre (q ++ c!"/") = none := searchArch_noArchDir (by decide) h
  have h2 : searchArch bitsreV3 (q ++ c!"/") = none := searchArch_noArchDir (by decide) h
  unfold resolveLibUrl libFile
  have e : urlResolve (q ++ c!"/") [] = q ++ c!"/" := by rw [urlResolve_dir]; simp
  rw [e]
  simp only [h1, h2, Option.isSome_none, Bool.false_or, Bool.and_false, Bool.not_false, if_true,
    urlResolve_dir, ge_iff_le]
  by_cases hm : 1 ≤ major
  · simp only [if_pos hm]
  · simp only [if_neg hm]
    by_cases ha : arch = c!"x86"
    · simp only [if_pos ha]; simp
    · simp only [if_neg ha]

theorem lib_valid {name : Str} (h : '/' ∉ name) : validName (name ++ c!".lib") := by
  refine ⟨by simp, by simp [h], ?_, ?_⟩ <;>
  · intro e
    have := congrArg List.length e
    simp at this

theorem libFile_names {major : Nat} {name arch : Str} (h : '/' ∉ name) (ha : validName arch) :
    ∃ names, names ≠ [] ∧ (∀ c ∈ names, validName c) ∧
      libFile major name arch = joinWith ['/'] names := by
  unfold libFile
  have hl := lib_valid h
  by_cases hm : 1 ≤ major
  · rw [if_pos hm]
    refine ⟨[c!"win-" ++ arch, name ++ c!".lib"], by simp, ?_, by simp [joinWith]⟩
    intro c hc
    simp only [List.mem_cons, List.not_mem_nil, or_false] at hc
    rcases hc with rfl | rfl
    · refine ⟨by simp, by simpa using ha.2.1, ?_, ?_⟩ <;>
      · intro e
        have := congrArg List.length e
        simp at this
    · exact hl
  · rw [if_neg hm]
    by_cases hx : arch = c!"x86"
    · rw [if_pos hx]
      exact ⟨[name ++ c!".lib"], by simp, by simpa using hl, by simp [joinWith]⟩
    · rw [if_neg hx]
      refine ⟨[arch, name ++ c!".lib"], by simp, ?_, by simp [joinWith]⟩
      intro c hc
      simp only [List.mem_cons, List.not_mem_nil, or_false] at hc
      rcases hc with rfl | rfl
      · exact ha
      · exact hl

/-- **C54** (import libraries).  For a release taken from a distribution
directory the import library of every architecture is at its documented place
below the directory of the release, and it is listed among the checksums under
its path from there.  (`parse` yields prerelease tags without slashes; no
directory of the distribution URL is itself named like one for import
libraries, see `C54_win_in_dist`.) -/
theorem C54_libs (parse : Str → Option Semver) (o : ReleaseOpts) (r : Release) (d : Str)
    (hparse : ∀ s v, parse s = some v → '/' ∉ v.pre)
    (h : processRelease parse o = .ok r) (hd : FromDist parse o r d)
    (hurl : PlainUrl d) (hno : NoArchDir d) (hname : '/' ∉ r.name) :
    ∀ p ∈ [(r.ia32, c!"x86"), (r.x64, c!"x64"), (r.arm64, c!"arm64")],
      p.1.libPath = libFile r.semver.major r.name p.2 ∧
      p.1.libUrl = r.baseUrl ++ p.1.libPath := by
  obtain ⟨v, s, hv, hs, e⟩ := fromDist_guessed h hd
  have hnb := noArchDir_base hno (semver_text_noSlash (hparse s v hv))
  have eb : r.baseUrl = d ++ c!"/v" ++ v.text ++ c!"/" := by rw [e]; rfl
  rw [← eb] at hnb
  obtain ⟨q, hq⟩ := urlPath_below hurl
  have ep : ∀ f, urlPath (r.baseUrl ++ f) = q ++ c!"/v" ++ v.text ++ c!"/" ++ f := by
    intro f
    rw [eb]
    have := (hq (c!"v" ++ v.text ++ c!"/" ++ f)).1
    simpa using this
  have key : ∀ (arch : Str) (lib : LibInfo), validName arch →
      lib = ⟨resolveLibUrl r.name r.baseUrl arch v.major, relativeUrlPath (urlPath r.baseUrl)
        (urlPath (resolveLibUrl r.name r.baseUrl arch v.major))⟩ →
      lib.libPath = libFile v.major r.name arch ∧ lib.libUrl = r.baseUrl ++ lib.libPath := by
    intro arch lib ha hl
    have e1 : resolveLibUrl r.name r.baseUrl arch v.major = r.baseUrl ++ libFile v.major r.name arch := by
      rw [eb] at hnb ⊢
      exact resolveLibUrl_dir hnb
    obtain ⟨names, hne, hval, hf⟩ := libFile_names (major := v.major) hname ha
    have e2 : relativeUrlPath (urlPath r.baseUrl) (urlPath (r.baseUrl ++ libFile v.major r.name arch)) =
        libFile v.major r.name arch := by
      have := ep []
      rw [List.append_nil, List.append_nil] at this
      rw [ep, this]
      exact relativeUrlPath_below _ _ names hne hval hf
    rw [e1, e2] at hl
    rw [hl]
    exact ⟨rfl, rfl⟩
  rw [hs]
  intro p hp
  simp only [List.mem_cons, List.not_mem_nil, or_false] at hp
  rcases hp with rfl | rfl | rfl
  · exact key c!"x86" r.ia32 (by decide) (by rw [eb]; conv_lhs => rw [e]
                                             rfl)
  · exact key c!"x64" r.x64 (by decide) (by rw [eb]; conv_lhs => rw [e]
                                            rfl)
  · exact key c!"arm64" r.arm64 (by decide) (by rw [eb]; conv_lhs => rw [e]
                                                rfl)

/-- **C54** (explicit URL wins).  With `--dist-url` neither the other ways to give
a URL nor the URLs the running Node states for itself change anything. -/
theorem C54_override (parse : Str → Option Semver) (o : ReleaseOpts) (h : o.distUrl ≠ [])
    (disturl mirror : Str) (other : ReleaseInfo → ReleaseInfo)
    (hname : ∀ i, (other i).name = i.name) :
    processRelease parse { o with disturl := disturl, mirror := mirror,
                                  defaultRelease := o.defaultRelease.map other } =
      processRelease parse o := by
  have ho : ∀ o' : ReleaseOpts, o'.distUrl = o.distUrl → overrideUrl o' = o.distUrl := by
    intro o' e
    simp [overrideUrl, e, h]
  unfold processRelease
  rw [ho { o with disturl := disturl, mirror := mirror,
                  defaultRelease := o.defaultRelease.map other } rfl, ho o rfl]
  simp only [chosenVersion]
  cases parse (if ((parse o.arg).isSome && decide (o.arg ≠ [])) = true then o.arg
    else if o.target ≠ [] then o.target else o.defaultVersion) with
  | none => rfl
  | some v =>
    cases parse o.defaultVersion with
    | none => rfl
    | some dv =>
      simp only [ReleaseResult.ok.injEq]
      rw [releaseOf_override v _ h, releaseOf_override v _ h]
      congr 1
      by_cases ht : v.text = dv.text
      · simp only [decide_eq_true ht, if_true]
        cases o.defaultRelease with
        | none => rfl
        | some i => simp only [releaseName, Option.map_some, hname]
      · simp only [decide_eq_false ht, Bool.false_eq_true, if_false]

theorem split1_first (w t : Str) (hw : '/' ∉ w) : split1 '/' (w ++ '/' :: t) = some (w, t) := by
  induction w with
  | nil => simp [split1]
  | cons a w ih =>
    have ha : a ≠ '/' := fun e => hw (by simp [e])
    have := ih (fun hm => hw (by simp [hm]))
    simp [split1, ha, this]

/-- Two ways to cut a text around a directory name agree if the earlier one does
not name a directory of the part before the later one. -/
theorem cut_unique {p before wy wx b after : Str} (hy : '/' ∉ wy) (hx : '/' ∉ wx)
    (ecut : p ++ '/' :: (wy ++ '/' :: b) = before ++ '/' :: (wx ++ '/' :: after))
    (hle : p.length ≤ before.length) (hno : wy ∉ splitOn '/' before) : p = before ∧ b = after := by
  have hp : p = before := by
    rcases List.append_eq_append_iff.mp ecut with ⟨a', ha1, ha2⟩ | ⟨a', ha1, ha2⟩
    · cases a' with
      | nil => simpa using ha1.symm
      | cons c a' =>
        exfalso
        simp only [List.cons_append, List.cons.injEq] at ha2
        obtain ⟨rfl, ha2⟩ := ha2
        apply hno
        rcases List.append_eq_append_iff.mp ha2 with ⟨a'', hb1, hb2⟩ | ⟨a'', hb1, hb2⟩
        · cases a'' with
          | nil =>
            rw [ha1, hb1, List.append_nil, splitOn_append_sep, splitOn_noSep hy]
            simp
          | cons c2 a'' =>
            simp only [List.cons_append, List.cons.injEq] at hb2
            obtain ⟨rfl, hb2⟩ := hb2
            rw [ha1, hb1, splitOn_append_sep, splitOn_append_sep, splitOn_noSep hy]
            simp
        · cases a'' with
          | nil =>
            rw [List.append_nil] at hb1
            rw [ha1, splitOn_append_sep, ← hb1, splitOn_noSep hy]
            simp
          | cons c2 a'' =>
            simp only [List.cons_append, List.cons.injEq] at hb2
            exact absurd (by rw [hb1, ← hb2.1]; simp) hy
    · cases a' with
      | nil => simpa using ha1
      | cons c a' =>
        exfalso
        rw [ha1] at hle
        simp at hle
        omega
  subst hp
  refine ⟨rfl, ?_⟩
  have e2 := List.append_cancel_left ecut
  simp only [List.cons.injEq, true_and] at e2
  have s1 := congrArg (split1 '/') e2
  rw [split1_first _ _ hy, split1_first _ _ hx] at s1
  simp only [Option.some.injEq, Prod.mk.injEq] at s1
  exact s1.2

/-- **C54** (the running Node's own release).  When the version is that of the
running Node, it says where its headers are, and no URL is asked for, then
exactly that tarball is used; the checksums are beside it.  The import library
of an architecture is at the stated place with the architecture directory
exchanged (the first one named, if there is one), else at its documented place
beside the stated library, or beside the tarball when none is stated; it is
listed under its path from the directory of the checksums. -/
theorem C54_release (parse : Str → Option Semver) (o : ReleaseOpts) (r : Release)
    (info : ReleaseInfo) (dir file : Str)
    (h : processRelease parse o = .ok r) (hno : NoDistAsked o)
    (hrun : IsRunning parse o r.version) (hi : o.defaultRelease = some info)
    (hh : info.headersUrl = dir ++ c!"/" ++ file) (hf : '/' ∉ file) :
    r.tarballUrl = info.headersUrl ∧ r.baseUrl = dir ++ c!"/" ∧
    r.shasumsUrl = dir ++ c!"/SHASUMS256.txt" ∧
    ∀ p ∈ [(r.ia32, c!"x86"), (r.x64, c!"x64"), (r.arm64, c!"arm64")],
      walk (walk [] (urlPath r.baseUrl)) p.1.libPath = walk [] (urlPath p.1.libUrl) ∧
      (info.libUrl = [] → NoArchDir (dir ++ c!"/") →
        p.1.libUrl = dir ++ c!"/" ++ libFile r.semver.major r.name p.2) ∧
      (∀ ldir lfile, info.libUrl = ldir ++ c!"/" ++ lfile → '/' ∉ lfile →
        NoArchDir info.libUrl →
        p.1.libUrl = ldir ++ c!"/" ++ libFile r.semver.major r.name p.2) ∧
      (∀ before x after, info.libUrl = before ++ c!"/win-" ++ x ++ c!"/" ++ after →
        (x ∈ [c!"x86", c!"x64"] ∨ (x = c!"arm64" ∧ r.semver.major ≠ 3) ∨
          (x = c!"ia32" ∧ r.semver.major = 3)) →
        NoArchDir before →
        p.1.libUrl = before ++ c!"/win-" ++ p.2 ++ c!"/" ++ after) := by
  obtain ⟨v, dv, hv, hdv, e⟩ := processRelease_ok h
  have hver : r.version = v.text := by rw [e]; exact (releaseOf_semver _ _ _).2.1
  have hsem : r.semver = v := by rw [e]; exact (releaseOf_semver _ _ _).1
  obtain ⟨dv', hdv', htext⟩ := hrun
  rw [hdv] at hdv'
  cases hdv'
  have ht : v.text = dv.text := by rw [← hver]; exact versionText_unique htext
  have hown : ownRelease v dv o = some info := by
    unfold ownRelease
    rw [if_pos (by simpa using ht), hi]
  rw [hown, overrideUrl_none hno] at e
  have hne : info.headersUrl ≠ [] := by rw [hh]; simp
  have hb : urlResolve info.headersUrl [] = dir ++ c!"/" := by
    rw [hh, urlResolve_file _ _ _ hf]; simp
  have hname : r.name = iojsName info.name := by
    rw [e]; exact (releaseOf_semver _ _ _).2.2.1
  have e' : r = mkRelease v (iojsName info.name) (dir ++ c!"/") info.headersUrl
      (resolveLibUrl (iojsName info.name) (if info.libUrl ≠ [] then info.libUrl else dir ++ c!"/") c!"x86" v.major)
      (resolveLibUrl (iojsName info.name) (if info.libUrl ≠ [] then info.libUrl else dir ++ c!"/") c!"x64" v.major)
      (resolveLibUrl (iojsName info.name) (if info.libUrl ≠ [] then info.libUrl else dir ++ c!"/") c!"arm64" v.major) := by
    rw [e]
    unfold releaseOf
    simp only [hne, ne_eq, not_false_eq_true, and_self, if_true, hb]
    simp
  refine ⟨by rw [e']; rfl, by rw [e']; rfl, ?_, ?_⟩
  · rw [e']
    show urlResolve (dir ++ c!"/") _ = _
    rw [urlResolve_dir]; simp
  rw [hname, hsem]
  generalize iojsName info.name = name at *
  have key : ∀ (arch : Str) (u : Str),
      u = resolveLibUrl name (if info.libUrl ≠ [] then info.libUrl else dir ++ c!"/") arch v.major →
      walk (walk [] (urlPath (dir ++ c!"/"))) (relativeUrlPath (urlPath (dir ++ c!"/")) (urlPath u)) =
        walk [] (urlPath u) ∧
      (info.libUrl = [] → NoArchDir (dir ++ c!"/") → u = dir ++ c!"/" ++ libFile v.major name arch) ∧
      (∀ ldir lfile, info.libUrl = ldir ++ c!"/" ++ lfile → '/' ∉ lfile → NoArchDir info.libUrl →
        u = ldir ++ c!"/" ++ libFile v.major name arch) ∧
      (∀ before x after, info.libUrl = before ++ c!"/win-" ++ x ++ c!"/" ++ after →
        (x ∈ [c!"x86", c!"x64"] ∨ (x = c!"arm64" ∧ v.major ≠ 3) ∨ (x = c!"ia32" ∧ v.major = 3)) →
        NoArchDir before → u = before ++ c!"/win-" ++ arch ++ c!"/" ++ after) := by
    intro arch u hu
    refine ⟨relativeUrlPath_walk (urlPath_isAbs _) (urlPath_isAbs _), ?_, ?_, ?_⟩ <;> rw [hu]
    · intro h1 h2
      simp only [h1, ne_eq, not_true, if_false]
      exact resolveLibUrl_dir h2
    · intro ldir lfile h1 h2 h3
      have hl : info.libUrl ≠ [] := by rw [h1]; simp
      simp only [if_pos hl]
      have s1 : searchArch bitsre info.libUrl = none := searchArch_noArchDir (by decide) h3
      have s2 : searchArch bitsreV3 info.libUrl = none := searchArch_noArchDir (by decide) h3
      unfold resolveLibUrl libFile
      have eb : urlResolve info.libUrl [] = ldir ++ c!"/" := by
        rw [h1, urlResolve_file _ _ _ h2]; simp
      rw [eb]
      simp only [s1, s2, Option.isSome_none, Bool.false_or, Bool.and_false, Bool.not_false, if_true,
        urlResolve_dir, ge_iff_le]
      by_cases hm : 1 ≤ v.major
      · simp only [if_pos hm]
      · simp only [if_neg hm]
        by_cases ha : arch = c!"x86"
        · simp only [if_pos ha]; simp
        · simp only [if_neg ha]
    · intro before x after h1 h2 h3
      have hl : info.libUrl ≠ [] := by rw [h1]; simp
      simp only [if_pos hl]
      -- the first match is the one after `before`
      have first : ∀ archs : List Str, (∀ a ∈ archs, c!"win-" ++ a ∈ archDirs) → x ∈ archs →
          searchArch archs info.libUrl = some (before, after) := by
        intro archs harch hx
        cases hs : searchArch archs info.libUrl with
        | none => exact absurd (by rw [h1]; simp) (searchArch_none.mp hs before x after hx)
        | some q =>
          obtain ⟨p, b⟩ := q
          obtain ⟨⟨y, hy, ey⟩, hmin⟩ := searchArch_some hs
          have hle := hmin before x after hx (by rw [h1]; simp)
          have noslash : ∀ a ∈ archs, '/' ∉ c!"win-" ++ a := by
            intro a ha
            have hmem := harch a ha
            simp only [archDirs, List.mem_cons, List.not_mem_nil, or_false] at hmem
            rcases hmem with hh | hh | hh | hh <;> rw [hh] <;> decide
          -- compare the two ways to cut the URL
          have ecut : p ++ '/' :: ((c!"win-" ++ y) ++ '/' :: b) =
              before ++ '/' :: ((c!"win-" ++ x) ++ '/' :: after) := by
            rw [h1] at ey
            simpa using ey.symm
          obtain ⟨rfl, rfl⟩ := cut_unique (noslash y hy) (noslash x hx) ecut hle
            (fun hm => h3 _ hm (harch y hy))
          rfl
      unfold resolveLibUrl
      by_cases h3' : v.major = 3
      · have hx : x ∈ bitsreV3 := by
          rcases h2 with hx | ⟨_, hx⟩ | ⟨hx, _⟩
          · simp only [List.mem_cons, List.not_mem_nil, or_false] at hx
            rcases hx with rfl | rfl <;> decide
          · exact absurd h3' hx
          · rw [hx]; decide
        have s := first bitsreV3 (by decide) hx
        simp [h3', s]
      · have hx : x ∈ bitsre := by
          rcases h2 with hx | ⟨hx, _⟩ | ⟨_, hx⟩
          · simp only [List.mem_cons, List.not_mem_nil, or_false] at hx
            rcases hx with rfl | rfl <;> decide
          · rw [hx]; decide
          · exact absurd hx h3'
        have s := first bitsre (by decide) hx
        simp [h3', s]
  have eb : r.baseUrl = dir ++ c!"/" := by rw [e']; rfl
  rw [eb]
  have key' : ∀ p : LibInfo × Str, p.1 = ⟨resolveLibUrl name
        (if info.libUrl ≠ [] then info.libUrl else dir ++ c!"/") p.2 v.major,
        relativeUrlPath (urlPath (dir ++ c!"/")) (urlPath (resolveLibUrl name
          (if info.libUrl ≠ [] then info.libUrl else dir ++ c!"/") p.2 v.major))⟩ →
      walk (walk [] (urlPath (dir ++ c!"/"))) p.1.libPath = walk [] (urlPath p.1.libUrl) ∧
      (info.libUrl = [] → NoArchDir (dir ++ c!"/") →
        p.1.libUrl = dir ++ c!"/" ++ libFile v.major name p.2) ∧
      (∀ ldir lfile, info.libUrl = ldir ++ c!"/" ++ lfile → '/' ∉ lfile →
        NoArchDir info.libUrl → p.1.libUrl = ldir ++ c!"/" ++ libFile v.major name p.2) ∧
      (∀ before x after, info.libUrl = before ++ c!"/win-" ++ x ++ c!"/" ++ after →
        (x ∈ [c!"x86", c!"x64"] ∨ (x = c!"arm64" ∧ v.major ≠ 3) ∨ (x = c!"ia32" ∧ v.major = 3)) →
        NoArchDir before → p.1.libUrl = before ++ c!"/win-" ++ p.2 ++ c!"/" ++ after) := by
    intro p hp
    obtain ⟨k1, k2, k3, k4⟩ := key p.2 _ rfl
    rw [hp]
    exact ⟨k1, k2, k3, k4⟩
  intro p hp
  apply key' p
  simp only [List.mem_cons, List.not_mem_nil, or_false] at hp
  rcases hp with hp | hp | hp <;> rw [hp, e'] <;> rfl

/-- **C54** (name and directory).  Without `process.release` versions 1 to 3 are
io.js releases and all others Node releases; a release is installed in a
directory named by its version, with the name in front unless it is Node. -/
theorem C54_name (parse : Str → Option Semver) (o : ReleaseOpts) (r : Release)
    (h : processRelease parse o = .ok r) :
    ((o.defaultRelease = none ∨ ¬ IsRunning parse o r.version) →
      r.name = (if r.semver.major ∈ [1, 2, 3] then c!"iojs" else c!"node")) ∧
    (∀ info, o.defaultRelease = some info → IsRunning parse o r.version →
      (∀ a b, info.name = a ++ c!"io.js" ++ b → (∀ a' b', info.name = a' ++ c!"io.js" ++ b' → a.length ≤ a'.length) →
        r.name = a ++ c!"iojs" ++ b) ∧
      ((∀ a b, info.name ≠ a ++ c!"io.js" ++ b) → r.name = info.name)) ∧
    (r.name = c!"node" → r.versionDir = r.version) ∧
    (r.name ≠ c!"node" → r.versionDir = r.name ++ c!"-" ++ r.version) := by
  obtain ⟨v, dv, hv, hdv, rfl⟩ := processRelease_ok h
  obtain ⟨e1, e2, e3, e4⟩ := releaseOf_semver v (ownRelease v dv o) (overrideUrl o)
  rw [e1, e2, e3, e4]
  have hrunning : IsRunning parse o v.text ↔ v.text = dv.text := by
    constructor
    · rintro ⟨dv', h1, h2⟩
      rw [hdv] at h1
      cases h1
      exact versionText_unique h2
    · intro ht
      exact ⟨dv, hdv, by rw [ht]; exact semver_text dv⟩
  refine ⟨?_, ?_, ?_, ?_⟩
  · intro hc
    have : ownRelease v dv o = none := by
      unfold ownRelease
      rcases hc with hc | hc
      · simp [hc]
      · rw [hrunning] at hc
        simp [hc]
    rw [this]
    unfold releaseName guessName
    have : (1 ≤ v.major ∧ v.major < 4) ↔ v.major ∈ [1, 2, 3] := by
      simp only [List.mem_cons, List.not_mem_nil, or_false]; omega
    simp only [this]
  · intro info hi hr
    have : ownRelease v dv o = some info := by
      unfold ownRelease
      rw [if_pos (by simpa using hrunning.mp hr), hi]
    rw [this]
    show _ ∧ (_ → iojsName info.name = _)
    have hn : ∀ s : Str,
        (∀ a b, s = a ++ c!"io.js" ++ b → (∀ a' b', s = a' ++ c!"io.js" ++ b' → a.length ≤ a'.length) →
          iojsName s = a ++ c!"iojs" ++ b) ∧ ((∀ a b, s ≠ a ++ c!"io.js" ++ b) → iojsName s = s) := by
      intro s
      induction s with
      | nil =>
        refine ⟨?_, fun _ => rfl⟩
        intro a b e
        have := congrArg List.length e
        simp at this
      | cons x xs ih =>
        unfold iojsName
        by_cases hs : startsWith (x :: xs) c!"io.js" = true
        · rw [if_pos hs]
          obtain ⟨t, ht⟩ := List.isPrefixOf_iff_prefix.mp hs
          refine ⟨?_, fun hno => absurd ht.symm (hno [] t)⟩
          intro a b e hmin
          have := hmin [] t ht.symm
          have ha : a = [] := List.length_eq_zero_iff.mp (by simpa using this)
          subst ha
          rw [e]
          simp
        · rw [if_neg hs]
          constructor
          · intro a b e hmin
            cases a with
            | nil => exact absurd (List.isPrefixOf_iff_prefix.mpr ⟨b, e.symm⟩) hs
            | cons y a =>
              simp only [List.cons_append, List.cons.injEq] at e
              rw [ih.1 a b (by simpa using e.2) ?_, e.1]
              · simp
              · intro a' b' e'
                have := hmin (x :: a') b' (by rw [e']; simp)
                simpa using this
          · intro hno
            rw [ih.2 fun a b e => hno (x :: a) b (by rw [e]; simp)]
    exact hn info.name
  · intro hn; simp [hn]
  · intro hn; simp [hn]

/-- **C54** (directories).  Node and io.js releases with different versions are
installed in different directories. -/
theorem C54_dirs_distinct (parse : Str → Option Semver) (o o' : ReleaseOpts) (r r' : Release)
    (h : processRelease parse o = .ok r) (h' : processRelease parse o' = .ok r')
    (hn : r.name = c!"node" ∨ r.name = c!"iojs") (hn' : r'.name = c!"node" ∨ r'.name = c!"iojs")
    (hne : (r.name, r.version) ≠ (r'.name, r'.version)) : r.versionDir ≠ r'.versionDir := by
  obtain ⟨_, _, d1, d2⟩ := C54_name parse o r h
  obtain ⟨_, _, d1', d2'⟩ := C54_name parse o' r' h'
  obtain ⟨v, dv, hv, hdv, e⟩ := processRelease_ok h
  obtain ⟨v', dv', hv', hdv', e'⟩ := processRelease_ok h'
  have t : r.version = v.text := by rw [e]; exact (releaseOf_semver _ _ _).2.1
  have t' : r'.version = v'.text := by rw [e']; exact (releaseOf_semver _ _ _).2.1
  -- a version begins with a digit
  have hdig : ∀ (v : Semver) (rest : Str), v.text ≠ 'i' :: rest := by
    intro v rest hh
    unfold Semver.text at hh
    cases hd : natStr v.major with
    | nil =>
      rw [hd] at hh
      simp only [List.nil_append, List.cons_append, List.cons.injEq] at hh
      exact absurd hh.1 (by decide)
    | cons c cs =>
      rw [hd] at hh
      simp only [List.cons_append, List.cons.injEq] at hh
      have := natStr_mem (n := v.major) (c := c) (by rw [hd]; simp)
      rw [hh.1] at this
      exact absurd this (by decide)
  rcases hn with hn | hn <;> rcases hn' with hn' | hn'
  · rw [d1 hn, d1' hn']
    intro e; exact hne (by rw [hn, hn', e])
  · rw [d1 hn, d2' (by rw [hn']; decide), hn', t]
    intro e; exact hdig v _ e
  · rw [d2 (by rw [hn]; decide), d1' hn', hn, t']
    intro e; exact hdig v' _ e.symm
  · rw [d2 (by rw [hn]; decide), d2' (by rw [hn']; decide), hn, hn']
    intro e
    simp only [List.append_cancel_left_eq] at e
    exact hne (by rw [hn, hn', e])

/-- **C54** (files).  The tarball and the import libraries of a release taken from
a distribution directory are listed under different names. -/
theorem C54_names_differ (parse : Str → Option Semver) (o : ReleaseOpts) (r : Release) (d : Str)
    (hparse : ∀ s v, parse s = some v → '/' ∉ v.pre)
    (h : processRelease parse o = .ok r) (hd : FromDist parse o r d)
    (hurl : PlainUrl d) (hno : NoArchDir d) (hname : '/' ∉ r.name)
    (f : Str) (hf : r.tarballUrl = r.baseUrl ++ f) :
    r.ia32.libPath ≠ f ∧ r.x64.libPath ≠ f ∧ r.arm64.libPath ≠ f := by
  have hl := C54_libs parse o r d hparse h hd hurl hno hname
  obtain ⟨_, _, ht1, ht2⟩ := C54_layout parse o r d h hd
  have fend : f.getLast? = some 'z' := by
    by_cases hh : HasHeadersTarball r.semver
    · have := ht1 hh
      rw [hf] at this
      rw [show f = r.name ++ c!"-v" ++ r.version ++ c!"-headers.tar.gz" by
        simpa using this]
      rw [List.getLast?_append]; simp
    · have := ht2 hh
      rw [hf] at this
      rw [show f = r.name ++ c!"-v" ++ r.version ++ c!".tar.gz" by
        simpa using this]
      rw [List.getLast?_append]; simp
  have lend : ∀ arch, (libFile r.semver.major r.name arch).getLast? = some 'b' := by
    intro arch
    unfold libFile
    by_cases hm : 1 ≤ r.semver.major
    · rw [if_pos hm, List.getLast?_append]; simp
    · rw [if_neg hm]
      by_cases ha : arch = c!"x86"
      · rw [if_pos ha, List.getLast?_append]; simp
      · rw [if_neg ha, List.getLast?_append]; simp
  have key : ∀ p ∈ [(r.ia32, c!"x86"), (r.x64, c!"x64"), (r.arm64, c!"arm64")], p.1.libPath ≠ f := by
    intro p hp e
    have := (hl p hp).1
    rw [e] at this
    rw [this, lend] at fend
    simp at fend
  exact ⟨key (r.ia32, c!"x86") (by simp), key (r.x64, c!"x64") (by simp), key (r.arm64, c!"arm64") (by simp)⟩

/-! ### The hypotheses can be met -/

/-- A parser that knows four versions. -/
def exParse (s : Str) : Option Semver :=
  if s = c!"v20.1.0" then some ⟨20, 1, 0, []⟩
  else if s = c!"0.10.41" then some ⟨0, 10, 41, []⟩
  else if s = c!"2.0.0" then some ⟨2, 0, 0, []⟩
  else if s = c!"3.1.0" then some ⟨3, 1, 0, []⟩
  else none

def exOpts : ReleaseOpts :=
  { arg := [], target := [], distUrl := [], disturl := [], mirror := []
    defaultVersion := c!"v20.1.0"
    defaultRelease := some ⟨c!"node", c!"https://nodejs.org/download/release/v20.1.0/node-v20.1.0-headers.tar.gz",
      c!"https://nodejs.org/download/release/v20.1.0/win-x64/node.lib"⟩ }

theorem exParse_noSlash : ∀ s v, exParse s = some v → '/' ∉ v.pre := by
  intro s v h
  unfold exParse at h
  by_cases h1 : s = c!"v20.1.0"
  · rw [if_pos h1] at h; cases h; decide
  · rw [if_neg h1] at h
    by_cases h2 : s = c!"0.10.41"
    · rw [if_pos h2] at h; cases h; decide
    · rw [if_neg h2] at h
      by_cases h3 : s = c!"2.0.0"
      · rw [if_pos h3] at h; cases h; decide
      · rw [if_neg h3] at h
        by_cases h4 : s = c!"3.1.0"
        · rw [if_pos h4] at h; cases h; decide
        · rw [if_neg h4] at h; cases h

/-- The running Node says where it comes from. -/
example : ∃ r, processRelease exParse exOpts = .ok r ∧ IsRunning exParse exOpts r.version ∧
    NoDistAsked exOpts ∧ r.versionDir = c!"20.1.0" ∧
    r.baseUrl = c!"https://nodejs.org/download/release/v20.1.0/" ∧
    r.ia32.libUrl = c!"https://nodejs.org/download/release/v20.1.0/win-x86/node.lib" ∧
    r.arm64.libPath = c!"win-arm64/node.lib" :=
  ⟨_, rfl, ⟨⟨20, 1, 0, []⟩, rfl, Or.inl ⟨rfl, by decide +kernel⟩⟩, ⟨rfl, rfl, rfl⟩, by decide +kernel, by decide +kernel,
    by decide +kernel, by decide +kernel⟩

/-- An old release from a mirror: the legacy layout. -/
example : ∃ r, processRelease exParse { exOpts with target := c!"0.10.41", mirror := c!"http://m//" } = .ok r ∧
    FromDist exParse { exOpts with target := c!"0.10.41", mirror := c!"http://m//" } r c!"http://m" ∧
    PlainUrl c!"http://m" ∧ NoArchDir c!"http://m" ∧ '/' ∉ r.name ∧
    r.tarballUrl = c!"http://m/v0.10.41/node-v0.10.41.tar.gz" ∧ r.ia32.libPath = c!"node.lib" ∧
    r.x64.libUrl = c!"http://m/v0.10.41/x64/node.lib" := by
  refine ⟨_, rfl, Or.inl ⟨c!"http://m//", ⟨by decide, Or.inr ⟨rfl, Or.inr ⟨rfl, rfl⟩⟩⟩, ⟨2, rfl⟩, by decide⟩,
    ⟨c!"http", c!"m", [], rfl, by decide, by decide, Or.inl rfl⟩, (by unfold NoArchDir; decide), by decide +kernel,
    by decide +kernel, by decide +kernel, by decide +kernel⟩

/-- An io.js release from the official place. -/
example : ∃ r, processRelease exParse { exOpts with arg := c!"2.0.0", target := c!"0.10.41" } = .ok r ∧
    FromDist exParse { exOpts with arg := c!"2.0.0", target := c!"0.10.41" } r c!"https://nodejs.org/dist" ∧
    ¬ HasHeadersTarball r.semver ∧
    r.tarballUrl = c!"https://nodejs.org/dist/v2.0.0/iojs-v2.0.0.tar.gz" ∧ r.versionDir = c!"iojs-2.0.0" := by
  refine ⟨_, rfl, Or.inr ⟨⟨rfl, rfl, rfl⟩, rfl, Or.inl ?_⟩, ?_, by decide +kernel, by decide +kernel⟩
  · rintro ⟨dv, h1, h2⟩
    cases (show some _ = some dv from h1)
    have := versionText_unique h2
    revert this
    decide +kernel
  · rintro ⟨_, h | h | h⟩
    · exact absurd h (by decide)
    · exact absurd h.1 (by decide)
    · exact absurd h.1 (by decide)

example : Asked exParse { exOpts with arg := c!"rebuild", target := c!"2.0.0" } c!"2.0.0" :=
  Or.inr (Or.inl ⟨by decide, by decide, rfl⟩)

example : exParse c!"rebuild" = none ∧
    processRelease exParse { exOpts with target := c!"latest" } = .invalid c!"latest" := by decide +kernel

example : { exOpts with distUrl := c!"http://m" }.distUrl ≠ [] := by decide

/-! ### Where the code does something else -/

/-- If the distribution URL itself has a directory named like one for import
libraries, the library URLs are wrong: that directory is exchanged, and what is
left is the directory of the release, not a library. -/
theorem C54_win_in_dist :
    ∃ (o : ReleaseOpts) (r : Release), processRelease exParse o = .ok r ∧
      o.distUrl = c!"http://m/win-x64" ∧ r.baseUrl = c!"http://m/win-x64/v2.0.0/" ∧
      r.ia32.libUrl = c!"http://m/win-x86/v2.0.0/" ∧ r.ia32.libPath = c!"../../win-x86/v2.0.0" :=
  ⟨{ exOpts with target := c!"2.0.0", distUrl := c!"http://m/win-x64" }, _, rfl, rfl,
    by decide +kernel, by decide +kernel, by decide +kernel⟩

/-- A running version 3 that states an arm64 library gets that library for every
architecture. -/
theorem C54_v3_arm64 :
    ∃ (o : ReleaseOpts) (r : Release), processRelease exParse o = .ok r ∧
      r.ia32.libUrl = c!"http://m/v3.1.0/win-arm64/node.lib" ∧ r.x64.libUrl = r.ia32.libUrl :=
  ⟨{ exOpts with
        defaultVersion := c!"3.1.0"
        defaultRelease := some ⟨c!"io.js", c!"http://m/v3.1.0/iojs-v3.1.0-headers.tar.gz",
          c!"http://m/v3.1.0/win-arm64/node.lib"⟩ },
    _, rfl, by decide +kernel, by decide +kernel⟩

end Gyp
