import Verif.Model.Path
import Verif.Model.Version
/-
`lib/process-release.js`: which URLs a release is downloaded from and which
directory it is installed in.

Simplifications.
* An option or field that is absent is the empty string: the code only tests
  these for truthiness, and `""` is falsy too.
* `semver.parse` is a parameter (`parse`); what the code uses of a version is its
  three numbers and its prerelease tag, and `.version`, the text made of them
  (build metadata is not part of `.version`).
* URLs are plain: no query, no fragment, no `.` or `..` in the part `url.resolve`
  appends, and already in the normal form `url.resolve` produces.  Then
  `url.resolve(u, rel)` is `u` up to its last slash followed by `rel`.
* `path.relative` and `path.normalize` are the POSIX ones; on Windows the result
  has its backslashes turned into slashes, and names are compared without regard
  to case (not modelled).
* Logging is dropped.
-/
namespace Gyp

/-- A parsed semantic version. -/
structure Semver where
  major : Nat
  minor : Nat
  patch : Nat
  /-- the prerelease tag, empty when there is none -/
  pre : Str
  deriving DecidableEq, Repr

/-- `SemVer.version` (node-semver `format()`; used at process-release.js:38). -/
def Semver.text (v : Semver) : Str :=
  natStr v.major ++ c!"." ++ natStr v.minor ++ c!"." ++ natStr v.patch ++
    (if v.pre = [] then [] else c!"-" ++ v.pre)

/-- `a >= b` on the three numbers (node-semver `compareMain`). -/
def Semver.geMain (v : Semver) (a b c : Nat) : Bool :=
  v.major > a || (v.major = a && (v.minor > b || (v.minor = b && v.patch ≥ c)))

/-- process-release.js:11 `headersTarballRange = '>= 3.0.0 || ~0.12.10 || ~0.10.42'`,
as `semver.satisfies` reads it: `~0.12.10` is `>=0.12.10 <0.13.0-0`, and a version
with a prerelease tag satisfies a set of comparators only if one of them names
the same three numbers with a tag, which leaves none here (`0.13.0-x` is never
below `0.13.0-0`). -/
def satisfiesHeaders (v : Semver) : Bool :=
  v.pre = [] &&
    (v.geMain 3 0 0 ||
     (v.geMain 0 12 10 && !v.geMain 0 13 0) ||
     (v.geMain 0 10 42 && !v.geMain 0 11 0))

/-- `url.resolve(base, rel)` for plain URLs: the part of `base` up to and with
its last slash, then `rel` (`./` adds nothing). -/
def urlResolve (base rel : Str) : Str :=
  match rsplit1 '/' base with
  | none => rel
  | some (dir, _) => dir ++ '/' :: rel

/-- `s.replace(/\/+$/, '')` (process-release.js:73). -/
def stripSlashes (s : Str) : Str := (s.reverse.dropWhile (· = '/')).reverse

/-- The rest after a match of `/\/win-(a1|a2|…)\//` at the start of `s`. -/
def matchArch (archs : List Str) (s : Str) : Option Str :=
  archs.findSome? fun a =>
    if startsWith s (c!"/win-" ++ a ++ c!"/") then some (s.drop (c!"/win-" ++ a ++ c!"/").length)
    else none

/-- The text before and after the first match of `/\/win-(a1|a2|…)\//`. -/
def searchArch (archs : List Str) : Str → Option (Str × Str)
  | [] => none
  | x :: xs =>
    match matchArch archs (x :: xs) with
    | some rest => some ([], rest)
    | none => (searchArch archs xs).map fun p => (x :: p.1, p.2)

/-- process-release.js:12 `bitsre` -/
def bitsre : List Str := [c!"x86", c!"x64", c!"arm64"]
/-- process-release.js:13 `bitsreV3` -/
def bitsreV3 : List Str := [c!"x86", c!"ia32", c!"x64"]

/-- process-release.js:129-144 `resolveLibUrl` -/
def resolveLibUrl (name defaultUrl arch : Str) (versionMajor : Nat) : Str :=
  let base := urlResolve defaultUrl []
  let hasLibUrl := (searchArch bitsre defaultUrl).isSome ||
    (versionMajor = 3 && (searchArch bitsreV3 defaultUrl).isSome)
  if !hasLibUrl then
    if versionMajor ≥ 1 then urlResolve base (c!"win-" ++ arch ++ c!"/" ++ name ++ c!".lib")
    else urlResolve base ((if arch = c!"x86" then [] else arch ++ c!"/") ++ name ++ c!".lib")
  else
    match searchArch (if versionMajor = 3 then bitsreV3 else bitsre) defaultUrl with
    | some (a, b) => a ++ c!"/win-" ++ arch ++ c!"/" ++ b
    | none => defaultUrl

/-- `url.parse(u).path` for a plain URL `scheme://host/path`. -/
def urlPath (u : Str) : Str :=
  let rest := u.dropWhile (· ≠ ':')
  let rest := if startsWith rest c!"://" then rest.drop 3 else u
  let p := rest.dropWhile (· ≠ '/')
  if p = [] then c!"/" else p

/-- The names of an absolute path after `path.resolve`. -/
def resolvedNames (p : Str) : List Str := ((splitOn '/' p).foldl (normStep true) []).reverse

/-- `normalizePath(path.relative(from, to))` (process-release.js:112, 125-127) for
absolute paths: up for every name of `from` beyond the common ones, then the
remaining names of `to`; `path.normalize('')` is `.`. -/
def relativeUrlPath (from_ to_ : Str) : Str :=
  let f := resolvedNames from_
  let t := resolvedNames to_
  let n := (commonPrefix f t).length
  let parts := List.replicate (f.length - n) dotdot ++ t.drop n
  if parts = [] then dot else joinWith ['/'] parts

/-- `process.release` (what the code reads of it). -/
structure ReleaseInfo where
  name : Str
  headersUrl : Str
  libUrl : Str
  deriving DecidableEq, Repr

/-- The inputs of `processRelease` besides the version parser. -/
structure ReleaseOpts where
  /-- `argv[0]` -/
  arg : Str
  /-- `--target` -/
  target : Str
  /-- `--dist-url` -/
  distUrl : Str
  /-- `--disturl` -/
  disturl : Str
  /-- the environment variable NODEJS_ORG_MIRROR -/
  mirror : Str
  /-- `process.version` -/
  defaultVersion : Str
  /-- `process.release`, where it exists -/
  defaultRelease : Option ReleaseInfo
  deriving DecidableEq, Repr

structure LibInfo where
  libUrl : Str
  libPath : Str
  deriving DecidableEq, Repr

/-- What `processRelease` returns for a valid version. -/
structure Release where
  version : Str
  semver : Semver
  name : Str
  baseUrl : Str
  tarballUrl : Str
  shasumsUrl : Str
  versionDir : Str
  ia32 : LibInfo
  x64 : LibInfo
  arm64 : LibInfo
  deriving DecidableEq, Repr

inductive ReleaseResult where
  /-- line 35: `{ version }` only -/
  | invalid (version : Str)
  /-- line 41: `semver.parse(defaultVersion)` is null, reading `.version` throws -/
  | crash
  | ok (r : Release)
  deriving DecidableEq, Repr

/-- `name.replace(/io\.js/, 'iojs')` (process-release.js:50): the first occurrence. -/
def iojsName : Str → Str
  | [] => []
  | x :: xs => if startsWith (x :: xs) c!"io.js" then c!"iojs" ++ (x :: xs).drop 5 else x :: iojsName xs

/-- process-release.js:20 the version asked for. -/
def chosenVersion (parse : Str → Option Semver) (o : ReleaseOpts) : Str :=
  if (parse o.arg).isSome && o.arg ≠ [] then o.arg
  else if o.target ≠ [] then o.target
  else o.defaultVersion

/-- process-release.js:22, 64-66 the distribution URL asked for, empty for none. -/
def overrideUrl (o : ReleaseOpts) : Str :=
  let d := if o.distUrl ≠ [] then o.distUrl else o.disturl
  if d = [] ∧ o.mirror ≠ [] then o.mirror else d

/-- process-release.js:102-122 the result object. -/
def mkRelease (v : Semver) (name baseUrl tarballUrl lib32 lib64 libArm : Str) : Release :=
  let lib := fun u => (⟨u, relativeUrlPath (urlPath baseUrl) (urlPath u)⟩ : LibInfo)
  { version := v.text, semver := v, name := name, baseUrl := baseUrl, tarballUrl := tarballUrl
    shasumsUrl := urlResolve baseUrl c!"SHASUMS256.txt"
    versionDir := (if name ≠ c!"node" then name ++ c!"-" else []) ++ v.text
    ia32 := lib lib32, x64 := lib lib64, arm64 := lib libArm }

/-- process-release.js:48-123 once the version is parsed and it is known whether
`process.release` applies. -/
def releaseOf (v : Semver) (dr : Option ReleaseInfo) (override : Str) : Release :=
  let version := v.text
  let name := match dr with
    | some d => iojsName d.name
    | none => if 1 ≤ v.major ∧ v.major < 4 then c!"iojs" else c!"node"
  let distBaseUrl :=
    (if override ≠ [] then stripSlashes override else c!"https://nodejs.org/dist") ++
      c!"/v" ++ version ++ c!"/"
  let guess :=
    let baseUrl := distBaseUrl
    let tarballUrl := urlResolve baseUrl (name ++ c!"-v" ++ version ++
      (if satisfiesHeaders v then c!"-headers" else []) ++ c!".tar.gz")
    mkRelease v name baseUrl tarballUrl (resolveLibUrl name baseUrl c!"x86" v.major)
      (resolveLibUrl name baseUrl c!"x64" v.major) (resolveLibUrl name baseUrl c!"arm64" v.major)
  match dr with
  | some d =>
    if d.headersUrl ≠ [] ∧ override = [] then
      let baseUrl := urlResolve d.headersUrl []
      let from_ := if d.libUrl ≠ [] then d.libUrl else if baseUrl ≠ [] then baseUrl else distBaseUrl
      mkRelease v name baseUrl d.headersUrl (resolveLibUrl name from_ c!"x86" v.major)
        (resolveLibUrl name from_ c!"x64" v.major) (resolveLibUrl name from_ c!"arm64" v.major)
    else guess
  | none => guess

/-- process-release.js:19-123 `processRelease` -/
def processRelease (parse : Str → Option Semver) (o : ReleaseOpts) : ReleaseResult :=
  let version := chosenVersion parse o
  match parse version with
  | none => .invalid version
  | some v =>
    match parse o.defaultVersion with
    | none => .crash
    | some dv =>
      let isDefaultVersion : Bool := v.text = dv.text
      let dr := if isDefaultVersion then o.defaultRelease else none
      .ok (releaseOf v dr (overrideUrl o))

end Gyp
