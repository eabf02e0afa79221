import Verif.Model.Shasums
/-
Installing the headers: `lib/install.js` and `lib/remove.js`.

The outside world is a parameter: which operation on files fails and how (`fault`, asked with a
running number, so that any pattern of failures is possible), what the network answers (`net`),
the digest of some bytes and the members of an archive.
-/
namespace Gyp

/-- The code of an error of the file system or the network. -/
inductive FsErr where
  | enoent
  | eacces
  | ebusy
  | other
deriving DecidableEq

/-- The ways an installation fails. -/
inductive InstErr where
  | fs (e : FsErr)
  | invalidVersion
  | tooOld
  | pre
  | status (n : Nat)
  | extraction
  | checksum (name : Str)
  /-- Not an error of the program: the recursion of the model went too deep. -/
  | fuel
deriving DecidableEq

/-- The operations that can fail. -/
inductive FsOp where
  | stat
  | mkdir
  | read
  | write
  | extract
  | copy
  | download
  | removeStat
  | rm
deriving DecidableEq

/-- The answer to a request. -/
inductive NetRes where
  | status (n : Nat)
  | body (bytes : Str)

/-- The parts of `processRelease` that matter here. -/
structure InstRelease where
  /-- `release.semver` is there -/
  valid : Bool
  /-- `semver.lt(release.version, '0.8.0')` -/
  tooOld : Bool
  /-- `release.semver.prerelease[0] === 'pre'` -/
  pre : Bool
  versionDir : Str
  name : Str
  tarballUrl : Str
  /-- `path.basename(release.tarballUrl).trim()` -/
  tarballName : Str
  shasumsUrl : Str
  libUrl : Str
  libPath : Str

/-- The files of a directory. -/
abbrev Files := List (Str × Str)

/-- Directories and their files. -/
abbrev Disk := List (Str × Files)

/-- The outside world. -/
structure InstEnv where
  win : Bool
  ensure : Bool
  nodedir : Bool
  /-- the bytes of the archive given with `--tarball` -/
  tarball : Option Str
  arch : Str
  /-- `gyp.package.installVersion` -/
  installVersion : Nat
  tmpdir : Str
  cwd : Str
  release : List Str → InstRelease
  fault : FsOp → Nat → Option FsErr
  net : Nat → Str → NetRes
  digest : Str → Str
  /-- the members of an archive (without the first directory of their names) and whether the
  archive is damaged -/
  untar : Str → Files × Bool

/-- The state of a run. -/
structure InstState where
  /-- number of the next operation -/
  n : Nat
  /-- `gyp.devDir` -/
  devDir : Str
  disk : Disk
  /-- the temporary directory used on Windows -/
  tmp : Files
  /-- arguments of the `remove` commands appended to the queue -/
  removes : List (List Str)
  /-- all states the disk went through, the last one first: where a crash may leave it -/
  seen : List Disk
  /-- what was downloaded, with the name under which its checksum is published -/
  got : List (Str × Str)
  /-- the lists of checksums downloaded -/
  sums : List Str
  /-- the version directories in which an installation was begun -/
  begun : List Str
  /-- how many times `install` was entered -/
  tries : Nat
deriving DecidableEq

/-- A computation that may fail and keeps its effects when it does. -/
def InstM (α : Type) : Type := InstState → Except InstErr α × InstState

instance : Monad InstM where
  pure a := fun s => (.ok a, s)
  bind m f := fun s =>
    match m s with
    | (.ok a, s') => f a s'
    | (.error e, s') => (.error e, s')

/-- `throw` -/
def InstM.fail {α : Type} (e : InstErr) : InstM α := fun s => (.error e, s)

/-- `try … catch` that hands on the outcome -/
def InstM.attempt {α : Type} (m : InstM α) : InstM (Except InstErr α) := fun s =>
  let r := m s
  (.ok r.1, r.2)

/-- A change of the state that cannot fail. -/
def InstM.upd (g : InstState → InstState) : InstM Unit := fun s => (.ok (), g s)

/-- An operation: it fails if the world says so, else it has its effect. -/
def InstM.op {α : Type} (E : InstEnv) (kind : FsOp) (f : InstState → Except FsErr α × InstState) :
    InstM α := fun s =>
  match E.fault kind s.n with
  | some e => (.error (.fs e), { s with n := s.n + 1 })
  | none =>
    let r := f { s with n := s.n + 1 }
    (match r.1 with | .ok a => .ok a | .error e => .error (.fs e), r.2)

/-- A change of the disk; the new state is one a crash may leave behind. -/
def setDisk (s : InstState) (d : Disk) : InstState := { s with disk := d, seen := d :: s.seen }

/-- `path.resolve(devDir, versionDir)` for a simple name. -/
def versionPath (devDir versionDir : Str) : Str := devDir ++ '/' :: versionDir

/-- `fs.stat(dir)` -/
def statDir (E : InstEnv) (kind : FsOp) (dir : Str) : InstM Unit :=
  InstM.op E kind fun s => (if (aget s.disk dir).isSome = true then .ok () else .error .enoent, s)

/-- `fs.stat` of a file in a directory -/
def statFile (E : InstEnv) (dir file : Str) : InstM Unit :=
  InstM.op E .stat fun s =>
    match aget s.disk dir with
    | none => (.error .enoent, s)
    | some fs => (if (aget fs file).isSome = true then .ok () else .error .enoent, s)

/-- `fs.readFile` -/
def readFile (E : InstEnv) (dir file : Str) : InstM Str :=
  InstM.op E .read fun s =>
    match aget s.disk dir with
    | none => (.error .enoent, s)
    | some fs =>
      match aget fs file with
      | none => (.error .enoent, s)
      | some c => (.ok c, s)

/-- `fs.mkdir(dir, { recursive: true })` -/
def mkdir (E : InstEnv) (dir : Str) : InstM Unit :=
  InstM.op E .mkdir fun s =>
    (.ok (), match aget s.disk dir with
      | some _ => s
      | none => setDisk s (aset s.disk dir []))

/-- Writes a file into the directory the archive is extracted to: the temporary directory on
Windows, the version directory else. -/
def putFile (E : InstEnv) (kind : FsOp) (dir file content : Str) : InstM Unit :=
  InstM.op E kind fun s =>
    if E.win = true then (.ok (), { s with tmp := aset s.tmp file content })
    else
      match aget s.disk dir with
      | none => (.error .enoent, s)
      | some fs => (.ok (), setDisk s (aset s.disk dir (aset fs file content)))

/-- A download. -/
def fetch (E : InstEnv) (url : Str) : InstM Str := do
  let r ← InstM.op E .download fun s => (.ok (E.net s.n url), s)
  match r with
  | .status n => InstM.fail (.status n)
  | .body b => pure b

/-- The digits at the start. -/
def leadingNat (s : Str) : Nat :=
  (s.takeWhile fun c => decide ('0' ≤ c ∧ c ≤ '9')).foldl (fun n c => 10 * n + (c.toNat - '0'.toNat)) 0

/-- lib/install.js:77 `parseInt(ver, 10) || 0`: blanks, a sign and digits. -/
def parseIntOr0 (s : Str) : Int :=
  match s.dropWhile jsSpace with
  | '-' :: r => - (leadingNat r : Int)
  | '+' :: r => leadingNat r
  | r => leadingNat r

/-- `path.extname` of a name: from the last dot of the last component, unless it starts it. -/
def jsExtname (file : Str) : Str :=
  let base := match rsplit1 '/' file with | some (_, b) => b | none => file
  match rsplit1 '.' base with
  | none => []
  | some ([], _) => []
  | some (_, e) => '.' :: e

/-- lib/install.js:352-356 `valid` -/
def validMember (file : Str) : Bool := jsExtname file = c!".h" || jsExtname file = c!".gypi"

/-- lib/install.js:200-248: the valid members are written one after the other; the result is
their number. -/
def extractAll (E : InstEnv) (dir : Str) : Files → InstM Nat
  | [] => pure 0
  | (f, c) :: rest =>
    if validMember f = true then do
      putFile E .extract dir f c
      let k ← extractAll E dir rest
      pure (k + 1)
    else extractAll E dir rest

/-- Natural number in decimal. -/
def installVersionText (E : InstEnv) : Str := (toString E.installVersion).toList ++ ['\n']

/-- lib/install.js:200-255: the archive, from a file or the network; the result is the checksums
to verify.  An error of the network is reported as it is. -/
def getTarball (E : InstEnv) (rel : InstRelease) (dir : Str) : InstM (List (Str × Str)) := do
  match E.tarball with
  | some bytes =>
    let k ← extractAll E dir (E.untar bytes).1
    if (E.untar bytes).2 = true ∨ k = 0 then InstM.fail .extraction else pure []
  | none =>
    let bytes ← fetch E rel.tarballUrl
    InstM.upd fun s => { s with got := (rel.tarballName, bytes) :: s.got }
    let k ← extractAll E dir (E.untar bytes).1
    if (E.untar bytes).2 = true ∨ k = 0 then InstM.fail .extraction
    else pure [(rel.tarballName, E.digest bytes)]

/-- lib/install.js:318-345 `downloadNodeLib` -/
def getNodeLib (E : InstEnv) (rel : InstRelease) (dir : Str) (content : List (Str × Str)) :
    InstM (List (Str × Str)) := do
  let bytes ← fetch E rel.libUrl
  InstM.upd fun s => { s with got := (rel.libPath, bytes) :: s.got }
  putFile E .write dir (E.arch ++ '/' :: (rel.name ++ c!".lib")) bytes
  pure (aset content rel.libPath (E.digest bytes))

/-- lib/install.js:294-316 `downloadShasums` -/
def getShasums (E : InstEnv) (rel : InstRelease) : InstM (List (Str × Str)) := do
  let text ← fetch E rel.shasumsUrl
  InstM.upd fun s => { s with sums := text :: s.sums }
  pure (parseShasums text)

/-- lib/install.js:270-276: every checksum must be the expected one. -/
def verifySums (expect : List (Str × Str)) : List (Str × Str) → InstM Unit
  | [] => pure ()
  | (k, d) :: rest =>
    if aget expect k = some d then verifySums expect rest else InstM.fail (.checksum k)

/-- lib/install.js:122-154 `copyDirectory` for the files of the temporary directory.  The
repetitions of a failing copy are one operation. -/
def copyAll (E : InstEnv) (dir : Str) : Files → InstM Unit
  | [] => pure ()
  | (f, c) :: rest => do
    let r ← InstM.attempt (InstM.op E .copy fun s =>
      match aget s.disk dir with
      | none => (.error .enoent, s)
      | some fs => (.ok (), setDisk s (aset s.disk dir (aset fs f c))))
    match r with
    | .ok _ => copyAll E dir rest
    | .error e =>
      if E.ensure = true ∧ e = .fs .ebusy then do
        let x ← InstM.attempt (statFile E dir f)
        match x with
        | .ok _ => copyAll E dir rest
        | .error _ => InstM.fail e
      else InstM.fail e

/-- What is in the temporary directory. -/
def tmpFiles : InstM Files := fun s => (.ok s.tmp, s)

/-- lib/install.js:173-346: `go` after the directory is there.  `Promise.all` is modelled as
one step after the other, in the order of the list. -/
def goBody (E : InstEnv) (rel : InstRelease) (dir : Str) (wantTarball : Bool) : InstM Unit := do
  InstM.upd fun s => { s with begun := dir :: s.begun, tmp := [] }
  let content ← (if wantTarball = true then getTarball E rel dir else pure [] :
    InstM (List (Str × Str)))
  let content ← (if E.win = true then getNodeLib E rel dir content else pure content :
    InstM (List (Str × Str)))
  putFile E .write dir c!"installVersion" (installVersionText E)
  let expect ← (if E.tarball = none ∨ E.win = true then getShasums E rel else pure [] :
    InstM (List (Str × Str)))
  verifySums expect content
  if E.win = true then do
    let tmp ← tmpFiles
    copyAll E dir tmp
  else pure ()

/-- lib/install.js:156-346 `go`; `fallback` is `eaccesFallback`. -/
def goInstall (E : InstEnv) (rel : InstRelease) (dir : Str) (wantTarball : Bool)
    (fallback : InstErr → InstM Unit) : InstM Unit := do
  let r ← InstM.attempt (mkdir E dir)
  match r with
  | .error e => if e = .fs .eacces then fallback e else InstM.fail e
  | .ok _ => goBody E rel dir wantTarball

/-- lib/remove.js:8-40 for a version directory of the current `gyp.devDir`. -/
def removeVersion (E : InstEnv) (versionDir : Str) : InstM Unit := fun s =>
  let dir := versionPath s.devDir versionDir
  (do
    let r ← InstM.attempt (statDir E .removeStat dir)
    match r with
    | .error e => if e = InstErr.fs .enoent then pure () else InstM.fail e
    | .ok _ =>
      InstM.op E .rm fun s =>
        (.ok (), setDisk s (s.disk.filter fun p => decide (p.1 ≠ dir)))) s

/-- lib/install.js:358-363: `try { return await go() } catch (err) { return rollback(err) }` -/
def goOrRollback (E : InstEnv) (rel : InstRelease) (dir : Str) (wantTarball : Bool)
    (fallback : InstErr → InstM Unit) : InstM Unit := do
  let r ← InstM.attempt (goInstall E rel dir wantTarball fallback)
  match r with
  | .ok _ => pure ()
  | .error e => do
    removeVersion E rel.versionDir
    InstM.fail e

/-- lib/install.js:375 -/
def noretryWord : Str := c!"--node_gyp_internal_noretry"

/-- lib/install.js:374-393 `eaccesFallback`; `again` is the new installation. -/
def eaccesFallback (E : InstEnv) (argv : List Str) (again : List Str → InstM Unit) (e : InstErr) :
    InstM Unit :=
  if noretryWord ∈ argv then InstM.fail e
  else do
    InstM.upd fun s => { s with devDir := E.tmpdir ++ c!"/.node-gyp" }
    InstM.upd fun s => if E.cwd = E.tmpdir then { s with removes := s.removes ++ [argv] } else s
    again (noretryWord :: argv)

/-- lib/install.js:52-109: what `--ensure` does. -/
def ensureInstall (E : InstEnv) (rel : InstRelease) (dir : Str) (fallback : InstErr → InstM Unit) :
    InstM Unit := do
  let r ← InstM.attempt (statDir E .stat dir)
  match r with
  | .error e =>
    if e = .fs .enoent then goOrRollback E rel dir true fallback
    else if e = .fs .eacces then fallback e
    else InstM.fail e
  | .ok _ => do
    let v ← InstM.attempt (readFile E dir c!"installVersion")
    let version ← (match v with
      | .ok text => pure (parseIntOr0 text)
      | .error e => if e = .fs .enoent then pure 0 else InstM.fail e : InstM Int)
    if version < (E.installVersion : Int) then goOrRollback E rel dir true fallback
    else if E.win = true then do
      let l ← InstM.attempt (statFile E dir (E.arch ++ c!"/node.lib"))
      match l with
      | .ok _ => pure ()
      | .error e =>
        if e = .fs .enoent then goOrRollback E rel dir false fallback
        else if e = .fs .eacces then fallback e
        else InstM.fail e
    else pure ()

/-- lib/install.js:17-120 `install`.  The first argument bounds the recursion. -/
def installRun (E : InstEnv) : Nat → List Str → InstM Unit
  | 0, _ => InstM.fail .fuel
  | fuel + 1, argv => fun s =>
    let s := { s with tries := s.tries + 1 }
    let rel := E.release argv
    if rel.valid = false then (.error .invalidVersion, s)
    else if rel.tooOld = true then (.error .tooOld, s)
    else if rel.pre = true then (if E.nodedir = true then .ok () else .error .pre, s)
    else
      let dir := versionPath s.devDir rel.versionDir
      let fallback := eaccesFallback E argv (installRun E fuel)
      if E.ensure = true then ensureInstall E rel dir fallback s
      else goOrRollback E rel dir true fallback s

end Gyp
