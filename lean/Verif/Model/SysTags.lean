import Verif.Model.WheelNames
/-
The tags of wheels that fit a system: `platform_tags` of
/repo/gyp/pylib/packaging/_manylinux.py and _musllinux.py, `cpython_tags`
and `compatible_tags` of /repo/gyp/pylib/packaging/tags.py.
-/
namespace Gyp

/-- `range(hi, lo - 1, -1)`: the numbers from `hi` down to `lo`. -/
def downTo (hi lo : Nat) : List Nat := (List.range (hi + 1 - lo)).map fun i => hi - i

/-- _manylinux.py:28-50 what the ELF header of the interpreter says: is it for ARM with hard floats,
is it for i686?  Simplified: the bytes of the header are not modelled. -/
structure ElfFacts where
  armhf : Bool
  i686 : Bool

/-- _manylinux.py:53-59 `_have_compatible_abi`. -/
def haveCompatibleAbi (elf : ElfFacts) (archs : List Str) : Bool :=
  if c!"armv7l" ∈ archs then elf.armhf
  else if c!"i686" ∈ archs then elf.i686
  else archs.any fun a =>
    a ∈ [c!"x86_64", c!"aarch64", c!"ppc64", c!"ppc64le", c!"s390x", c!"loongarch64"]

/-- _manylinux.py:176-193 the attributes of the module `_manylinux`, where there is one; `none` is a missing
attribute.  `manylinux_compatible` may answer `None`. -/
structure ManyModule where
  compatible : Option (Nat → Nat → Str → Option Bool)
  many1 : Option Bool
  many2010 : Option Bool
  many2014 : Option Bool

/-- Comparison of `(major, minor)` tuples. -/
def pairLt (a b : Nat × Nat) : Bool := a.1 < b.1 || (a.1 = b.1 && a.2 < b.2)

/-- _manylinux.py:171-194 `_is_compatible`. -/
def isCompatible (sys : Nat × Nat) (mod : Option ManyModule) (arch : Str) (v : Nat × Nat) : Bool :=
  if pairLt sys v then false
  else
    match mod with
    | none => true
    | some m =>
      match m.compatible with
      | some f => (f v.1 v.2 arch).getD true
      | none =>
        if v = (2, 5) ∧ m.many1.isSome then m.many1.getD true
        else if v = (2, 12) ∧ m.many2010.isSome then m.many2010.getD true
        else if v = (2, 17) ∧ m.many2014.isSome then m.many2014.getD true
        else true

/-- _manylinux.py:197-204 `_LEGACY_MANYLINUX_MAP`. -/
def legacyName (v : Nat × Nat) : Option Str :=
  if v = (2, 17) then some c!"manylinux2014"
  else if v = (2, 12) then some c!"manylinux2010"
  else if v = (2, 5) then some c!"manylinux1"
  else none

/-- _manylinux.py:220-224 one more than the minor number of `too_old_glibc2`. -/
def oldestMinor (archs : List Str) : Nat :=
  if c!"x86_64" ∈ archs ∨ c!"i686" ∈ archs then 5 else 17

/-- _manylinux.py:225-235 `glibc_max_list`; 50 is `_LAST_GLIBC_MINOR` (line 67). -/
def glibcMaxList (cur : Nat × Nat) : List (Nat × Nat) :=
  cur :: (downTo (cur.1 - 1) 2).map fun major => (major, 50)

/-- _manylinux.py:243-252 the tags for one version of glibc. -/
def versionTags (sys : Nat × Nat) (mod : Option ManyModule) (arch : Str) (v : Nat × Nat) : List Str :=
  (if isCompatible sys mod arch v then
    [c!"manylinux_" ++ natStr v.1 ++ '_' :: natStr v.2 ++ '_' :: arch] else []) ++
  (match legacyName v with
   | none => []
   | some l => if isCompatible sys mod arch v then [l ++ '_' :: arch] else [])

/-- _manylinux.py:207-252 `platform_tags`; no version of glibc is `(-1, -1)` in the code, for which all
ranges are empty. -/
def manylinuxTags (elf : ElfFacts) (glibc : Option (Nat × Nat)) (mod : Option ManyModule)
    (archs : List Str) : List Str :=
  if !haveCompatibleAbi elf archs then []
  else
    match glibc with
    | none => []
    | some cur =>
      archs.flatMap fun arch => (glibcMaxList cur).flatMap fun mx =>
        (downTo mx.2 (if mx.1 = 2 then oldestMinor archs else 0)).flatMap fun minor =>
          versionTags cur mod arch (mx.1, minor)

/-- _musllinux.py:54-72 `platform_tags`. -/
def musllinuxTags (musl : Option (Nat × Nat)) (archs : List Str) : List Str :=
  match musl with
  | none => []
  | some v => archs.flatMap fun arch => (downTo v.2 0).map fun minor =>
      c!"musllinux_" ++ natStr v.1 ++ '_' :: natStr minor ++ '_' :: arch

/-- tags.py:54-57 `Tag.__init__`. -/
def mkTag (interpreter abi platform : Str) : WTag := ⟨lowerStr interpreter, lowerStr abi, lowerStr platform⟩

/-- tags.py:529-530 `_version_nodot` of a major and a minor number. -/
def nodot (major minor : Nat) : Str := natStr major ++ natStr minor

/-- tags.py:127-133 `_abi3_applies`. -/
def abi3Applies (major minor : Nat) : Bool := !pairLt (major, minor) (3, 2)

/-- tags.py:172-226 `cpython_tags` with a major and a minor number, ABIs and platforms given. -/
def cpythonTags (major minor : Nat) (abis platforms : List Str) : List WTag :=
  let interpreter := c!"cp" ++ nodot major minor
  let abis := (abis.erase c!"abi3").erase c!"none"
  (abis.flatMap fun a => platforms.map fun p => mkTag interpreter a p) ++
  (if abi3Applies major minor then platforms.map fun p => mkTag interpreter c!"abi3" p else []) ++
  (platforms.map fun p => mkTag interpreter c!"none" p) ++
  (if abi3Applies major minor then
    (downTo (minor - 1) 2).flatMap fun k => platforms.map fun p => mkTag (c!"cp" ++ nodot major k) c!"abi3" p
   else [])

/-- tags.py:301-313 `_py_interpreter_range` with a major and a minor number. -/
def pyRange (major minor : Nat) : List Str :=
  (c!"py" ++ nodot major minor) :: (c!"py" ++ natStr major) ::
    (if minor = 0 then [] else (downTo (minor - 1) 0).map fun k => c!"py" ++ nodot major k)

/-- tags.py:316-338 `compatible_tags` with a major and a minor number and platforms given. -/
def compatibleTags (major minor : Nat) (interpreter : Option Str) (platforms : List Str) : List WTag :=
  ((pyRange major minor).flatMap fun v => platforms.map fun p => mkTag v c!"none" p) ++
  (match interpreter with
   | none => []
   | some i => if i = [] then [] else [mkTag i c!"none" c!"any"]) ++
  (pyRange major minor).map fun v => mkTag v c!"none" c!"any"

end Gyp
