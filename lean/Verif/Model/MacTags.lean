import Verif.Model.SysTags
/-
The platform tags of macOS: `mac_platforms` of /repo/gyp/pylib/packaging/tags.py.
-/
namespace Gyp

/-- tags.py:351-380 `_mac_binary_formats`. -/
def macFormats (version : Nat × Nat) (cpu : Str) : List Str :=
  let last := (if cpu ∈ [c!"arm64", c!"x86_64"] then [c!"universal2"] else []) ++
    (if cpu ∈ [c!"x86_64", c!"i386", c!"ppc64", c!"ppc", c!"intel"] then [c!"universal"] else [])
  if cpu = c!"x86_64" then
    if pairLt version (10, 4) then [] else [cpu, c!"intel", c!"fat64", c!"fat32"] ++ last
  else if cpu = c!"i386" then
    if pairLt version (10, 4) then [] else [cpu, c!"intel", c!"fat32", c!"fat"] ++ last
  else if cpu = c!"ppc64" then
    if pairLt (10, 5) version || pairLt version (10, 4) then [] else [cpu, c!"fat64"] ++ last
  else if cpu = c!"ppc" then
    if pairLt (10, 6) version then [] else [cpu, c!"fat32", c!"fat"] ++ last
  else [cpu] ++ last

/-- tags.py:424-426 the text of a tag. -/
def macTag (major minor : Nat) (format : Str) : Str :=
  c!"macosx_" ++ natStr major ++ '_' :: natStr minor ++ '_' :: format

/-- tags.py:383-468 `mac_platforms` with the version and the architecture given. -/
def macPlatforms (version : Nat × Nat) (arch : Str) : List Str :=
  (if !pairLt version (10, 0) && pairLt version (11, 0) then
    (downTo version.2 0).flatMap fun minor => (macFormats (10, minor) arch).map (macTag 10 minor)
   else []) ++
  (if !pairLt version (11, 0) then
    (downTo version.1 11).flatMap fun major => (macFormats (major, 0) arch).map (macTag major 0)
   else []) ++
  (if !pairLt version (11, 0) then
    if arch = c!"x86_64" then
      (downTo 16 4).flatMap fun minor => (macFormats (10, minor) arch).map (macTag 10 minor)
    else (downTo 16 4).map fun minor => macTag 10 minor c!"universal2"
   else [])

end Gyp
