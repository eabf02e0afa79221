import Verif.Basic
/-
`lib/download.js`: what is asked of the network for a download, and the certificates of a CA file.
-/
namespace Gyp

/-- The text before the first place where `p` is, and the text after it. -/
def findText (p : Str) : Str → Option (Str × Str)
  | [] => if p = [] then some ([], []) else none
  | c :: s =>
    if p.isPrefixOf (c :: s) then some ([], (c :: s).drop p.length)
    else (findText p s).map fun x => (c :: x.1, x.2)

theorem findText_eq {p : Str} : ∀ {s a b : Str}, findText p s = some (a, b) → s = a ++ p ++ b
  | [], a, b, h => by
    unfold findText at h
    split at h
    · rename_i hp; cases h; rw [hp]; rfl
    · cases h
  | c :: s, a, b, h => by
    unfold findText at h
    split at h
    · rename_i hp
      cases h
      obtain ⟨r, hr⟩ := List.isPrefixOf_iff_prefix.1 hp
      rw [← hr]; simp
    · cases hf : findText p s with
      | none => rw [hf] at h; cases h
      | some x =>
        rw [hf] at h
        cases h
        rw [findText_eq (a := x.1) (b := x.2) hf]
        simp

/-- download.js:32 -/
def certBegin : Str := c!"-----BEGIN CERTIFICATE-----"

/-- download.js:32 -/
def certEnd : Str := c!"-----END CERTIFICATE-----"

/-- download.js:32-33: the matches of the pattern, from the left; what is between the marks is as short
as can be.  Where a beginning has no end after it, no later one has. -/
def certificates (s : Str) : List Str :=
  match h : findText certBegin s with
  | none => []
  | some (_, r) =>
    match h' : findText certEnd r with
    | none => []
    | some (body, r') => (certBegin ++ body ++ certEnd) :: certificates r'
termination_by s.length
decreasing_by
  have h1 := congrArg List.length (findText_eq h)
  have h2 := congrArg List.length (findText_eq h')
  simp [certBegin, certEnd] at h1 h2
  omega

/-- What is given to `fetch` besides the address: the headers, the proxy settings, and `ca`: the outer
`none` when it is not given, the inner one `null`. -/
structure Request where
  userAgent : Str
  proxy : Option Str
  noProxy : Option Str
  ca : Option (Option (List Str))
deriving DecidableEq

/-- download.js:28-34 `readCAFile`: `null` when nothing matches. -/
def readCaFile (text : Str) : Option (List Str) :=
  match certificates text with
  | [] => none
  | l => some l

/-- download.js:5-23 `download` up to the request; `none` when the CA file cannot be read.  An option
that is empty counts as not given for `cafile`. -/
def downloadRequest (gypVersion nodeVersion : Str) (proxy noproxy cafile : Option Str) (read : Str → Option Str) :
    Option Request :=
  let base : Request := { userAgent := c!"node-gyp v" ++ gypVersion ++ c!" (node " ++ nodeVersion ++ c!")", proxy := proxy,
                          noProxy := noproxy, ca := none }
  match cafile with
  | none => some base
  | some [] => some base
  | some f => (read f).map fun text => { base with ca := some (readCaFile text) }

end Gyp
