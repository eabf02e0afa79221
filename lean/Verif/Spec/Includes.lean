import Verif.Model.Value
import Mathlib.Logic.Relation
/-
What including a file in a build file means, without tables of files already read.
-/
namespace Gyp.Spec

/-- The files as far as includes are concerned: what a file evaluates to, the build files that
were loaded before and worked on since then, what merging the dictionary of one file into a
dictionary of another gives (if it is possible), and which file a name in `includes` of a file
stands for. -/
structure Sources where
  content : Str → Option Val
  worked : Str → Option Dict
  merge : (into source : Str) → Dict → Dict → Option Dict
  locate : (file name : Str) → Str

/-- A dictionary says `skip_includes`, with a value that counts as true. -/
inductive Skips (d : Dict) : Prop
  | text (c : Char) (s : Str) : d.get? c!"skip_includes" = some (.str (c :: s)) → Skips d
  | number (i : Int) : i ≠ 0 → d.get? c!"skip_includes" = some (.int i) → Skips d
  | items (v : Val) (l : List Val) : d.get? c!"skip_includes" = some (.list (v :: l)) → Skips d
  | table (e : Str × Val) (t : Dict) : d.get? c!"skip_includes" = some (.dict (e :: t)) → Skips d

/-- The names a dictionary lists under `includes`; Python reads a text as the list of its
characters and a dictionary as the list of its keys. -/
inductive Asks (d : Dict) : List Str → Prop
  | nothing : d.get? c!"includes" = none → Asks d []
  | names (l : List Str) : d.get? c!"includes" = some (.list (l.map .str)) → Asks d l
  | text (s : Str) : d.get? c!"includes" = some (.str s) → Asks d (s.map fun c => [c])
  | table (t : Dict) : d.get? c!"includes" = some (.dict t) → Asks d (t.map Prod.fst)

/-- What can be completed by included files: a file (with files included in addition), a
dictionary found in a file, a dictionary and the files still to be merged into it, and the
parts of a dictionary. -/
inductive Part where
  | file (path : Str) (extra : List Str)
  | dict (path : Str) (extra : List Str) (d : Dict)
  | merging (path : Str) (files : List Str) (d : Dict)
  | entries (path : Str) (d : Dict)
  | value (path : Str) (v : Val)
  | items (path : Str) (l : List Val)

/-- `CompletesTo S part v used`: completed by its includes the part is `v`, and the included files
are `used`, in this order. -/
inductive CompletesTo (S : Sources) : Part → Val → List Str → Prop
  /-- A build file that was loaded before is taken as it has become. -/
  | worked {p d} : S.worked p = some d → CompletesTo S (.file p []) (.dict d) []
  /-- A file that says so is taken as it is. -/
  | skipped {p extra d} : S.worked p = none → S.content p = some (.dict d) → Skips d →
      CompletesTo S (.file p extra) (.dict d) []
  /-- Any other file is the completed dictionary it contains. -/
  | file {p extra d v u} : S.worked p = none → S.content p = some (.dict d) → ¬ Skips d →
      CompletesTo S (.dict p extra d) v u → CompletesTo S (.file p extra) v u
  /-- Additional files first, then those of the list `includes`, which disappears; then the
  parts of the result. -/
  | dict {p extra d names d1 v u1 u2} : Asks d names →
      CompletesTo S (.merging p (extra ++ names.map (S.locate p)) (d.del c!"includes")) (.dict d1) u1 →
      CompletesTo S (.entries p d1) v u2 → CompletesTo S (.dict p extra d) v (u1 ++ u2)
  | mergedAll {p d} : CompletesTo S (.merging p [] d) (.dict d) []
  /-- The included file is itself completed, then merged. -/
  | mergeOne {p q rest d x d1 v u u'} : CompletesTo S (.file q []) (.dict x) u' →
      S.merge p q d x = some d1 → CompletesTo S (.merging p rest d1) v u →
      CompletesTo S (.merging p (q :: rest) d) v (q :: u)
  | noEntries {p} : CompletesTo S (.entries p []) (.dict []) []
  | entry {p k v v1 rest rest1 u1 u2} : CompletesTo S (.value p v) v1 u1 →
      CompletesTo S (.entries p rest) (.dict rest1) u2 →
      CompletesTo S (.entries p ((k, v) :: rest)) (.dict ((k, v1) :: rest1)) (u1 ++ u2)
  | inDict {p d v u} : CompletesTo S (.dict p [] d) v u → CompletesTo S (.value p (.dict d)) v u
  | inList {p l v u} : CompletesTo S (.items p l) v u → CompletesTo S (.value p (.list l)) v u
  | plain {p v} : (∀ d, v ≠ .dict d) → (∀ l, v ≠ .list l) → CompletesTo S (.value p v) v []
  | noItems {p} : CompletesTo S (.items p []) (.list []) []
  | item {p v v1 rest rest1 u1 u2} : CompletesTo S (.value p v) v1 u1 →
      CompletesTo S (.items p rest) (.list rest1) u2 →
      CompletesTo S (.items p (v :: rest)) (.list (v1 :: rest1)) (u1 ++ u2)

/-- File `p` includes file `q` itself, not through another file. -/
def Includes (S : Sources) (p q : Str) : Prop := ∃ v u, CompletesTo S (.file p []) v u ∧ q ∈ u

/-- File `q` contributes to the build file `p` that is loaded with the files `extra`. -/
def Contributes (S : Sources) (p : Str) (extra : List Str) (q : Str) : Prop :=
  q = p ∨ ∃ v u r, CompletesTo S (.file p extra) v u ∧ r ∈ u ∧ Relation.ReflTransGen (Includes S) r q

end Gyp.Spec
