import Verif.Spec.Argv
/-
What the shell of Cygwin makes of a word between double quotes, and the words of an action (not
part of /repo).  Only what is needed: plain characters, quotes after a backslash, and the output of
`cygpath` for a variable.  What `cmd` does to the line before (its own quotes, `%` and `^`) is not
described.
-/
namespace Gyp.Spec

/-- A piece of a word of an action: a text, or one of the directories Visual Studio knows. -/
inductive CygPiece
  | text (s : Str)
  | intDir
  | outDir
  | inputDir
deriving DecidableEq

/-- The piece as the author of the build file writes it. -/
def CygPiece.written : CygPiece → Str
  | .text s => s
  | .intDir => c!"$(IntDir)"
  | .outDir => c!"$(OutDir)"
  | .inputDir => c!"$(InputDir)"

/-- What the piece stands for: `vars` are the variables of the environment and `cyg` is what
`cygpath -m` makes of a path. -/
def CygPiece.meaning (vars cyg : Str → Str) : CygPiece → Str
  | .text s => s
  | .intDir => cyg (vars c!"INTDIR")
  | .outDir => cyg (vars c!"OUTDIR")
  | .inputDir => cyg (vars c!"INPUTDIR")

/-- A text without dollar signs, backslashes and backquotes. -/
def CygPiece.Plain : CygPiece → Prop
  | .text s => '$' ∉ s ∧ '\\' ∉ s ∧ '`' ∉ s
  | _ => True

/-- `BashQuoted vars cyg s v`: the shell reads `s` between double quotes as `v`. -/
inductive BashQuoted (vars cyg : Str → Str) : Str → Str → Prop
  | nil : BashQuoted vars cyg [] []
  | char {c : Char} {s v : Str} : c ∉ c!"\"\\`$" → BashQuoted vars cyg s v → BashQuoted vars cyg (c :: s) (c :: v)
  | quote {s v : Str} : BashQuoted vars cyg s v → BashQuoted vars cyg ('\\' :: '"' :: s) ('"' :: v)
  | path {name s v : Str} : '}' ∉ name → BashQuoted vars cyg s v →
      BashQuoted vars cyg (c!"`cygpath -m \\\"${" ++ (name ++ (c!"}\\\"`" ++ s))) (cyg (vars name) ++ v)

end Gyp.Spec
