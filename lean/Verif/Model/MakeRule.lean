import Verif.Model.ShellQuote
/-
Rules of a makefile: `gyp/pylib/gyp/generator/make.py` `WriteMakeRule`.
-/
namespace Gyp

/-- The arguments of `WriteMakeRule`; `actions` and `comment` are `none` for `None`.
`digest` is the SHA-1 of `command or self.target` in hexadecimal. -/
structure RuleArgs where
  outputs : List Str
  inputs : List Str
  actions : Option (List Str) := none
  comment : Option Str := none
  orderOnly : Bool := false
  force : Bool := false
  phony : Bool := false
  digest : Str := []

/-- Python's truth of an optional list. -/
def hasActions (a : Option (List Str)) : Bool :=
  match a with
  | some (_ :: _) => true
  | _ => false

/-- make.py:2146-2182 the lines of the rule proper, up to the recipe, and the recipe.
`none`: `actions.insert` on `None` raises. -/
def ruleCore (a : RuleArgs) (outputs inputs : List Str) : Option (List Str × List Str) :=
  let forceAppend := if a.force then c!" FORCE_DO_CMD" else []
  if a.orderOnly then
    some ([joinWith [' '] outputs ++ c!": | " ++ joinWith [' '] inputs ++ forceAppend],
      a.actions.getD [])
  else
    match outputs with
    | [o] => some ([o ++ c!": " ++ joinWith [' '] inputs ++ forceAppend], a.actions.getD [])
    | _ =>
      match a.actions with
      | none => none
      | some acts =>
        let intermediate := a.digest ++ c!".intermediate"
        some ([joinWith [' '] outputs ++ c!": " ++ intermediate, c!"\t" ++ c!"@:",
            c!".INTERMEDIATE" ++ c!": " ++ intermediate,
            intermediate ++ c!": " ++ joinWith [' '] inputs ++ forceAppend],
          c!"$(call do_cmd,touch)" :: acts)

/-- make.py:2138-2139 the comment; an empty one is not written. -/
def commentLines (c : Option Str) : List Str :=
  match c with
  | some (c :: cs) => [c!"# " ++ (c :: cs)]
  | _ => []

/-- make.py:2140-2141 -/
def phonyLines (phony : Bool) (outputs : List Str) : List Str :=
  if phony then [c!".PHONY: " ++ joinWith [' '] outputs] else []

/-- make.py:2142-2143 (`outputs` not empty). -/
def toolsetLines (a : Option (List Str)) (outputs : List Str) : List Str :=
  if hasActions a then [(outputs.head?.getD []) ++ c!": TOOLSET := $(TOOLSET)"] else []

/-- make.py:2110-2181 `WriteMakeRule`: the lines written.  `none`: an exception (no outputs
although there are actions, or not exactly one output and `actions` is `None`). -/
def WriteMakeRule (a : RuleArgs) : Option (List Str) :=
  let outputs := a.outputs.map fun o => QuoteSpaces o
  let inputs := a.inputs.map fun i => QuoteSpaces i
  if hasActions a.actions && outputs.isEmpty then none
  else
    match ruleCore a outputs inputs with
    | none => none
    | some (rule, recipe) =>
      some (commentLines a.comment ++ (phonyLines a.phony outputs ++
        (toolsetLines a.actions outputs ++ (rule ++ (recipe.map (['\t'] ++ ·) ++ [[]])))))

/-- make.py:2275-2276 the text that `WriteLn` produces for some lines. -/
def writeLines (lines : List Str) : Str := lines.flatMap (· ++ ['\n'])

end Gyp
