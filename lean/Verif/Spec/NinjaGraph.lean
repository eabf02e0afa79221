import Verif.Model.NinjaGraph
/-
Words for the claims about the graph in ninja files.
-/
namespace Gyp.Spec

/-- `Waits E o x`: with the statements `E`, `o` is made only when `x` has been made.  What a statement makes waits
for all it needs; the files it makes are made together. -/
inductive Waits (E : List NEdge) : Str → Str → Prop
  | refl (o : Str) : Waits E o o
  | make {e : NEdge} {o m : Str} : e ∈ E → o ∈ e.outputs → m ∈ e.inputs ++ e.implicit ++ e.orderOnly → Waits E o m
  | same {e : NEdge} {o x : Str} : e ∈ E → o ∈ e.outputs → x ∈ e.outputs → Waits E o x
  | trans {o m x : Str} : Waits E o m → Waits E m x → Waits E o x

/-- The command of the statement `e` runs only when `x` has been made. -/
def RunsAfter (E : List NEdge) (e : NEdge) (x : Str) : Prop :=
  ∃ m ∈ e.inputs ++ e.implicit ++ e.orderOnly, Waits E m x

/-- `Remakes E o m`: when `m` changes, `o` is made again. -/
inductive Remakes (E : List NEdge) : Str → Str → Prop
  | make {e : NEdge} {o m : Str} : e ∈ E → o ∈ e.outputs → m ∈ e.inputs ++ e.implicit → Remakes E o m
  | trans {o m x : Str} : Remakes E o m → Remakes E m x → Remakes E o x

/-- The command of the statement `e` runs again when `m` changes. -/
def RunsAgain (E : List NEdge) (e : NEdge) (m : Str) : Prop :=
  m ∈ e.inputs ++ e.implicit ∨ ∃ n ∈ e.inputs ++ e.implicit, Remakes E n m

/-- The target `q` needs the target `d`, directly or through others. -/
inductive NeedsTarget (ts : List (Str × NSpec)) : Str → Str → Prop
  | one {q d : Str} {s : NSpec} : (q, s) ∈ ts → d ∈ s.dependencies → NeedsTarget ts q d
  | more {q d e : Str} {s : NSpec} : (q, s) ∈ ts → d ∈ s.dependencies → NeedsTarget ts d e → NeedsTarget ts q e

/-- The list of targets has each target once, after the targets of the list that it needs. -/
def InOrder (ts : List (Str × NSpec)) : Prop :=
  ∀ a q s b, ts = a ++ (q, s) :: b →
    q ∉ a.map Prod.fst ∧ ∀ d ∈ s.dependencies, d ∈ ts.map Prod.fst → d ∈ a.map Prod.fst

/-- `o` is made by an action, a rule or a copy of the target. -/
inductive StepOutput (x : NinjaCtx) (s : NSpec) (o : Str) : Prop
  | action (a : NAction) (p : Str) : a ∈ s.actions → p ∈ a.outputs → gypPathToNinja x p = some o → StepOutput x s o
  | rule (r : NRule) (src p : Str) : r ∈ s.rules → src ∈ r.sources → p ∈ ruleOutputsFor r src →
      gypPathToNinja x p = some o → StepOutput x s o
  | copy (c : NCopy) (f : Str) : c ∈ s.copies → f ∈ c.files →
      gypPathToNinja x (pathJoin c.destination (basename (normpath f))) = some o → StepOutput x s o

/-- `p` is a source of the target, in its build file or made by a step. -/
inductive SourceOf (s : NSpec) (p : Str) : Prop
  | own : p ∈ s.sources → SourceOf s p
  | action (a : NAction) : a ∈ s.actions → a.asSources = true → p ∈ a.outputs → SourceOf s p
  | rule (r : NRule) (src : Str) : r ∈ s.rules → r.asSources = true → src ∈ r.sources → p ∈ ruleOutputsFor r src →
      SourceOf s p

/-- Each rule of a target makes something. -/
def RulesMake (s : NSpec) : Prop := ∀ r ∈ s.rules, r.outputs ≠ []

/-- Only the last rule has two inputs and three sources. -/
def FewInputs (s : NSpec) : Prop :=
  ∀ a r b, s.rules = a ++ r :: b → b ≠ [] → r.inputs.length < 2 ∨ r.sources.length < 3

/-- How a source is compiled, by the end of its name. -/
inductive NinjaCompiledBy (p : Str) : Str → Prop
  | cxx (e : Str) : (splitext p).2 = '.' :: e → e ∈ [c!"cc", c!"cpp", c!"cxx"] → NinjaCompiledBy p c!"cxx"
  | cc (e : Str) : (splitext p).2 = '.' :: e → e ∈ [c!"c", c!"S"] → NinjaCompiledBy p c!"cc"
  | asm : (splitext p).2 = c!".s" → NinjaCompiledBy p c!"cc_s"

/-- The target has C++ in it, in its sources or in targets it depends on that are built. -/
inductive HasCpp (ts : List (Str × NSpec)) (outs : List (Str × NTarget)) : Str → Prop
  | own {q : Str} {s : NSpec} {p : Str} : (q, s) ∈ ts → SourceOf s p → NinjaCompiledBy p c!"cxx" → HasCpp ts outs q
  | dep {q d : Str} {s : NSpec} {t : NTarget} : (q, s) ∈ ts → d ∈ s.dependencies → aget outs d = some t →
      HasCpp ts outs d → HasCpp ts outs q

end Gyp.Spec
