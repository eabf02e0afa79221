import Verif.Model.Value
import Verif.Model.DependencyGraph
/-
List filters: `gyp/pylib/gyp/input.py` `ProcessListFiltersInDict`,
`ProcessListFiltersInList`.
-/
namespace Gyp

/-- What the filters take from Python: `==` on values, and `re.compile(p).search(s)`
(`compile` is `none` when the pattern is not a regular expression). -/
structure FilterCtx where
  eq : Val → Val → Bool
  compile : Str → Option (Str → Bool)

inductive FilterErr where
  /-- input.py:2543, 2557 `ValueError`: a filter, or what it filters, is not a list -/
  | notList (key : Str)
  /-- input.py:2577 `KeyError`: the list was itself a filter and is already used up -/
  | gone (key : Str)
  /-- input.py:2605 a pattern filter that does not unpack into two values -/
  | unpack
  /-- input.py:2606 `re.error`, or a pattern that is not a string -/
  | badPattern
  /-- input.py:2616 `ValueError` -/
  | badAction
  /-- input.py:2632 searching in something that is not a string -/
  | notStr
  /-- input.py:2648 `GypError` -/
  | excludedPresent (key : Str)
  | fuel
deriving DecidableEq

/-- input.py:2537 the last characters that make a key a filter. -/
def isFilterOp (c : Char) : Bool := c = '!' ∨ c = '/'

/-- input.py:2533-2568 one step of the collecting loop over `the_dict.items()`;
the state is `lists` and `del_lists`. -/
def collectStep (d : Dict) (s : List Str × List Str) (e : Str × Val) :
    Except FilterErr (List Str × List Str) :=
  match e.1.getLast? with
  | none => .ok s
  | some op =>
    if isFilterOp op then
      match e.2 with
      | .list _ =>
        match d.get? e.1.dropLast with
        | none => .ok (s.1, s.2 ++ [e.1])
        | some (.list _) => .ok (listAdd s.1 e.1.dropLast, s.2)
        | some _ => .error (.notList e.1.dropLast)
      | _ => .error (.notList e.1)
    else .ok s

/-- input.py:2588 an entry of `list_actions`: `-1` is `none`, `0` (exclude) is
`some false`, `1` (include) is `some true`. -/
abbrev Action := Option Bool

/-- input.py:2592-2597 the exclusion list. -/
def excludePass (c : FilterCtx) (theList : List Val) (exclude : List Val) (acts : List Action) :
    List Action :=
  exclude.foldl (fun acts x =>
    List.zipWith (fun item a => if c.eq x item then some false else a) theList acts) acts

/-- input.py:2605 `[action, pattern] = regex_item`. -/
def unpack2 : Val → Option (Val × Val)
  | .list [a, b] => some (a, b)
  | .str [a, b] => some (.str [a], .str [b])
  | .dict [(a, _), (b, _)] => some (.str a, .str b)
  | _ => none

/-- input.py:2608-2623 the value of an action. -/
def actionValue : Val → Option Bool
  | .str s => if s = c!"exclude" then some false
    else if s = c!"include" then some true else none
  | _ => none

/-- input.py:2625-2633 one pattern against one item. -/
def regexStep (search : Str → Bool) (value : Bool) (item : Val) (a : Action) :
    Except FilterErr Action :=
  if a = some value then .ok a
  else match item with
    | .str s => .ok (if search s then some value else a)
    | _ => .error .notStr

/-- input.py:2625-2633 the loop over `enumerate(the_list)`. -/
def regexLoop (search : Str → Bool) (value : Bool) :
    List Val → List Action → Except FilterErr (List Action)
  | item :: items, a :: acts =>
    match regexStep search value item a with
    | .error e => .error e
    | .ok a => match regexLoop search value items acts with
      | .error e => .error e
      | .ok acts => .ok (a :: acts)
  | _, _ => .ok []

/-- input.py:2605-2633 one pattern filter. -/
def regexItem (c : FilterCtx) (theList : List Val) (acts : List Action) (item : Val) :
    Except FilterErr (List Action) :=
  match unpack2 item with
  | none => .error .unpack
  | some (action, pattern) =>
    match pattern with
    | .str p =>
      match c.compile p with
      | none => .error .badPattern
      | some search =>
        match actionValue action with
        | none => .error .badAction
        | some value => regexLoop search value theList acts
    | _ => .error .badPattern

/-- input.py:2658-2668 the loop that goes backwards through the list and moves the
excluded items out of it; `n` is the number of positions still to look at. -/
def splitLoop (acts : List Action) : Nat → List Val × List Val → List Val × List Val
  | 0, s => s
  | i + 1, (l, excluded) =>
    if acts[i]? = some (some false) then
      splitLoop acts i (l.eraseIdx i, (l[i]?).toList ++ excluded)
    else splitLoop acts i (l, excluded)

/-- input.py:2590-2601 the exclusion list, if there is one, is applied and deleted. -/
def applyExclude (c : FilterCtx) (listKey : Str) (theList : List Val) (d : Dict)
    (acts : List Action) : Except FilterErr (Dict × List Action) :=
  let key := listKey ++ c!"!"
  match d.get? key with
  | none => .ok (d, acts)
  | some (.list l) => .ok (d.del key, excludePass c theList l acts)
  | some _ => .error (.notList key)

/-- input.py:2603-2636 the pattern filters, if there are any, are applied and deleted. -/
def applyRegex (c : FilterCtx) (listKey : Str) (theList : List Val) (d : Dict)
    (acts : List Action) : Except FilterErr (Dict × List Action) :=
  let key := listKey ++ c!"/"
  match d.get? key with
  | none => .ok (d, acts)
  | some (.list l) =>
    match l.foldlM (regexItem c theList) acts with
    | .error e => .error e
    | .ok acts => .ok (d.del key, acts)
  | some _ => .error (.notList key)

/-- input.py:2576-2673 the body of the loop over `lists`. -/
def filterOne (c : FilterCtx) (d : Dict) (listKey : Str) : Except FilterErr Dict :=
  match d.get? listKey with
  | some (.list theList) =>
    match applyExclude c listKey theList d (List.replicate theList.length none) with
    | .error e => .error e
    | .ok (d, acts) =>
      match applyRegex c listKey theList d acts with
      | .error e => .error e
      | .ok (d, acts) =>
        let excludedKey := listKey ++ c!"_excluded"
        if (d.get? excludedKey).isSome then .error (.excludedPresent excludedKey)
        else
          let (kept, excluded) := splitLoop acts acts.length (theList, [])
          let d := d.set listKey (.list kept)
          .ok (if excluded.length > 0 then d.set excludedKey (.list excluded) else d)
  | none => .error (.gone listKey)
  | some _ => .error (.notList listKey)

/-- input.py:2527-2673 `ProcessListFiltersInDict` without the final recursion. -/
def filterLevel (c : FilterCtx) (d : Dict) : Except FilterErr Dict :=
  match d.foldlM (collectStep d) ([], []) with
  | .error e => .error e
  | .ok (lists, delLists) => lists.foldlM (filterOne c) (delLists.foldl Dict.del d)

/-- A dictionary entry whose value is the result of a call. -/
def withKey {ε : Type} (k : Str) : Except ε Val → Except ε (Str × Val)
  | .error x => .error x
  | .ok v => .ok (k, v)

/-- input.py:2503-2672, 2675-2680 `ProcessListFiltersInDict` and
`ProcessListFiltersInList`: the value after the call.  Scalars are not touched.  `fuel`
bounds the depth of the recursion; the `name` in error messages is left out. -/
def ProcessListFilters (c : FilterCtx) : Nat → Val → Except FilterErr Val
  | 0, _ => .error .fuel
  | fuel + 1, .dict d =>
    match filterLevel c d with
    | .error e => .error e
    | .ok d =>
      match d.mapM (fun e => withKey e.1 (ProcessListFilters c fuel e.2)) with
      | .error e => .error e
      | .ok d => .ok (.dict d)
  | fuel + 1, .list l =>
    match l.mapM (ProcessListFilters c fuel) with
    | .error e => .error e
    | .ok l => .ok (.list l)
  | _ + 1, v => .ok v

end Gyp
