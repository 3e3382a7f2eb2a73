import Verif.Model.Conditions
import Verif.Model.Runner
/-
Model of `src/cfnlint/template.py`: searching keys, locations, resolving `Fn::If`, conditions on a path,
scenario projections, valid references.
-/
namespace CfnLint

/-- `CONDITION_FUNCTIONS`, helpers.py:67 -/
def conditionFunctions : List String := ["Fn::If"]

/-- `FUNCTIONS`, helpers.py:82-85 -/
def functionNames : List String :=
  ["Fn::Base64", "Fn::GetAtt", "Fn::GetAZs", "Fn::ImportValue", "Fn::Join", "Fn::Split", "Fn::FindInMap",
   "Fn::Select", "Ref", "Fn::If", "Fn::Contains", "Fn::Sub", "Fn::Cidr"]

/-- `PSEUDOPARAMS`, helpers.py:98-107 -/
def pseudoParams : List String :=
  ["AWS::AccountId", "AWS::NotificationARNs", "AWS::NoValue", "AWS::Partition", "AWS::Region",
   "AWS::StackId", "AWS::StackName", "AWS::URLSuffix"]

/-! ### search_deep_keys -/

mutual
/-- `_search_deep_keys`, template.py:284-310. A result `path + [value]` is the pair of the path (ending in
the key) and the value. -/
def searchVal (text : String) : Val → Path → List (Path × Val)
  | .dict kvs, path => searchDict text kvs path
  | .list xs, path => searchList text xs 0 path
  | _, _ => []
/-- template.py:288-303 -/
def searchDict (text : String) : List (Key × Val) → Path → List (Path × Val)
  | [], _ => []
  | (k, v) :: rest, path =>
    (if k = .str text then [(path ++ [k], v)] else []) ++ searchVal text v (path ++ [k]) ++
      searchDict text rest path
/-- template.py:299-303 and 304-308 -/
def searchList (text : String) : List Val → Nat → Path → List (Path × Val)
  | [], _, _ => []
  | x :: xs, i, path => searchVal text x (path ++ [.int i]) ++ searchList text xs (i + 1) path
end

/-- `search_deep_keys`, template.py:312-322. `globals` is the `Globals` section saved before a transform
(runner.py:36); it is searched with an empty path. -/
def searchDeepKeys (text : String) (template globals : Val) : List (Path × Val) :=
  searchVal text template [] ++ searchVal text globals []

/-! ### get_values -/

mutual
/-- `get_condition_values`, template.py:324-366 -/
def condValues : Val → Path → List (Path × Val)
  | .list [_, a, b], path => condItem a (path ++ [.int 1]) ++ condItem b (path ++ [.int 2])
  | _, _ => []
/-- the loop body, template.py:333-364 -/
def condItem : Val → Path → List (Path × Val)
  | .dict [(k, v)], path =>
    if k = .str "Fn::If" then condValues v (path ++ [k])
    else if k = .str "Ref" then
      (if v = .str "AWS::NoValue" then [] else [(path, .dict [(k, v)])])
    else [(path, .dict [(k, v)])]
  | v, path => [(path, v)]
end

/-- one element of a list value, template.py:414-439 -/
def listElemValues (i : Nat) (x : Val) (path : Path) : List (Path × Val) :=
  match x with
  | .dict [(k, v)] =>
    if k = .str "Fn::If" then condValues v (path ++ [.int i, k])
    else if k = .str "Ref" ∧ v = .str "AWS::NoValue" then []
    else [(path ++ [.int i], x)]
  | x => [(path ++ [.int i], x)]

/-- template.py:413-439 -/
def listValues : List Val → Nat → Path → List (Path × Val)
  | [], _, _ => []
  | x :: xs, i, path => listElemValues i x path ++ listValues xs (i + 1) path

/-- `matches.extend(r)`: extending with `None` raises -/
def extendOpt (acc : List (Path × Val)) : Option (List (Path × Val)) → PyM (List (Path × Val))
  | some r => .ok (acc ++ r)
  | none => .error (.typeError "'NoneType' object is not iterable")

/-- template.py:395-399: the loop over the branch values -/
def extendAll (rec : Val → Path → PyM (Option (List (Path × Val)))) :
    List (Path × Val) → List (Path × Val) → PyM (List (Path × Val))
  | [], acc => .ok acc
  | (p, v) :: rest, acc =>
    match rec v p with
    | .error e => .error e
    | .ok r =>
      match extendOpt acc r with
      | .error e => .error e
      | .ok acc' => extendAll rec rest acc'

/-- `get_values`, template.py:368-446, after `value = obj.get(key)`; the recursive calls only replace that
value (template.py:397-399). `fuel` is the recursion limit. `none` is Python's `None`. -/
def getValues : Nat → Val → Path → PyM (Option (List (Path × Val)))
  | 0, _, _ => .error .recursionError
  | _ + 1, .none, _ => .ok none
  | n + 1, .dict [(k, v)], path =>
    if k = .str "Fn::If" then
      (extendAll (getValues n) (condValues v (path ++ [k])) []).map some
    else if k = .str "Ref" ∧ v = .str "AWS::NoValue" then .ok (some [])
    else .ok (some [(path, .dict [(k, v)])])
  | _ + 1, .list xs, path => .ok (some (listValues xs 0 path))
  | _ + 1, v, path => .ok (some [(path, v)])

/-! ### Following paths -/

/-- Python list indexing: negative indices count from the end; `IndexError` outside. -/
def listIndex {α : Type} (xs : List α) (i : Int) : PyM α :=
  let j := if i < 0 then i + xs.length else i
  if j < 0 then .error (.indexError "list index out of range")
  else
    match xs[j.toNat]? with
    | some x => .ok x
    | none => .error (.indexError "list index out of range")

/-- `text[k]` on a template value -/
def Val.subscript (text : Val) (k : Key) : PyM Val :=
  match text, k with
  | .dict kvs, k =>
    match dlookup k kvs with
    | some v => .ok v
    | Option.none => .error (.keyError "")
  | .list xs, .int i => listIndex xs i
  | .list _, .str _ => .error (.typeError "list indices must be integers or slices, not str")
  | .str s, .int i => (listIndex s.toList i).map (fun c => .str (String.ofList [c]))
  | .str _, .str _ => .error (.typeError "string indices must be integers")
  | _, _ => .error (.typeError "object is not subscriptable")

/-- `text[k]` on a marked template value. The characters of a string are plain strings. -/
def MVal.subscript (text : MVal) (k : Key) : PyM MVal :=
  match text, k with
  | .dict _ kvs, k =>
    match MVal.find k kvs with
    | some v => .ok v
    | Option.none => .error (.keyError "")
  | .list _ xs, .int i => listIndex xs i
  | .list _ _, .str _ => .error (.typeError "list indices must be integers or slices, not str")
  | .str _ s, .int i => (listIndex s.toList i).map (fun c => .str Option.none (String.ofList [c]))
  | .str _ _, .str _ => .error (.typeError "string indices must be integers")
  | _, _ => .error (.typeError "object is not subscriptable")

/-- `key == path[0]` for a list element: a string or an integer (Python identifies `True` with 1 and `1.0`
with 1; neither carries marks, so comparing them equal or not makes no difference to the result: see
`scanElems`, which stops at the first equal element without a mark; floats are taken as different). -/
def MVal.eqKey : MVal → Key → Bool
  | .str _ s, .str k => s == k
  | .int i, .int k => i == k
  | .bool b, .int k => (if b then 1 else 0) == k
  | _, _ => false

/-- the loop `for key in text: if key == path[0]: result = self._loc(key)` inside `try`, over dict keys
(template.py:483-488): an `AttributeError` ends the loop and keeps the result so far. -/
def scanKeys (k : Key) : List MKey → Option Span → Option Span
  | [], r => r
  | m :: ms, r =>
    if m.key = k then
      match m.mark with
      | some s => scanKeys k ms (some s)
      | none => r
    else scanKeys k ms r

/-- the same loop over list elements -/
def scanElems (k : Key) : List MVal → Option Span → Option Span
  | [], r => r
  | x :: xs, r =>
    if x.eqKey k then
      match x.loc with
      | .ok s => scanElems k xs (some s)
      | .error _ => r
    else scanElems k xs r

/-- the loop over whatever `text` is: characters carry no marks, numbers are not iterable -/
def scanText (text : MVal) (k : Key) : PyM (Option Span) :=
  match text with
  | .dict _ kvs => .ok (scanKeys k (kvs.map Prod.fst) none)
  | .list _ xs => .ok (scanElems k xs none)
  | .str _ _ => .ok none
  | _ => .error (.typeError "object is not iterable")

/-- `get_location_yaml`, template.py:464-502. The tuple of four numbers is always truthy. -/
def getLocation : MVal → Path → PyM (Option Span)
  | text, [] =>
    -- `path[0]` raises IndexError as soon as it is evaluated
    match text with
    | .list _ _ => .error (.indexError "list index out of range")
    | .dict _ [] => .ok none
    | .dict _ _ => .error (.indexError "list index out of range")
    | .str _ s => if s = "" then .ok none else .error (.indexError "list index out of range")
    | _ => .error (.typeError "object is not iterable")
  | text, [k] =>
    match text, k with
    | .list _ xs, .int i =>
      match listIndex xs i with
      | .error e => .error e
      | .ok x =>
        match x.loc with
        | .ok s => .ok (some s)
        | .error _ => .ok none
    | text, k => scanText text k
  | text, k :: k' :: rest =>
    let deeper : PyM (Option Span) :=
      match text.subscript k with
      | .error e => .error e
      | .ok sub => getLocation sub (k' :: rest)
    match deeper with
    | .ok (some s) => .ok (some s)
    | .ok none => scanText text k
    | .error (.keyError _) => scanText text k
    | .error (.typeError _) => scanText text k
    | .error e => .error e

/-- The position of a finding: `matching`, rules/__init__.py:135-149. -/
def matchSpan (template : MVal) (path : Path) : PyM (Int × Int × Int × Int) :=
  match getLocation template path with
  | .error e => .error e
  | .ok (some s) => .ok (s.sl + 1, s.sc + 1, s.el + 1, s.ec + 1)
  | .ok none => .ok (1, 1, 1, 1)

end CfnLint
