import Verif.Model.Template
/-
Model of `src/cfnlint/template.py`: conditions on a path, availability of resources, objects under a
scenario (template.py:584-940).

Simplifications: a dictionary as argument of `Fn::If` raises `KeyError` (Python would accept a dictionary
with the integer keys 0, 1 and 2); `1.0` and `1` are different condition names.
-/
namespace CfnLint

/-- A value used as dictionary key: lists and dicts are unhashable, a Boolean is the integer it equals. -/
def hashName : Val → PyM Val
  | .list _ => .error (.typeError "unhashable type: 'list_node'")
  | .dict _ => .error (.typeError "unhashable type: 'dict_node'")
  | .bool b => .ok (.int (if b then 1 else 0))
  | v => .ok v

/-- a hashable value as a key of the conditions table; null and floats never are -/
def Val.toKey? : Val → Option Key
  | .str s => some (.str s)
  | .int i => some (.int i)
  | _ => Option.none

/-- `{condition name: set of truth values}` -/
abbrev PathConds := List (Val × List Bool)

/-- `if not results.get(k): results[k] = set()` and `results[k] = results[k].union(bs)` -/
def condsAdd (k : Val) (bs : List Bool) (r : PathConds) : PathConds :=
  dset k (bs.foldl (fun s b => if b ∈ s then s else s ++ [b]) ((dlookup k r).getD [])) r

/-- `get_condition_name`, template.py:900-915, with `con_path` given -/
def addCondName (value : Val) (conPath : List Bool) (r : PathConds) : PyM PathConds :=
  match value with
  | .list [c, _, _] =>
    match hashName c with
    | .error e => .error e
    | .ok k => .ok (condsAdd k conPath r)
  | _ => .ok r

/-- merging the results of the child, template.py:932-935 -/
def condsMerge (child r : PathConds) : PathConds :=
  child.foldl (fun acc kv => condsAdd kv.1 kv.2 acc) r

/-- template.py:918-926: the condition at the head of the path -/
def headCond (onlyLast : Bool) (text : Val) (k : Key) (rest : Path) : PyM PathConds :=
  if k = .str "Fn::If" ∧ ((rest = [] ∧ onlyLast = true) ∨ onlyLast = false) then
    match text.getD "Fn::If" .none with
    | .error e => .error e
    | .ok c =>
      match rest with
      | [] => addCondName c [true, false] []
      | k1 :: _ =>
        if k1 = .int 1 then addCondName c [true] []
        else if k1 = .int 2 then addCondName c [false] []
        else .ok []
  else .ok []

/-- `path[0] in FUNCTIONS and path[0] != 'Fn::If'` -/
def otherFunction : Key → Bool
  | .str s => decide (s ∈ functionNames) && s != "Fn::If"
  | .int _ => false

/-- `_get_conditions_from_path`, template.py:886-940. Only `KeyError` is caught; `path[0]` raises for the
empty path. -/
def ifConds (inclIf onlyLast : Bool) : Val → Path → PyM PathConds
  | _, [] => .error (.indexError "list index out of range")
  | text, [k] =>
    match headCond onlyLast text k [] with
    | .error e => .error e
    | .ok r => .ok r
  | text, k :: k' :: rest =>
    match headCond onlyLast text k (k' :: rest) with
    | .error e => .error e
    | .ok r =>
      if otherFunction k && !inclIf then .ok r
      else
        match text.subscript k with
        | .error (.keyError _) => .ok r
        | .error e => .error e
        | .ok sub =>
          match ifConds inclIf onlyLast sub (k' :: rest) with
          | .error (.keyError _) => .ok r
          | .error e => .error e
          | .ok child => .ok (condsMerge child r)

/-- `v.get(k, default)` with any key -/
def Val.getK (v : Val) (k : Key) (dflt : Val) : PyM Val :=
  match v with
  | .dict kvs => .ok ((dlookup k kvs).getD dflt)
  | v => .error (attrErr v "get")

/-- `text.get(section, {}).get(name, {}).get('Condition')` -/
def entryCondition (text : Val) (section_ : String) (name : Key) : PyM Val :=
  match text.getD section_ (.dict []) with
  | .error e => .error e
  | .ok s =>
    match s.getK name (.dict []) with
    | .error e => .error e
    | .ok r => r.getD "Condition" .none

/-- adding the condition of the entry, template.py:879-882 -/
def addEntryCond (cond : Val) (r : PathConds) : PyM PathConds :=
  if cond.truthy then
    match hashName cond with
    | .error e => .error e
    | .ok k => .ok (condsAdd k [true] r)
  else .ok r

/-- `get_conditions_from_path`, template.py:862-884, with the default arguments -/
def pathConds (text : Val) (path : Path) : PyM PathConds :=
  match ifConds true false text path with
  | .error e => .error e
  | .ok r =>
    match path with
    | .str s :: name :: _ =>
      if s = "Resources" ∨ s = "Outputs" then
        match entryCondition text s name with
        | .error e => .error e
        | .ok c => addEntryCond c r
      else .ok r
    | _ => .ok r

/-- `get_scenarios` for names that are any hashable values: an unknown name gives no scenarios -/
def scenariosFor (enum : String → List String → List String) (tb : CondTable) (names : List Val) :
    PyM (List Scenario) :=
  match names.mapM Val.toKey? with
  | some ks => getScenarios enum tb ks
  | none => .ok []

/-- `scenario.get(name)`; `None` when absent or not determined -/
def Scenario.value (sc : Scenario) (name : Val) : Option Bool :=
  match name.toKey? with
  | some k => (dlookup k sc).getD none
  | none => none

/-- `scenario.get(path_condition) in path_values` -/
def holdsIn (sc : Scenario) (cv : Val × List Bool) : Bool :=
  match sc.value cv.1 with
  | some b => b ∈ cv.2
  | none => false

/-- the count of template.py:612-615 -/
def countHolding (sc : Scenario) (conds : PathConds) : Nat := (conds.filter (holdsIn sc)).length

/-- `is_resource_available`, template.py:584-621 -/
def isResourceAvailable (enum : String → List String → List String) (tb : CondTable) (text : Val)
    (path : Path) (resource : Key) : PyM (List Scenario) :=
  match pathConds text path with
  | .error e => .error e
  | .ok conds =>
    match entryCondition text "Resources" resource with
    | .error e => .error e
    | .ok rc =>
      if rc.truthy then
        match hashName rc with
        | .error e => .error e
        | .ok name =>
          if ((dlookup name conds).getD []).isEmpty then
            match scenariosFor enum tb ((dset name [] conds).map Prod.fst) with
            | .error e => .error e
            | .ok scs =>
              .ok (scs.filter (fun sc => !(sc.value name == some true) &&
                countHolding sc (dset name [] conds) == conds.length))
          else .ok []
      else .ok []

/-! ### Objects under a scenario -/

/-- `scenario.get(c, None)` for the condition operand of an `Fn::If` -/
def lookupBranch (sc : Scenario) (c : Val) : PyM (Option Bool) :=
  match hashName c with
  | .error e => .error e
  | .ok n => .ok (sc.value n)

/-- `len(if_values)` is 3 and its three members; `none` when the length is different -/
def ifArgs : Val → PyM (Option (Val × Val × Val))
  | .list [c, a, b] => .ok (some (c, a, b))
  | .list _ => .ok none
  | .str s =>
    match s.toList with
    | [c, a, b] => .ok (some (.str (String.ofList [c]), .str (String.ofList [a]), .str (String.ofList [b])))
    | _ => .ok none
  | .dict kvs => if kvs.length = 3 then .error (.keyError "0") else .ok none
  | _ => .error (.typeError "object has no len()")

mutual
/-- the inner `get_value` of `get_value_from_scenario`, template.py:686-713. Python's `None` is `.none`. The
value of an item is computed twice with the same result. -/
def valueIn (sc : Scenario) : Val → PyM Val
  | .dict [(k, v)] =>
    if k = .str "Fn::If" then valueIf sc (.dict [(k, v)]) v
    else if k = .str "Ref" ∧ v = .str "AWS::NoValue" then .ok .none
    else .ok (.dict [(k, v)])
  | .list xs =>
    match valuesIn sc xs with
    | .error e => .error e
    | .ok ys => .ok (.list ys)
  | v => .ok v
/-- template.py:691-697; `whole` is the value returned when the `Fn::If` is not resolved -/
def valueIf (sc : Scenario) (whole : Val) : Val → PyM Val
  | .list [c, a, b] =>
    match lookupBranch sc c with
    | .error e => .error e
    | .ok (some true) => valueIn sc a
    | .ok (some false) => valueIn sc b
    | .ok none => .ok whole
  | .str s =>
    match s.toList with
    | [c, a, b] =>
      .ok (match sc.value (.str (String.ofList [c])) with
        | some true => .str (String.ofList [a])
        | some false => .str (String.ofList [b])
        | none => whole)
    | _ => .ok whole
  | v =>
    match ifArgs v with
    | .error e => .error e
    | .ok _ => .ok whole
/-- the loop over the items of a list: `None` is dropped -/
def valuesIn (sc : Scenario) : List Val → PyM (List Val)
  | [] => .ok []
  | x :: xs =>
    match valueIn sc x with
    | .error e => .error e
    | .ok v =>
      match valuesIn sc xs with
      | .error e => .error e
      | .ok vs => .ok (if v = .none then vs else v :: vs)
end

/-- the loop over the properties, template.py:725-728 and 730-733 -/
def propsIn (sc : Scenario) : List (Key × Val) → List (Key × Val) → PyM (List (Key × Val))
  | [], acc => .ok acc
  | (k, v) :: rest, acc =>
    match valueIn sc v with
    | .error e => .error e
    | .ok w => propsIn sc rest (if w = .none then acc else dset k w acc)

/-- `get_value_from_scenario`, template.py:681-733, for objects (`obj.start_mark` raises for plain
values). -/
def valueFromScenario (sc : Scenario) (obj : Val) : PyM Val :=
  match obj with
  | .dict [(k, v)] =>
    if k = .str "Fn::If" ∧ v.truthy = true then
      match valueIn sc (.dict [(k, v)]) with
      | .error e => .error e
      | .ok w => .ok (if w = .none then .dict [] else w)
    else
      match propsIn sc [(k, v)] [] with
      | .error e => .error e
      | .ok l => .ok (.dict l)
  | .dict kvs =>
    match propsIn sc kvs [] with
    | .error e => .error e
    | .ok l => .ok (.dict l)
  | _ => .ok (.dict [])

mutual
/-- the inner `get_value` of `get_object_without_nested_conditions`, template.py:643-671 -/
def deepIn (sc : Scenario) : Val → PyM Val
  | .dict [(k, v)] =>
    if k = .str "Fn::If" then deepIf sc k v
    else if k = .str "Ref" ∧ v = .str "AWS::NoValue" then .ok .none
    else
      match deepIn sc v with
      | .error e => .error e
      | .ok w => .ok (.dict [(k, w)])
  | .dict kvs =>
    match deepEntries sc kvs with
    | .error e => .error e
    | .ok l => .ok (.dict l)
  | .list xs =>
    match deepItems sc xs with
    | .error e => .error e
    | .ok ys => .ok (.list ys)
  | v => .ok v
/-- template.py:645-652; an unresolved `Fn::If` is treated like any object -/
def deepIf (sc : Scenario) (k : Key) : Val → PyM Val
  | .list [c, a, b] =>
    match lookupBranch sc c with
    | .error e => .error e
    | .ok (some true) => deepIn sc a
    | .ok (some false) => deepIn sc b
    | .ok none =>
      match deepItems sc [c, a, b] with
      | .error e => .error e
      | .ok ys => .ok (.dict [(k, .list ys)])
  | .list xs =>
    match deepItems sc xs with
    | .error e => .error e
    | .ok ys => .ok (.dict [(k, .list ys)])
  | .str s =>
    match s.toList with
    | [c, a, b] =>
      .ok (match sc.value (.str (String.ofList [c])) with
        | some true => .str (String.ofList [a])
        | some false => .str (String.ofList [b])
        | none => .dict [(k, .str s)])
    | _ => .ok (.dict [(k, .str s)])
  | .dict kvs =>
    if kvs.length = 3 then .error (.keyError "0")
    else
      match deepIn sc (.dict kvs) with
      | .error e => .error e
      | .ok w => .ok (.dict [(k, w)])
  | _ => .error (.typeError "object has no len()")
def deepEntries (sc : Scenario) : List (Key × Val) → PyM (List (Key × Val))
  | [] => .ok []
  | (k, v) :: rest =>
    match deepIn sc v with
    | .error e => .error e
    | .ok w =>
      match deepEntries sc rest with
      | .error e => .error e
      | .ok l => .ok ((k, w) :: l)
def deepItems (sc : Scenario) : List Val → PyM (List Val)
  | [] => .ok []
  | x :: xs =>
    match deepIn sc x with
    | .error e => .error e
    | .ok v =>
      match deepItems sc xs with
      | .error e => .error e
      | .ok vs => .ok (if v = .none then vs else v :: vs)
end

/-- the loop over the scenarios, template.py:671-674 -/
def deepAll (obj : Val) : List Scenario → PyM (List (Option Scenario × Val))
  | [] => .ok []
  | sc :: rest =>
    match deepIn sc obj with
    | .error e => .error e
    | .ok v =>
      match deepAll obj rest with
      | .error e => .error e
      | .ok l => .ok ((some sc, v) :: l)

/-- `get_object_without_nested_conditions`, template.py:623-676; `scenarios` is the result of
`get_condition_scenarios_below_path(path)` -/
def objectsDeep (scenarios : List Scenario) (obj : Val) : PyM (List (Option Scenario × Val)) :=
  if !(obj.isDict || obj.isList) then .ok []
  else if scenarios.isEmpty then
    (if obj = .dict [(.str "Ref", .str "AWS::NoValue")] then .ok [] else .ok [(none, obj)])
  else deepAll obj scenarios

/-- the loop of template.py:789-795: empty results are dropped -/
def objectsAll (obj : Val) : List Scenario → PyM (List (Option Scenario × Val))
  | [] => .ok []
  | sc :: rest =>
    match valueFromScenario sc obj with
    | .error e => .error e
    | .ok v =>
      match objectsAll obj rest with
      | .error e => .error e
      | .ok l => .ok (if v.truthy then (some sc, v) :: l else l)

/-- `get_object_without_conditions`, template.py:735-797, after the scenarios have been determined -/
def objectsWithout (scenarios : List Scenario) (obj : Val) : PyM (List (Option Scenario × Val)) :=
  if !obj.isDict then .ok []
  else if scenarios.isEmpty then
    (if obj = .dict [(.str "Ref", .str "AWS::NoValue")] then .ok [] else .ok [(none, obj)])
  else objectsAll obj scenarios

mutual
/-- `get_conditions_from_property`, template.py:823-839 -/
def propConds : Val → List String
  | .dict [(k, v)] => if k = .str "Fn::If" then propIfConds v else []
  | .list xs => propListConds xs
  | _ => []
def propIfConds : Val → List String
  | .list [.str c, a, b] => c :: (propConds a ++ propConds b)
  | _ => []
def propListConds : List Val → List String
  | [] => []
  | x :: xs => propConds x ++ propListConds xs
end

/-- the entries of the branches of a root `Fn::If`, template.py:851-855 -/
def branchConds : List Val → List String
  | [] => []
  | .dict kvs :: rest =>
    kvs.flatMap (fun kv => if kv.1 = .str "Fn::If" then propConds (.dict [kv]) else []) ++ branchConds rest
  | _ :: rest => branchConds rest

/-- the names collected by `get_conditions_scenarios_from_object`, template.py:841-858, for an object; names
are strings (others raise or give no scenarios) -/
def objectConds : Val → List String
  | .dict [(k, v)] =>
    if k = .str "Fn::If" then
      match v with
      | .list [.str c, a, b] => c :: branchConds [a, b]
      | _ => propConds v
    else propConds v
  | .dict kvs => kvs.flatMap (fun kv => propConds kv.2)
  | _ => []

/-- `get_object_without_conditions`, template.py:735-797, without property names, for an object whose
conditions are named by strings; `order` is the order in which Python lists the set of names (template.py:860) -/
def objectWithoutConditions (enum : String → List String → List String) (order : List String → List String)
    (tb : CondTable) (obj : Val) : PyM (List (Option Scenario × Val)) :=
  match getScenarios enum tb ((order (objectConds obj)).map Key.str) with
  | .error e => .error e
  | .ok scs => objectsWithout scs obj

end CfnLint
