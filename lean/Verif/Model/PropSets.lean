import Verif.Model.Scenario
import Verif.Model.Limits
import Verif.Model.NodeOps
import Verif.Model.Refs
import Verif.Model.Graph
/-
Model of the rules about which properties an object has: E3003 (rules/resources/properties/Required.py), E2522
(AtLeastOne.py), E2523 (OnlyOne.py), E2520 (Exclusive.py) and E2521 (Inclusive.py).

What the specification files say about a type is given as a list of names, of groups of names or of names with
other names. The text of a message is not modelled; a report carries what is inserted in it.
-/
namespace CfnLint

/-- `v.items_safe(path)`, decode/node.py:154-178 and 216-226; other values have no such method -/
def itemsSafeOf (v : Val) (path : Path) : PyM (List (Val × Path)) :=
  match v with
  | .dict kvs => .ok (itemsSafe [] kvs path)
  | .list xs => .ok (listItemsSafe [] xs 0 path)
  | v => .error (attrErr v "items_safe")

/-! ### E3003 -/

/-- `_get_required_attrs_specs`, Required.py:38-44 -/
def requiredAttrs (spec : Val) : PyM (List String) :=
  match spec.getD "Properties" (.dict []) with
  | .error e => .error e
  | .ok ps =>
    match itemsOf ps with
    | .error e => .error e
    | .ok items => collectM (fun kv =>
        match kv.2.getD "Required" (.bool false) with
        | .error e => .error e
        | .ok r => .ok (if r.truthy then (match kv.1 with | .str s => [s] | .int _ => []) else [])) items

/-- the inner loop of `check_obj`, Required.py:50-57: the place and the missing property -/
def missingIn (required : List String) (r : Val × Path) : PyM (List (Path × String)) :=
  collectM (fun name =>
    match pyIn name r.1 with
    | .error e => .error e
    | .ok true => .ok []
    | .ok false => .ok [(r.2, name)]) required

/-- `check_obj`, Required.py:46-59 -/
def requiredCheck (required : List String) (obj : Val) (path : Path) : PyM (List (Path × String)) :=
  match itemsSafeOf obj path with
  | .error e => .error e
  | .ok rs => collectM (missingIn required) rs

/-- `match_resource_properties`, Required.py:61-77, and `match_resource_sub_properties`, 79-90, which has no test
for null: `top` says which -/
def requiredMatch (top : Bool) (spec : Val) (obj : Val) (path : Path) : PyM (List (Path × String)) :=
  if top = true ∧ obj = .none then .ok []
  else
    match requiredAttrs spec with
    | .error e => .error e
    | .ok required => requiredCheck required obj path

/-- the body of the loop of `match`, Required.py:96-107; `specs` is `self.resourcetypes` -/
def requiredCustomAt (specs : List (String × Val)) (kv : Key × Val) : PyM (List (Path × String)) :=
  match kv.2 with
  | .dict r =>
    match dlookup (Key.str "Properties") r, dlookup (Key.str "Type") r with
    | some props, some (.str ty) =>
      if "Custom::".toList <+: ty.toList ∧ dhas ty specs = false then
        match requiredAttrs ((dlookup "AWS::CloudFormation::CustomResource" specs).getD .none) with
        | .error e => .error e
        | .ok required => requiredCheck required props [.str "Resources", kv.1, .str "Properties"]
      else .ok []
    | some _, some ty => .error (attrErr ty "startswith")
    | _, _ => .ok []
  | _ => .ok []

/-- `match`, Required.py:92-109 -/
def requiredCustom (specs : List (String × Val)) (t : Val) : PyM (List (Path × String)) :=
  match getResources t with
  | .error e => .error e
  | .ok rs => collectM (requiredCustomAt specs) rs

/-! ### E2522 and E2523 -/

/-- `o` of `get_object_without_conditions`, template.py:766-772: the named properties, null when absent -/
def namedObject (names : List String) (obj : Val) : PyM Val :=
  if names.isEmpty then .ok obj
  else
    match obj with
    | .dict kvs => .ok (.dict (names.foldl (fun o n => dset (Key.str n) ((dlookup (Key.str n) kvs).getD .none) o) []))
    | v => .error (attrErr v "get")

/-- `get_object_without_conditions`, template.py:735-797, with property names -/
def objectWithoutNamed (enum : String → List String → List String) (order : List String → List String)
    (tb : CondTable) (obj : Val) (names : List String) : PyM (List (Option Scenario × Val)) :=
  match namedObject names obj with
  | .error e => .error e
  | .ok o =>
    match getScenarios enum tb ((order (objectConds o)).map Key.str) with
    | .error e => .error e
    | .ok scs => objectsWithout scs obj

/-- what a report of these rules says: its path, the names, the scenario and the place -/
structure SetReport where
  path : Path
  names : List String
  scenario : Option Scenario
  place : Path
deriving DecidableEq

/-- the counting loop, AtLeastOne.py:40-43 and OnlyOne.py:40-43 -/
def countIn (group : List String) (obj : Val) : PyM Nat :=
  match group with
  | [] => .ok 0
  | n :: rest =>
    match pyIn n obj with
    | .error e => .error e
    | .ok b =>
      match countIn rest obj with
      | .error e => .error e
      | .ok c => .ok ((if b then 1 else 0) + c)

/-- the loop over the property sets, AtLeastOne.py:39-61 and OnlyOne.py:39-61; `bad` is the test of the count -/
def countSets (bad : Nat → Bool) (path : Path) (group : List String) (place : Path)
    (sets : List (Option Scenario × Val)) : PyM (List SetReport) :=
  collectM (fun s =>
    match countIn group s.2 with
    | .error e => .error e
    | .ok c => .ok (if bad c then [⟨path, group, s.1, place⟩] else [])) sets

/-- `check`, AtLeastOne.py:32-63 and OnlyOne.py:32-63 -/
def countCheck (enum : String → List String → List String) (order : List String → List String)
    (tb : CondTable) (bad : Nat → Bool) (props : Val) (groups : List (List String)) (path : Path) :
    PyM (List SetReport) :=
  collectM (fun group =>
    match itemsSafeOf props path with
    | .error e => .error e
    | .ok rs => collectM (fun r =>
        match objectWithoutNamed enum order tb r.1 group with
        | .error e => .error e
        | .ok sets => countSets bad path group r.2 sets) rs) groups

/-- AtLeastOne.py:45 -/
def noneOf (c : Nat) : Bool := c == 0

/-- OnlyOne.py:45 -/
def notOneOf (c : Nat) : Bool := c != 1

/-- `check` of E2522, AtLeastOne.py:32-63 -/
def atLeastOneCheck (enum : String → List String → List String) (order : List String → List String)
    (tb : CondTable) (props : Val) (groups : List (List String)) (path : Path) : PyM (List SetReport) :=
  countCheck enum order tb noneOf props groups path

/-- `check` of E2523, OnlyOne.py:32-63 -/
def onlyOneCheck (enum : String → List String → List String) (order : List String → List String)
    (tb : CondTable) (props : Val) (groups : List (List String)) (path : Path) : PyM (List SetReport) :=
  countCheck enum order tb notOneOf props groups path

/-! ### E2520 and E2521 -/

/-- `property_set['Object'].clean()`; values other than objects have no such method -/
def cleanOf (v : Val) : PyM (List (Key × Val)) :=
  match v with
  | .dict kvs => .ok (cleanLoop kvs [])
  | v => .error (attrErr v "clean")

/-- a report of E2520 or E2521: the property, the other property, the scenario -/
structure PairReport where
  path : Path
  prop : Key
  other : String
  scenario : Option Scenario
deriving DecidableEq

/-- the loops over the properties of one object, Exclusive.py:37-55 and Inclusive.py:39-57; `present` says whether
a present or an absent other property is reported -/
def pairSet (present : Bool) (table : List (String × List String)) (report : Key → Path) (sc : Option Scenario)
    (obj : List (Key × Val)) : List PairReport :=
  obj.flatMap (fun kv =>
    match kv.1 with
    | .int _ => []
    | .str s =>
      match dlookup s table with
      | none => []
      | some others => (others.filter (fun o => dhas (Key.str o) obj == present)).map
          (fun o => ⟨report kv.1, kv.1, o, sc⟩))

/-- the loop over the property sets -/
def pairSets (present : Bool) (table : List (String × List String)) (report : Key → Path)
    (sets : List (Option Scenario × Val)) : PyM (List PairReport) :=
  collectM (fun s =>
    match cleanOf s.2 with
    | .error e => .error e
    | .ok obj => .ok (pairSet present table report s.1 obj)) sets

/-- `check` of E2520, Exclusive.py:30-57 -/
def exclusiveCheck (enum : String → List String → List String) (order : List String → List String)
    (tb : CondTable) (props : Val) (table : List (String × List String)) (path : Path) : PyM (List PairReport) :=
  match objectWithoutConditions enum order tb props with
  | .error e => .error e
  | .ok sets => pairSets true table (fun k => path ++ [k]) sets

/-- `check` of E2521, Inclusive.py:30-59 -/
def inclusiveCheck (enum : String → List String → List String) (order : List String → List String)
    (tb : CondTable) (props : Val) (table : List (String × List String)) (path : Path) : PyM (List PairReport) :=
  if props.truthy = false then .ok []
  else
    match objectWithoutConditions enum order tb props with
    | .error e => .error e
    | .ok sets => pairSets false table (fun _ => path) sets

end CfnLint
