import Verif.Model.CondRules
import Verif.Model.Refs
/-
Model of the rules about the form of conditions: E8001 (rules/conditions/Configuration.py), E8003 (Equals.py), E8004
(And.py), E8005 (Not.py) and E8006 (Or.py) with rules/conditions/common.py, and of the lookup of `RegexDict`
(helpers.py:204-225). A finding is the path it is reported at; the messages are not modelled.

`re.match(pattern, string)` is the parameter `rx`, as in Model/Refs.
-/
namespace CfnLint

/-! ### RegexDict -/

/-- the keys that match, helpers.py:207; a key or an item that is not a string raises -/
def matchingKeys (rx : String → String → PyM Bool) : List Key → Val → PyM (List String)
  | [], _ => .ok []
  | k :: ks, item =>
    match k, item with
    | .str p, .str s =>
      match rx p s with
      | .error e => .error e
      | .ok b =>
        match matchingKeys rx ks item with
        | .error e => .error e
        | .ok l => .ok (if b then p :: l else l)
    | _, _ => .error (.typeError "expected string or bytes-like object")

/-- `sorted(keys, key=len)[-1]`, helpers.py:210: of the longest keys the last -/
def longestKey : List String → Option String
  | [] => none
  | k :: ks =>
    match longestKey ks with
    | none => some k
    | some l => if k.toList.length ≤ l.toList.length then some l else some k

/-- `RegexDict.get`, helpers.py:206-211 and 219-223 -/
def regexGet (rx : String → String → PyM Bool) (tab : RefTable) (item : Val) : PyM (Option (Val × String)) :=
  match matchingKeys rx (tab.map Prod.fst) item with
  | .error e => .error e
  | .ok ks =>
    match longestKey ks with
    | none => .ok none
    | some k => .ok (dlookup (Key.str k) tab)

/-! ### The rules -/

/-- Configuration.py:17-23 and common.py:35 (in another order) -/
def conditionKeys : List String := ["Condition", "Fn::And", "Fn::Equals", "Fn::Not", "Fn::Or"]

/-- `k in [...]` for a key -/
def isKeyIn (k : Key) (l : List String) : Bool :=
  match k with
  | .str s => decide (s ∈ l)
  | .int _ => false

/-- the body of the loop, Configuration.py:31-51 -/
def configurationOne (c : Key × Val) : List Path :=
  match c.2 with
  | .dict kvs =>
    if kvs.length ≠ 1 then [[.str "Conditions", c.1]]
    else (kvs.filter (fun kv => !isKeyIn kv.1 conditionKeys)).map (fun kv => [.str "Conditions", c.1, kv.1])
  | _ => [[.str "Conditions", c.1]]

/-- rule E8001, Configuration.py:25-53 -/
def configurationRule (t : Val) : PyM (List Path) :=
  match sectionItems t "Conditions" with
  | .error e => .error e
  | .ok cs => .ok (cs.flatMap configurationOne)

/-- an element of the list, common.py:32-55 -/
def conditionElement (path : Path) (e : Val × Nat) : List Path :=
  match e.1 with
  | .dict kvs =>
    if kvs.length = 1 then
      (kvs.filter (fun kv => !isKeyIn kv.1 conditionKeys)).map (fun kv => path ++ [.int e.2, kv.1])
    else [path ++ [.int e.2]]
  | _ => [path ++ [.int e.2]]

/-- one call of the function, common.py:13-55 -/
def conditionListOne (fn : String) (f : Path × Val) : List Path :=
  if inConditions f.1 then
    match f.2 with
    | .list xs =>
      if fn = "Fn::Not" ∧ xs.length ≠ 1 then [f.1]
      else if fn ≠ "Fn::Not" ∧ ¬ (2 ≤ xs.length ∧ xs.length ≤ 10) then [f.1]
      else xs.zipIdx.flatMap (conditionElement f.1)
    | _ => [f.1]
  else []

/-- `check_condition_list`, common.py:8-56: the rules E8004, E8005 and E8006 -/
def conditionListRule (fn : String) (t globals : Val) : List Path :=
  (searchDeepKeys fn t globals).flatMap (conditionListOne fn)

/-- `VALID_PARAMETER_TYPES_LIST`, helpers.py:175-200 -/
def listParameterTypes : List String :=
  ["CommaDelimitedList", "List<AWS::EC2::AvailabilityZone::Name>", "List<AWS::EC2::Image::Id>",
   "List<AWS::EC2::Instance::Id>", "List<AWS::EC2::SecurityGroup::GroupName>", "List<AWS::EC2::SecurityGroup::Id>",
   "List<AWS::EC2::Subnet::Id>", "List<AWS::EC2::VPC::Id>", "List<AWS::EC2::Volume::Id>",
   "List<AWS::Route53::HostedZone::Id>", "List<Number>", "List<String>",
   "AWS::SSM::Parameter::Value<CommaDelimitedList>",
   "AWS::SSM::Parameter::Value<List<AWS::EC2::AvailabilityZone::Name>>",
   "AWS::SSM::Parameter::Value<List<AWS::EC2::Image::Id>>",
   "AWS::SSM::Parameter::Value<List<AWS::EC2::Instance::Id>>",
   "AWS::SSM::Parameter::Value<List<AWS::EC2::SecurityGroup::GroupName>>",
   "AWS::SSM::Parameter::Value<List<AWS::EC2::SecurityGroup::Id>>",
   "AWS::SSM::Parameter::Value<List<AWS::EC2::Subnet::Id>>", "AWS::SSM::Parameter::Value<List<AWS::EC2::VPC::Id>>",
   "AWS::SSM::Parameter::Value<List<AWS::EC2::Volume::Id>>",
   "AWS::SSM::Parameter::Value<List<AWS::Route53::HostedZone::Id>>", "AWS::SSM::Parameter::Value<List<Number>>",
   "AWS::SSM::Parameter::Value<List<String>>"]

/-- Equals.py:19-20 -/
def equalsFunctions : List String := ["Ref", "Fn::FindInMap", "Fn::Sub", "Fn::Join", "Fn::Select", "Fn::Split"]

/-- `valid_ref.get('From') == 'Parameters' and valid_ref.get('Type') in VALID_PARAMETER_TYPES_LIST`, Equals.py:37-39 -/
def isListRef : Option (Val × String) → Bool
  | some (.str ty, from_) => from_ == "Parameters" && decide (ty ∈ listParameterTypes)
  | _ => false

/-- `_check_equal_values`, Equals.py:23-49 -/
def equalsElement (rx : String → String → PyM Bool) (tab : RefTable) (element : List (Key × Val)) (path : Path) :
    PyM (List Path) :=
  match element with
  | [(k, v)] =>
    if isKeyIn k equalsFunctions = false then .ok [path ++ [k]]
    else if k = .str "Ref" then
      match regexGet rx tab v with
      | .error e => .error e
      | .ok r => .ok (if isListRef r then [path] else [])
    else .ok []
  | _ => .ok [path]

/-- the body of the inner loop, Equals.py:75-86 -/
def equalsOperand (rx : String → String → PyM Bool) (tab : RefTable) (path : Path) (e : Val × Nat) : PyM (List Path) :=
  match e.1 with
  | .dict kvs => equalsElement rx tab kvs (path ++ [.int e.2])
  | .list _ => .ok [path ++ [.int e.2]]
  | .none => .ok [path ++ [.int e.2]]
  | _ => .ok []

/-- the body of the loop, Equals.py:57-86 -/
def equalsOne (rx : String → String → PyM Bool) (tab : RefTable) (f : Path × Val) : PyM (List Path) :=
  if inConditions f.1 then
    match f.2 with
    | .list xs => if xs.length ≠ 2 then .ok [f.1] else collectM (equalsOperand rx tab f.1) xs.zipIdx
    | _ => .ok [f.1]
  else .ok []

/-- rule E8003, Equals.py:51-86 -/
def equalsRule (rx : String → String → PyM Bool) (t globals : Val) : PyM (List Path) :=
  match validRefs t with
  | .error e => .error e
  | .ok tab => collectM (equalsOne rx tab) (searchDeepKeys "Fn::Equals" t globals)

end CfnLint
