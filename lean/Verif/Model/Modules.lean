import Verif.Model.JsonSize
import Verif.Model.GetAtt
import Verif.Model.Graph
import Verif.Model.CheckValue
import Verif.Model.Limits
/-
Model of E5001 (rules/resources/Modules.py), of E3038 (rules/resources/ServerlessTransform.py), of W3002
(rules/resources/properties/PropertiesTemplated.py), of E2529 (rules/resources/lmbd/EventsLogGroupName.py) and of W2510
(rules/parameters/LambdaMemorySize.py). A finding is its path; the messages are not modelled. `fuel` is the recursion limit.
-/
namespace CfnLint

/-! ### Modules -/

/-- the key that is reserved, Modules.py:58 -/
def reservedKey : String := "AWS::CloudFormation::Module"

/-- `str(v).endswith('::MODULE')`, Modules.py:23: the texts of dictionaries and lists end with brackets, those of numbers, booleans and null do not end so either -/
def endsModule : Val → Bool
  | .str s => endsWith s "::MODULE"
  | _ => false

/-- one place with the reserved key, Modules.py:61-63: the path that is reported ends with the value. A path of one key has the value as its second item. -/
def reservedAt (modules : List Key) (pw : Path × Val) : PyM (List (Path × Option Val)) :=
  match pw.1 with
  | [_] =>
    match pw.2 with
    | .list _ => .error (.typeError "unhashable type: 'list_node'")
    | .dict _ => .error (.typeError "unhashable type: 'dict_node'")
    | _ => .ok []
  | k0 :: k1 :: k2 :: _ => .ok (if k1 ∈ modules ∧ k0 = .str "Resources" ∧ k2 = .str "Metadata" then [(pw.1, some pw.2)] else [])
  | _ => .ok []

/-- the resources that are looked at by `get_modules`, template.py:94-96 -/
def rawResources (t : Val) : PyM (List (Key × Val)) :=
  match t.getD "Resources" (.dict []) with
  | .error e => .error e
  | .ok (.dict kvs) => .ok kvs
  | .ok v => if v.truthy then .error (attrErr v "items") else .ok []

/-- `check_metadata_keys`, Modules.py:54-64 -/
def reservedCheck (t globals : Val) : PyM (List (Path × Option Val)) :=
  match rawResources t with
  | .error e => .error e
  | .ok res => collectM (reservedAt (moduleNames res)) (searchDeepKeys reservedKey t globals)

/-- `check_tags`, Modules.py:44-52 -/
def moduleTags (name : Key) (r : List (Key × Val)) : PyM (List (Path × Option Val)) :=
  match ((dlookup (Key.str "Properties") r).getD (.dict [])).getD "Tags" .none with
  | .error e => .error e
  | .ok v => .ok (if v.truthy then [([.str "Resources", name, .str "Properties", .str "Tags"], none)] else [])

/-- `check_policy`, Modules.py:35-42 -/
def modulePolicy (policy : String) (name : Key) (r : List (Key × Val)) : List (Path × Option Val) :=
  if ((dlookup (Key.str policy) r).getD (.dict [])).truthy then [([.str "Resources", name, .str policy], none)] else []

/-- one resource, Modules.py:23-31 -/
def moduleOne (t globals : Val) (kv : Key × Val) : PyM (List (Path × Option Val)) :=
  match kv.2 with
  | .dict r =>
    if r.any (fun kv => endsModule kv.2) then
      match reservedCheck t globals with
      | .error e => .error e
      | .ok a =>
        match moduleTags kv.1 r with
        | .error e => .error e
        | .ok b => .ok (a ++ b ++ modulePolicy "CreationPolicy" kv.1 r ++ modulePolicy "UpdatePolicy" kv.1 r)
    else .ok []
  | _ => .ok []

/-- `match`, Modules.py:17-33 -/
def modulesRule (t globals : Val) : PyM (List (Path × Option Val)) :=
  match getResources t with
  | .error e => .error e
  | .ok rs => collectM (moduleOne t globals) rs

/-! ### The serverless transform -/

/-- ServerlessTransform.py:34-36 -/
def serverlessType : Val → Bool
  | .dict r =>
    match dlookup (Key.str "Type") r with
    | some (.str s) => startsWith s "AWS::Serverless::"
    | _ => false
  | _ => false

/-- ServerlessTransform.py:24-29 -/
def transformsOf : Val → List Val
  | .list xs => xs
  | v => [v]

/-- `match`, ServerlessTransform.py:21-42 -/
def serverlessRule (t : Val) : PyM (List Path) :=
  match t.getD "Transform" (.list []) with
  | .error e => .error e
  | .ok v =>
    if (transformsOf v).any (fun x => x == Val.str "AWS::Serverless-2016-10-31") then .ok []
    else
      match getResources t with
      | .error e => .error e
      | .ok rs => .ok (if rs.any (fun kv => serverlessType kv.2) then [[.str "Transform"]] else [])

/-! ### Properties for packages -/

/-- `check_value`, PropertiesTemplated.py:30-38 -/
def packagedValue (v : Val) (p : Path) : PyM (List Path) :=
  match v with
  | .str _ => .ok [p]
  | _ => .ok []

/-- PropertiesTemplated.py:44-50 -/
def packagedKeys : List (String × String) :=
  [("AWS::ApiGateway::RestApi", "BodyS3Location"), ("AWS::Lambda::Function", "Code"), ("AWS::Lambda::LayerVersion", "Content"),
   ("AWS::ElasticBeanstalk::ApplicationVersion", "SourceBundle"), ("AWS::StepFunctions::StateMachine", "DefinitionS3Location")]

/-- `match_resource_properties`, PropertiesTemplated.py:40-60 -/
def packagedRule (fuel : Nat) (ty : String) (props : Val) (path : Path) : PyM (List Path) :=
  match dlookup ty packagedKeys with
  | none => .ok []
  | some key => checkValue fuel { value := some packagedValue } props key path

/-! ### Subscription filters -/

mutual
/-- `json.dumps(v)`, EventsLogGroupName.py:41 -/
def spaced : Val → List Char
  | .none => ['n', 'u', 'l', 'l']
  | .bool true => ['t', 'r', 'u', 'e']
  | .bool false => ['f', 'a', 'l', 's', 'e']
  | .int i => intText i
  | .flt r => r.toList
  | .str s => encodeText (codes s)
  | .list xs => '[' :: (spacedItems xs ++ [']'])
  | .dict kvs => '{' :: (spacedMembers kvs ++ ['}'])
/-- the items of a list -/
def spacedItems : List Val → List Char
  | [] => []
  | [v] => spaced v
  | v :: w :: vs => spaced v ++ ',' :: ' ' :: spacedItems (w :: vs)
/-- the members of an object -/
def spacedMembers : List (Key × Val) → List Char
  | [] => []
  | [(k, v)] => memberText k ++ ':' :: ' ' :: spaced v
  | (k, v) :: kv :: kvs => memberText k ++ ':' :: ' ' :: (spaced v ++ ',' :: ' ' :: spacedMembers (kv :: kvs))
end

/-- EventsLogGroupName.py:43-46: the name is appended to those of its group -/
def appendName (group : List Char) (name : Key) : List (List Char × List Key) → List (List Char × List Key)
  | [] => [(group, [name])]
  | (g, names) :: gs => if g = group then (g, names ++ [name]) :: gs else (g, names) :: appendName group name gs

/-- `__get_log_group_name_list`, EventsLogGroupName.py:37-47 -/
def logGroups : List (Key × List (Key × Val)) → List (List Char × List Key) → PyM (List (List Char × List Key))
  | [], gs => .ok gs
  | (name, r) :: rs, gs =>
    match ((dlookup (Key.str "Properties") r).getD .none).getD "LogGroupName" .none with
    | .error e => .error e
    | .ok v => logGroups rs (appendName (spaced v) name gs)

/-- EventsLogGroupName.py:28-33 -/
def thirdName (g : List Char × List Key) : List Path :=
  match g.2[2]? with
  | some name => [[.str "Resources", name]]
  | none => []

/-- `check_events_subscription_duplicated`, EventsLogGroupName.py:21-35; the limit is 2, EventsLogGroupName.py:19 -/
def filtersRule (t : Val) : PyM (List Path) :=
  match logGroups (resourcesOfType ["AWS::Logs::SubscriptionFilter"] t) [] with
  | .error e => .error e
  | .ok gs => .ok (gs.flatMap thirdName)

/-! ### The memory of functions -/

/-- `check_lambda_memory_size_ref`, LambdaMemorySize.py:29-46, for parameters that are an object. The names of parameters in the message are joined as texts. -/
def memoryRef (params : List (Key × Val)) (v : Val) (_ : Path) : PyM (List Path) :=
  match v with
  | .list _ => .error (.typeError "unhashable type: 'list_node'")
  | .dict _ => .error (.typeError "unhashable type: 'dict_node'")
  | v =>
    match (toKey v).bind (fun k => dlookup k params) with
    | none => .ok []
    | some p =>
      match p.getD "MinValue" .none with
      | .error e => .error e
      | .ok mn =>
        match p.getD "MaxValue" .none with
        | .error e => .error e
        | .ok mx =>
          match p.getD "AllowedValues" .none with
          | .error e => .error e
          | .ok al =>
            if (!mn.truthy || !mx.truthy) && !al.truthy then
              match v with
              | .str s => .ok [[.str "Parameters", .str s]]
              | _ => .error (.typeError "sequence item 1: expected str instance")
            else .ok []

/-- `check`, LambdaMemorySize.py:48-60, with `get_parameters`, template.py:83-89 -/
def memoryRule (t : Val) (fuel : Nat) (props : Val) (path : Path) : PyM (List Path) :=
  match t.getD "Parameters" (.dict []) with
  | .error e => .error e
  | .ok (.dict params) => checkValue fuel { ref := some (memoryRef params) } props "MemorySize" path
  | .ok _ => checkValue fuel { ref := some (memoryRef []) } props "MemorySize" path

end CfnLint
