import Verif.Model.CheckValue
import Verif.Model.NodeOps
import Verif.Model.Graph
/-
Model of E2507 (rules/resources/iam/Policy.py). A finding is the kind of its message and its path. Dates do not exist among the values modelled, so
that a version is valid if it is one of two texts. `decode` is `json.loads` followed by `convert_dict`; it gives nothing where an exception is raised.
-/
namespace CfnLint

/-- the messages of the rule -/
inductive IamFault where
  | notJson | key (k : Key) | version | notList | statementKey (k : Key) | noEffect | effect | noAction | principal | noPrincipal | noResource
deriving DecidableEq, Repr

abbrev IamFinding := IamFault × Path

/-- `valid_keys`, Policy.py:52-56 -/
def policyKeys : List Key := [.str "Version", .str "Id", .str "Statement"]

/-- the texts of `valid_versions`, Policy.py:57 -/
def policyVersions : List Val := [.str "2012-10-17", .str "2008-10-17"]

/-- `statement_valid_keys`, Policy.py:109-119 -/
def statementKeys : List Key :=
  [.str "Action", .str "Condition", .str "Effect", .str "NotAction", .str "NotPrincipal", .str "NotResource", .str "Principal", .str "Resource", .str "Sid"]

/-- `key in statement` -/
def hasKey (kvs : List (Key × Val)) (k : String) : Bool := (dlookup (Key.str k) kvs).isSome

/-- the findings for the value of `Effect`, Policy.py:131-136 -/
def effectFaults (branch : Path) (vals : List (Val × Path)) : List IamFinding :=
  vals.flatMap (fun vp =>
    match vp.1 with
    | .str s => if s = "Allow" ∨ s = "Deny" then [] else [(.effect, branch ++ vp.2)]
    | _ => [])

/-- `_check_policy_statement`, Policy.py:106-157; `items` of what is no object raises -/
def policyStatement (identity exception : Bool) (st : Val) (branch : Path) : PyM (List IamFinding) :=
  match st with
  | .dict kvs =>
    match getSafe kvs (.str "Effect") .none [] [] with
    | .error e => .error e
    | .ok effects =>
      .ok (kvs.flatMap (fun kv => if kv.1 ∈ statementKeys then [] else [(.statementKey kv.1, branch ++ [kv.1])]) ++
        (if hasKey kvs "Effect" then effectFaults branch effects else [(.noEffect, branch)]) ++
        (if hasKey kvs "Action" || hasKey kvs "NotAction" then [] else [(.noAction, branch)]) ++
        (if identity then
          if hasKey kvs "Principal" || hasKey kvs "NotPrincipal" then [(.principal, branch)] else []
        else
          if hasKey kvs "Principal" || hasKey kvs "NotPrincipal" then [] else [(.noPrincipal, branch ++ [.str "Principal"])]) ++
        (if exception then [] else if hasKey kvs "Resource" || hasKey kvs "NotResource" then [] else [(.noResource, branch)]))
  | _ => .error (.templateAttributeError "items is invalid")

/-- the statements, Policy.py:85-103 -/
def policyStatements (identity exception : Bool) (v : Val) (p : Path) : PyM (List IamFinding) :=
  match v with
  | .list xs => collectM (fun sp : Val × Path => policyStatement identity exception sp.1 sp.2) (listItemsSafe [.dict] xs 0 (p ++ [.str "Statement"]))
  | .dict kvs => collectM (fun sp : Val × Path => policyStatement identity exception sp.1 sp.2) (itemsSafe [] kvs (p ++ [.str "Statement"]))
  | _ => .ok [(.notList, p ++ [.str "Statement"])]

/-- an entry of the document, Policy.py:74-103 -/
def policyEntry (identity exception : Bool) (path p : Path) (kv : Key × Val) : PyM (List IamFinding) :=
  let bad := if kv.1 ∈ policyKeys then [] else [(IamFault.key kv.1, path ++ p ++ [kv.1])]
  let version := if kv.1 = .str "Version" ∧ kv.2 ∉ policyVersions then [(IamFault.version, p ++ [kv.1])] else []
  if kv.1 = .str "Statement" then
    match policyStatements identity exception kv.2 p with
    | .error e => .error e
    | .ok l => .ok (bad ++ version ++ l)
  else .ok (bad ++ version)

/-- the entries of the documents a document may be, Policy.py:73-104 -/
def policyObject (identity exception : Bool) (kvs : List (Key × Val)) (path : Path) : PyM (List IamFinding) :=
  collectM (fun dp : Val × Path =>
    match dp.1 with
    | .dict es => collectM (policyEntry identity exception path dp.2) es
    | _ => .ok []) (itemsSafe [.dict] kvs path)

/-- `check_policy_document`, Policy.py:48-104 -/
def policyDocument (decode : String → Option Val) (identity exception : Bool) (value : Val) (path : Path) : PyM (List IamFinding) :=
  match value with
  | .str s =>
    match decode s with
    | some (.dict kvs) => policyObject identity exception kvs path
    | _ => .ok [(.notJson, path)]
  | .dict kvs => policyObject identity exception kvs path
  | _ => .ok [(.notJson, path)]

/-- the types of `resources_and_keys`, Policy.py:27-34 -/
def resourcePolicyTypes : List String :=
  ["AWS::ECR::Repository", "AWS::Elasticsearch::Domain", "AWS::KMS::Key", "AWS::S3::BucketPolicy", "AWS::SNS::TopicPolicy", "AWS::SQS::QueuePolicy"]

/-- the types of `idp_and_keys`, Policy.py:35-42 -/
def identityPolicyTypes : List String :=
  ["AWS::IAM::Group", "AWS::IAM::ManagedPolicy", "AWS::IAM::Policy", "AWS::IAM::Role", "AWS::IAM::User", "AWS::SSO::PermissionSet"]

/-- Policy.py:201 -/
def documentKeys : List String := ["KeyPolicy", "PolicyDocument", "RepositoryPolicyText", "AccessPolicies", "InlinePolicy"]

/-- a property, Policy.py:189-210 -/
def policyProperty (fuel : Nat) (decode : String → Option Val) (identity exception : Bool) (kvs : List (Key × Val)) (path : Path) (kv : Key × Val) :
    PyM (List IamFinding) :=
  let check : Checks IamFinding := { value := some (policyDocument decode identity exception) }
  match kv with
  | (.str "Policies", .list xs) =>
    collectM (fun xi : Val × Nat => checkValue fuel check xi.1 "PolicyDocument" (path ++ [.str "Policies", .int xi.2])) xs.zipIdx
  | (.str k, _) => if k ∈ documentKeys then checkValue fuel check (.dict kvs) k path else .ok []
  | _ => .ok []

/-- `match_resource_properties`, Policy.py:159-212 -/
def iamPolicy (fuel : Nat) (decode : String → Option Val) (ty : String) (kvs : List (Key × Val)) (path : Path) : PyM (List IamFinding) :=
  if ty ∈ resourcePolicyTypes then
    collectM (policyProperty fuel decode false (decide (ty = "AWS::ECR::Repository")) kvs path) kvs
  else if ty ∈ identityPolicyTypes then collectM (policyProperty fuel decode true false kvs path) kvs
  else .ok []

end CfnLint
