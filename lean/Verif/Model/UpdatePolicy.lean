import Verif.Model.CheckValue
import Verif.Model.NodeOps
import Verif.Model.PropSets
import Verif.Model.Limits
import Verif.Model.PrimType
/-
Model of the rule on update policies: E3016 (rules/resources/updatepolicy/Configuration.py). A finding is its path and its kind.
-/
namespace CfnLint

/-- the kinds of findings on an update policy -/
inductive UpFault where
  /-- what is no object -/
  | object
  /-- a policy or a property that is not known -/
  | unknown
  /-- a policy for resources of another type -/
  | resource
  /-- a value of another type -/
  | type
  /-- a value that is not allowed -/
  | allowed
deriving DecidableEq

/-- the primitive types of properties, with the allowed values of lists -/
inductive UpType where
  | string | integer | boolean
  | list (allowed : List String)

/-- `valid_attributes['sub']`, updatepolicy/Configuration.py:18-68 -/
def upSub : List (String × List (String × UpType)) :=
  [("AutoScalingReplacingUpdate", [("WillReplace", .boolean)]),
   ("AutoScalingRollingUpdate", [("MaxBatchSize", .integer), ("MinInstancesInService", .integer), ("MinSuccessfulInstancesPercent", .integer), ("PauseTime", .string),
     ("SuspendProcesses", .list ["Launch", "Terminate", "HealthCheck", "ReplaceUnhealthy", "AZRebalance", "AlarmNotification", "ScheduledActions", "AddToLoadBalancer"]),
     ("WaitOnResourceSignals", .boolean)]),
   ("AutoScalingScheduledAction", [("IgnoreUnmodifiedGroupSizeProperties", .boolean)]),
   ("CodeDeployLambdaAliasUpdate", [("AfterAllowTrafficHook", .string), ("ApplicationName", .string), ("BeforeAllowTrafficHook", .string), ("DeploymentGroupName", .string)])]

/-- `valid_attributes['main']`, updatepolicy/Configuration.py:69-106: the type of resources (lists of one), and whether the policy is an object (whose type is its name) or a boolean -/
def upMain : List (String × (String × Bool)) :=
  [("AutoScalingReplacingUpdate", ("AWS::AutoScaling::AutoScalingGroup", true)), ("AutoScalingRollingUpdate", ("AWS::AutoScaling::AutoScalingGroup", true)),
   ("AutoScalingScheduledAction", ("AWS::AutoScaling::AutoScalingGroup", true)), ("CodeDeployLambdaAliasUpdate", ("AWS::Lambda::Alias", true)),
   ("EnableVersionUpgrade", ("AWS::Elasticsearch::Domain", false)), ("UseOnlineResharding", ("AWS::ElastiCache::ReplicationGroup", false))]

/-- `check_value`, updatepolicy/Configuration.py:115-133; booleans are instances of `int`. -/
def upValue (ty : UpType) (v : Val) (path : Path) : PyM (List (Path × UpFault)) :=
  match ty with
  | .list allowed => .ok (if allowed.any (fun s => Val.str s == v) then [] else [(path, .allowed)])
  | .string => .ok (if v.isStr then [] else [(path, .type)])
  | .integer => .ok (match v with | .int _ => [] | .bool _ => [] | _ => [(path, .type)])
  | .boolean => .ok (if isBoolVal v then [] else [(path, .type)])

/-- one property, updatepolicy/Configuration.py:144-163 (no property of a policy has a `Type`); `path` is the path of the policy, `inner` that of the object -/
def upProp (fuel : Nat) (spec : List (String × UpType)) (path inner : Path) (kv : Key × Val) : PyM (List (Path × UpFault)) :=
  match kv.1 with
  | .str k =>
    match dlookup k spec with
    | some ty => checkValue fuel { value := some (upValue ty) } (.dict [(.str k, kv.2)]) k inner
    | none => .ok [(path ++ [kv.1], .unknown)]
  | .int _ => .ok [(path ++ [kv.1], .unknown)]

/-- `check_attributes`, updatepolicy/Configuration.py:135-169 -/
def upAttributes (fuel : Nat) (v : Val) (spec : List (String × UpType)) (path : Path) : PyM (List (Path × UpFault)) :=
  match v with
  | .dict kvs => collectM (fun ep : Val × Path =>
      match ep.1 with
      | .dict o => collectM (upProp fuel spec path ep.2) o
      | v => .error (attrErr v "items")) (itemsSafe [] kvs path)
  | _ => .ok [(path, .object)]

/-- one entry of an update policy, updatepolicy/Configuration.py:171-202 -/
def upEntry (fuel : Nat) (ty : Val) (path : Path) (kv : Key × Val) : PyM (List (Path × UpFault)) :=
  match kv.1 with
  | .int _ => .ok [(path ++ [kv.1], .unknown)]
  | .str k =>
    match dlookup k upMain with
    | none => .ok [(path ++ [kv.1], .unknown)]
    | some (rt, sub) =>
      match (if sub then upAttributes fuel kv.2 ((dlookup k upSub).getD []) (path ++ [.str k])
          else checkValue fuel { value := some (upValue .boolean) } (.dict [(.str k, kv.2)]) k (path ++ [.str k])) with
      | .error e => .error e
      | .ok l => .ok ((if ty = .str rt then [] else [(path ++ [.str k], .resource)]) ++ l)

/-- one resource, updatepolicy/Configuration.py:208-220; what is left of the policy and is no object has no method `items` -/
def upResource (fuel : Nat) (nr : Key × Val) : PyM (List (Path × UpFault)) :=
  match nr.2 with
  | .dict r =>
    match (dlookup (Key.str "UpdatePolicy") r).getD .none with
    | .none => .ok []
    | .dict p => collectM (fun ep : Val × Path =>
        match ep.1 with
        | .dict o => collectM (upEntry fuel ((dlookup (Key.str "Type") r).getD .none) ep.2) o
        | v => .error (attrErr v "items")) (itemsSafe [] p [.str "Resources", nr.1, .str "UpdatePolicy"])
    | _ => .ok [([.str "Resources", nr.1, .str "UpdatePolicy"], .object)]
  | v => .error (attrErr v "get")

/-- `match`, updatepolicy/Configuration.py:204-222 -/
def updatePolicyRule (fuel : Nat) (t : Val) : PyM (List (Path × UpFault)) :=
  match getResources t with
  | .error e => .error e
  | .ok rs => collectM (upResource fuel) rs

end CfnLint
