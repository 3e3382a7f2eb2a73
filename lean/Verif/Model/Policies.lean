import Verif.Model.Limits
/-
Model of the rules on the policies of resources: E3035 (rules/resources/DeletionPolicy.py), E3036
(rules/resources/UpdateReplacePolicy.py), W3011 (rules/resources/BothUpdateReplacePolicyDeletionPolicyNeeded.py) and I3011
(rules/resources/UpdateReplacePolicyDeletionPolicyOnStatefulResourceTypes.py). A finding is its path and its kind; the texts of the
messages are not modelled.
-/
namespace CfnLint

/-- what is wrong with a policy -/
inductive PolicyKind where
  /-- "Only one DeletionPolicy allowed per resource" -/
  | several
  /-- "DeletionPolicy values should be of string" -/
  | notText
  /-- "DeletionPolicy should be only one of ..." -/
  | unknown
  /-- "DeletionPolicy cannot be Snapshot for resources of type ..." -/
  | snapshot
deriving DecidableEq, Repr

/-- `valid_values`, DeletionPolicy.py:24-28 and UpdateReplacePolicy.py:24-28 -/
def policyValues : List String := ["Delete", "Retain", "Snapshot"]

/-- `valid_snapshot_types`, helpers.py:136-144 -/
def snapshotTypes : List String :=
  ["AWS::EC2::Volume", "AWS::ElastiCache::CacheCluster", "AWS::ElastiCache::ReplicationGroup", "AWS::Neptune::DBCluster",
    "AWS::RDS::DBCluster", "AWS::RDS::DBInstance", "AWS::Redshift::Cluster"]

/-- `x in [texts]` -/
def inTexts (v : Val) (l : List String) : Bool :=
  match v with
  | .str s => l.contains s
  | _ => false

/-- `check_value`, DeletionPolicy.py:20-47 -/
def policyValue (ty : Val) : Val → List PolicyKind
  | .str s =>
    (if policyValues.contains s then [] else [.unknown]) ++
      (if s = "Snapshot" ∧ inTexts ty snapshotTypes = false then [.snapshot] else [])
  | _ => [.notText]

/-- `resource_values.get(name)` of a resource that is an object -/
def attrOf (r : Val) (name : String) : Val :=
  match r with
  | .dict d => (dlookup (Key.str name) d).getD .none
  | _ => .none

/-- the choice in the body of the loop, DeletionPolicy.py:60-64 -/
def policyKinds (ty : Val) : Val → List PolicyKind
  | .list _ => [.several]
  | v => policyValue ty v

/-- the body of the loop, DeletionPolicy.py:54-64 -/
def policyOne (attr : String) (kv : Key × Val) : List (Path × PolicyKind) :=
  if (attrOf kv.2 attr).truthy then
    (policyKinds (attrOf kv.2 "Type") (attrOf kv.2 attr)).map (fun k => ([.str "Resources", kv.1, .str attr], k))
  else []

/-- `match`, DeletionPolicy.py:49-66, with `attr = "DeletionPolicy"`; UpdateReplacePolicy.py:49-66, with
`attr = "UpdateReplacePolicy"` -/
def policyRule (attr : String) (t : Val) : PyM (List (Path × PolicyKind)) :=
  match getResources t with
  | .error e => .error e
  | .ok rs => .ok (rs.flatMap (policyOne attr))

/-- the test of W3011, BothUpdateReplacePolicyDeletionPolicyNeeded.py:22-24 -/
def needsBoth (r : Val) : Bool :=
  !(inTexts (attrOf r "Type") ["AWS::Lambda::Version", "AWS::Lambda::LayerVersion"]) &&
    ((attrOf r "DeletionPolicy").truthy && attrOf r "DeletionPolicy" != .str "Delete" && !(attrOf r "UpdateReplacePolicy").truthy ||
      !(attrOf r "DeletionPolicy").truthy && (attrOf r "UpdateReplacePolicy").truthy &&
        attrOf r "UpdateReplacePolicy" != .str "Delete")

/-- `match`, BothUpdateReplacePolicyDeletionPolicyNeeded.py:17-29 -/
def bothRule (t : Val) : PyM (List Path) :=
  match getResources t with
  | .error e => .error e
  | .ok rs => .ok ((rs.filter (fun kv => needsBoth kv.2)).map (fun kv => [.str "Resources", kv.1]))

/-- `likely_stateful_resource_types`, UpdateReplacePolicyDeletionPolicyOnStatefulResourceTypes.py:22-44 -/
def statefulTypes : List String :=
  ["AWS::CloudFormation::Stack", "AWS::Backup::BackupVault", "AWS::Cognito::UserPool", "AWS::DocDB::DBCluster",
    "AWS::DocDB::DBInstance", "AWS::DynamoDB::Table", "AWS::EC2::Volume", "AWS::EFS::FileSystem", "AWS::EMR::Cluster",
    "AWS::ElastiCache::CacheCluster", "AWS::ElastiCache::ReplicationGroup", "AWS::Elasticsearch::Domain", "AWS::FSx::FileSystem",
    "AWS::Logs::LogGroup", "AWS::Neptune::DBCluster", "AWS::Neptune::DBInstance", "AWS::QLDB::Ledger", "AWS::RDS::DBCluster",
    "AWS::RDS::DBInstance", "AWS::Redshift::Cluster", "AWS::SDB::Domain", "AWS::SQS::Queue"]

/-- the test of I3011, UpdateReplacePolicyDeletionPolicyOnStatefulResourceTypes.py:49-50 -/
def needsExplicit (r : Val) : Bool :=
  inTexts (attrOf r "Type") statefulTypes && (!(attrOf r "DeletionPolicy").truthy || !(attrOf r "UpdateReplacePolicy").truthy)

/-- `match`, UpdateReplacePolicyDeletionPolicyOnStatefulResourceTypes.py:18-56 -/
def statefulRule (t : Val) : PyM (List Path) :=
  match getResources t with
  | .error e => .error e
  | .ok rs => .ok ((rs.filter (fun kv => needsExplicit kv.2)).map (fun kv => [.str "Resources", kv.1]))

end CfnLint
