import Verif.Spec.Transform
/-
Policies of resources, as documented: what happens to a resource that is removed from the stack (`DeletionPolicy`) or replaced by
another (`UpdateReplacePolicy`). Without a policy the resource is deleted.
-/
namespace CfnLint.Spec

/-- `r` is the resource of that name; it states a type -/
def ResourceAt (t : Val) (name : Key) (r : Val) : Prop :=
  look t [.str "Resources", name] = some r ∧ ∃ ty, look r [.str "Type"] = some ty ∧ ty ≠ .none

/-- the resource is of one of the types -/
def TypedAs (r : Val) (types : List String) : Prop := ∃ s ∈ types, look r [.str "Type"] = some (.str s)

/-- types with snapshots -/
def snapshotable : List String :=
  ["AWS::EC2::Volume", "AWS::ElastiCache::CacheCluster", "AWS::ElastiCache::ReplicationGroup", "AWS::Neptune::DBCluster",
    "AWS::RDS::DBCluster", "AWS::RDS::DBInstance", "AWS::Redshift::Cluster"]

/-- types of resources that hold data -/
def stateful : List String :=
  ["AWS::CloudFormation::Stack", "AWS::Backup::BackupVault", "AWS::Cognito::UserPool", "AWS::DocDB::DBCluster",
    "AWS::DocDB::DBInstance", "AWS::DynamoDB::Table", "AWS::EC2::Volume", "AWS::EFS::FileSystem", "AWS::EMR::Cluster",
    "AWS::ElastiCache::CacheCluster", "AWS::ElastiCache::ReplicationGroup", "AWS::Elasticsearch::Domain", "AWS::FSx::FileSystem",
    "AWS::Logs::LogGroup", "AWS::Neptune::DBCluster", "AWS::Neptune::DBInstance", "AWS::QLDB::Ledger", "AWS::RDS::DBCluster",
    "AWS::RDS::DBInstance", "AWS::Redshift::Cluster", "AWS::SDB::Domain", "AWS::SQS::Queue"]

/-- types whose resources are never replaced: a new version is added -/
def versions : List String := ["AWS::Lambda::Version", "AWS::Lambda::LayerVersion"]

/-- a policy that the resource may have -/
inductive GoodPolicy (r : Val) : Val → Prop
  | delete : GoodPolicy r (.str "Delete")
  | retain : GoodPolicy r (.str "Retain")
  | snapshot : TypedAs r snapshotable → GoodPolicy r (.str "Snapshot")

/-- the resource states the policy -/
def StatesPolicy (r : Val) (attr : String) (v : Val) : Prop := look r [.str attr] = some v ∧ v.truthy = true

/-- the resource is kept on one of the two occasions and nothing is said on the other -/
inductive HalfKept (r : Val) : Prop
  | removed {v} : StatesPolicy r "DeletionPolicy" v → v ≠ .str "Delete" → (∀ w, ¬ StatesPolicy r "UpdateReplacePolicy" w) → HalfKept r
  | replaced {v} : StatesPolicy r "UpdateReplacePolicy" v → v ≠ .str "Delete" → (∀ w, ¬ StatesPolicy r "DeletionPolicy" w) → HalfKept r

end CfnLint.Spec
