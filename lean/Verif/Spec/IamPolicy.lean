import Verif.Model.IamPolicy
import Verif.Spec.Template
/-
Faults of policy documents, by the branches of the conditions.
-/
namespace CfnLint.Spec

/-- an entry that is not removed -/
def Kept (kvs : List (Key × Val)) (k : Key) (v : Val) : Prop := (k, v) ∈ kvs ∧ v ≠ noValue

/-- none of the keys has an entry -/
def Without (kvs : List (Key × Val)) (names : List String) : Prop := ∀ s ∈ names, ∀ v, ¬ Kept kvs (.str s) v

/-- the keys of a statement -/
def statementNames : List String := ["Sid", "Effect", "Principal", "NotPrincipal", "Action", "NotAction", "Resource", "NotResource", "Condition"]

/-- a statement and its path within the value of `Statement` -/
def StatementAt (s : Val) (r : Path) (st : List (Key × Val)) : Prop :=
  (∃ xs i x r', s = .list xs ∧ xs[i]? = some x ∧ Leaf x r' (.dict st) ∧ r = .int (i : Nat) :: r') ∨ ((∃ kvs, s = .dict kvs) ∧ Leaf s r (.dict st))

/-- the faults of a statement -/
inductive StatementFault (identity exception : Bool) (st : List (Key × Val)) : IamFault → Path → Prop
  | key {k v} : Kept st k v → (∀ s ∈ statementNames, k ≠ .str s) → StatementFault identity exception st (.statementKey k) [k]
  | noEffect : Without st ["Effect"] → StatementFault identity exception st .noEffect []
  | effect {v r s} : Kept st (.str "Effect") v → Leaf v r (.str s) → s ≠ "Allow" → s ≠ "Deny" →
      StatementFault identity exception st .effect (.str "Effect" :: r)
  | noAction : Without st ["Action", "NotAction"] → StatementFault identity exception st .noAction []
  | principal : identity = true → ¬ Without st ["Principal", "NotPrincipal"] → StatementFault identity exception st .principal []
  | noPrincipal : identity = false → Without st ["Principal", "NotPrincipal"] → StatementFault identity exception st .noPrincipal [.str "Principal"]
  | noResource : exception = false → Without st ["Resource", "NotResource"] → StatementFault identity exception st .noResource []

/-- the faults of a document -/
inductive DocFault (identity exception : Bool) (d : Val) : IamFault → Path → Prop
  | key {q kvs k v} : Leaf d q (.dict kvs) → Kept kvs k v → k ≠ .str "Version" → k ≠ .str "Id" → k ≠ .str "Statement" →
      DocFault identity exception d (.key k) (q ++ [k])
  | version {q kvs v} : Leaf d q (.dict kvs) → Kept kvs (.str "Version") v → v ≠ .str "2012-10-17" → v ≠ .str "2008-10-17" →
      DocFault identity exception d .version (q ++ [.str "Version"])
  | notList {q kvs v} : Leaf d q (.dict kvs) → Kept kvs (.str "Statement") v → (∀ xs, v ≠ .list xs) → (∀ es, v ≠ .dict es) →
      DocFault identity exception d .notList (q ++ [.str "Statement"])
  | statement {q kvs s r st f r'} : Leaf d q (.dict kvs) → Kept kvs (.str "Statement") s → StatementAt s r st →
      StatementFault identity exception st f r' → DocFault identity exception d f (q ++ .str "Statement" :: r ++ r')

/-- where the statements of a document are an object, they are objects in all branches -/
def Orderly (d : Val) : Prop :=
  ∀ q kvs es, Leaf d q (.dict kvs) → Kept kvs (.str "Statement") (.dict es) → ∀ r u, Leaf (.dict es) r u → ∃ st, u = .dict st

/-- the document that is given by the value -/
def GivesDoc (decode : String → Option Val) (u : Val) (kvs : List (Key × Val)) : Prop :=
  u = .dict kvs ∨ ∃ s, u = .str s ∧ decode s = some (.dict kvs)

/-- the faults of a value that should be a document -/
def DocProblem (decode : String → Option Val) (identity exception : Bool) (u : Val) (f : IamFault) (p : Path) : Prop :=
  (¬ ∃ kvs, GivesDoc decode u kvs) ∧ f = .notJson ∧ p = [] ∨ ∃ kvs, GivesDoc decode u kvs ∧ DocFault identity exception (.dict kvs) f p

/-- the resources that are looked at: whether their policies are given to an identity, by their type -/
inductive PolicyType : Bool → String → Prop
  | repository : PolicyType false "AWS::ECR::Repository"
  | domain : PolicyType false "AWS::Elasticsearch::Domain"
  | key : PolicyType false "AWS::KMS::Key"
  | bucket : PolicyType false "AWS::S3::BucketPolicy"
  | topic : PolicyType false "AWS::SNS::TopicPolicy"
  | queue : PolicyType false "AWS::SQS::QueuePolicy"
  | group : PolicyType true "AWS::IAM::Group"
  | managed : PolicyType true "AWS::IAM::ManagedPolicy"
  | policy : PolicyType true "AWS::IAM::Policy"
  | role : PolicyType true "AWS::IAM::Role"
  | user : PolicyType true "AWS::IAM::User"
  | permissions : PolicyType true "AWS::SSO::PermissionSet"

end CfnLint.Spec
