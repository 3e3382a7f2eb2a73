import Verif.Model.PolicyVersion
import Verif.Spec.PrimType
/-
Which policies are of the old version.
-/
namespace CfnLint.Spec

/-- the document is of the old version -/
def OldDocument (u : Val) : Prop := Known u ∧ ∃ doc, u = .dict doc ∧ (.str "Version", .str "2008-10-17") ∈ doc

/-- the places of the versions in an object with the documents in the property `key` -/
def OldVersionIn (kvs : List (Key × Val)) (key : String) (s : Path) : Prop :=
  ∃ v q u, (.str key, v) ∈ kvs ∧ PropValue v q u ∧ OldDocument u ∧ s = .str key :: (q ++ [.str "Version"])

/-- the types whose one document is in a property -/
inductive DocumentOf : String → String → Prop
  | ecr : DocumentOf "AWS::ECR::Repository" "RepositoryPolicyText"
  | search : DocumentOf "AWS::Elasticsearch::Domain" "AccessPolicies"
  | key : DocumentOf "AWS::KMS::Key" "KeyPolicy"
  | plain {t} : t ∈ ["AWS::S3::BucketPolicy", "AWS::SNS::TopicPolicy", "AWS::SQS::QueuePolicy", "AWS::IAM::ManagedPolicy", "AWS::IAM::Policy"] →
      DocumentOf t "PolicyDocument"

/-- the types with a list of policies -/
def HasPolicies (t : String) : Prop := t ∈ ["AWS::IAM::Group", "AWS::IAM::Role", "AWS::IAM::User"]

/-- the documents of the object under the key: not null under any condition, and without entries named `Fn::If` beside others -/
def PlainDocuments (kvs : List (Key × Val)) (key : String) : Prop :=
  (Val.dict kvs).WF ∧ (∀ v, (Key.str key, v) ∈ kvs → v ≠ .none ∧ ∀ q, ¬ Leaf v q .none) ∧
    ∀ v q doc w, (Key.str key, v) ∈ kvs → PropValue v q (.dict doc) → Known (.dict doc) → (Key.str "Fn::If", w) ∉ doc

end CfnLint.Spec
