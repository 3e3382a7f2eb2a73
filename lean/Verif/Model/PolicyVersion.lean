import Verif.Model.CheckValue
import Verif.Model.PropSets
/-
Model of W2511 (rules/resources/iam/PolicyVersion.py). A finding is its path. Versions that YAML reads as dates are not modelled: there are no dates among
the values of the model.
-/
namespace CfnLint

/-- the innermost part, PolicyVersion.py:50-55 -/
def versionAt (x : Val) (p : Path) : PyM (List Path) :=
  match x.getD "Version" .none with
  | .error e => .error e
  | .ok v => .ok (if v == .str "2008-10-17" then [p ++ [.str "Version"]] else [])

/-- `check_policy_document`, PolicyVersion.py:41-56 -/
def versionDocument (v : Val) (path : Path) : PyM (List Path) :=
  match v with
  | .dict kvs =>
    collectM (fun ep : Val × Path =>
      match itemsSafeOf ep.1 ep.2 with
      | .error e => .error e
      | .ok l => collectM (fun xp : Val × Path => versionAt xp.1 xp.2) l) (itemsSafe [] kvs path)
  | _ => .ok []

/-- `resources_and_keys` and `idp_and_keys`, PolicyVersion.py:21-35 -/
def versionKeys : List (String × String) :=
  [("AWS::ECR::Repository", "RepositoryPolicyText"), ("AWS::Elasticsearch::Domain", "AccessPolicies"), ("AWS::KMS::Key", "KeyPolicy"),
   ("AWS::S3::BucketPolicy", "PolicyDocument"), ("AWS::SNS::TopicPolicy", "PolicyDocument"), ("AWS::SQS::QueuePolicy", "PolicyDocument"),
   ("AWS::IAM::Group", "Policies"), ("AWS::IAM::ManagedPolicy", "PolicyDocument"), ("AWS::IAM::Policy", "PolicyDocument"),
   ("AWS::IAM::Role", "Policies"), ("AWS::IAM::User", "Policies")]

/-- `match_resource_properties`, PolicyVersion.py:58-84. The rule runs for the types of the tables only. -/
def versionRule (fuel : Nat) (type : String) (props : List (Key × Val)) (path : Path) : PyM (List Path) :=
  match dlookup type versionKeys with
  | none => .ok []
  | some key =>
    if key = "Policies" then
      match iterOf ((dlookup (Key.str key) props).getD (.list [])) with
      | .error e => .error e
      | .ok xs => collectM (fun xi : Val × Nat =>
          checkValue fuel { value := some versionDocument } xi.1 "PolicyDocument" (path ++ [.str "Policies", .int xi.2])) xs.zipIdx
    else checkValue fuel { value := some versionDocument } (.dict props) key path

end CfnLint
