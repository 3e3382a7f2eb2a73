import Verif.Spec.ResProps
/-
Pipelines: stages of actions that pass artifacts on. Actions of earlier stages run before those of later ones; within a stage the number
`RunOrder`, one if absent, decides.
-/
namespace CfnLint.Spec

/-- the object has the field -/
def HasField (v : Val) (name : String) (w : Val) : Prop := ∃ kvs, v = .dict kvs ∧ (.str name, w) ∈ kvs

/-- the object has no such field -/
def LacksField (v : Val) (name : String) : Prop := ∀ w, ¬ HasField v name w

/-- the action lists the artifact `x` under the property -/
def ListsArtifact (a : Val) (prop x : String) : Prop := ∃ xs y, HasField a prop (.list xs) ∧ y ∈ xs ∧ HasField y "Name" (.str x)

/-- the action lists the artifact twice under the property -/
def ListsTwice (a : Val) (prop x : String) : Prop :=
  ∃ xs y z b m e, HasField a prop (.list xs) ∧ xs = b ++ y :: m ++ z :: e ∧ HasField y "Name" (.str x) ∧ HasField z "Name" (.str x)

/-- the `j`-th action of the `i`-th stage -/
def ActionAt (stages : List Val) (i j : Nat) (a : Val) : Prop :=
  ∃ s as, stages[i]? = some s ∧ HasField s "Actions" (.list as) ∧ as[j]? = some a

/-- the stages of a pipeline of the template -/
def PipelineOf (t : Val) (name : Key) (stages : List Val) : Prop :=
  ∃ props, HasProps t "AWS::CodePipeline::Pipeline" name props ∧ HasField props "Stages" (.list stages)

/-- when the action runs within its stage -/
def RunOrderOf (a : Val) (n : Int) : Prop := HasField a "RunOrder" (.int n) ∨ (LacksField a "RunOrder" ∧ n = 1)

/-- the action `a` of the stage `i` runs before the action `b` of the stage `k` -/
def RunsBefore (i : Nat) (a : Val) (k : Nat) (b : Val) : Prop :=
  i < k ∨ (i = k ∧ ∃ m n, RunOrderOf a m ∧ RunOrderOf b n ∧ m < n)

/-- no action that runs before the action produces the artifact it takes -/
def MissingInput (stages : List Val) (i j : Nat) (x : String) : Prop :=
  ∃ a, ActionAt stages i j a ∧ ListsArtifact a "InputArtifacts" x ∧
    ∀ i' j' b, ActionAt stages i' j' b → RunsBefore i' b i a → ¬ ListsArtifact b "OutputArtifacts" x

/-- the numbers of artifacts the providers take and produce: owner, category, provider, least and greatest number of inputs, least and greatest
number of outputs -/
def providerTable : List (String × String × String × Nat × Nat × Nat × Nat) :=
  [("AWS", "Source", "S3", 0, 0, 1, 1), ("AWS", "Source", "CodeCommit", 0, 0, 1, 1), ("AWS", "Source", "ECR", 0, 0, 1, 1),
   ("AWS", "Test", "CodeBuild", 1, 5, 0, 5), ("AWS", "Test", "DeviceFarm", 1, 1, 0, 0), ("AWS", "Build", "CodeBuild", 1, 5, 0, 5),
   ("AWS", "Approval", "Manual", 0, 0, 0, 0), ("AWS", "Deploy", "S3", 1, 1, 0, 0), ("AWS", "Deploy", "CloudFormation", 0, 10, 0, 1),
   ("AWS", "Deploy", "CodeDeploy", 1, 1, 0, 0), ("AWS", "Deploy", "ElasticBeanstalk", 1, 1, 0, 0), ("AWS", "Deploy", "OpsWorks", 1, 1, 0, 0),
   ("AWS", "Deploy", "ECS", 1, 1, 0, 0), ("AWS", "Deploy", "ServiceCatalog", 1, 1, 0, 0), ("AWS", "Invoke", "Lambda", 0, 5, 0, 5),
   ("ThirdParty", "Source", "GitHub", 0, 0, 1, 1), ("ThirdParty", "Deploy", "AlexaSkillsKit", 0, 2, 0, 0),
   ("Custom", "Build", "Jenkins", 0, 5, 0, 5), ("Custom", "Test", "Jenkins", 0, 5, 0, 5)]

/-- the number of entries of the list under the property, zero without it -/
def ArtifactCount (a : Val) (prop : String) (n : Nat) : Prop :=
  (∃ xs, HasField a prop (.list xs) ∧ n = xs.length) ∨ (LacksField a prop ∧ n = 0)

/-- the action has a wrong number of inputs -/
def WrongInputs (a : Val) (n : Nat) : Prop :=
  ∃ tid o c p li hi lo ho, HasField a "ActionTypeId" tid ∧ HasField tid "Owner" (.str o) ∧ HasField tid "Category" (.str c) ∧
    HasField tid "Provider" (.str p) ∧ (o, c, p, li, hi, lo, ho) ∈ providerTable ∧ ArtifactCount a "InputArtifacts" n ∧ ¬ (li ≤ n ∧ n ≤ hi)

/-- the action has a wrong number of outputs -/
def WrongOutputs (a : Val) (n : Nat) : Prop :=
  ∃ tid o c p li hi lo ho, HasField a "ActionTypeId" tid ∧ HasField tid "Owner" (.str o) ∧ HasField tid "Category" (.str c) ∧
    HasField tid "Provider" (.str p) ∧ (o, c, p, li, hi, lo, ho) ∈ providerTable ∧ ArtifactCount a "OutputArtifacts" n ∧ ¬ (lo ≤ n ∧ n ≤ ho)

/-- letters, digits, underscores and hyphens -/
def VersionCharacter (c : Char) : Prop :=
  ('0' ≤ c ∧ c ≤ '9') ∨ ('A' ≤ c ∧ c ≤ 'Z') ∨ ('a' ≤ c ∧ c ≤ 'z') ∨ c = '_' ∨ c = '-'

/-- the version of the type of the action -/
def VersionOf (a : Val) (s : String) : Prop := ∃ tid, HasField a "ActionTypeId" tid ∧ HasField tid "Version" (.str s)

end CfnLint.Spec
