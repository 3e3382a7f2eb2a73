import Verif.Model.Py
/-
What the serverless pre-processing should do, in terms of values read at paths.
-/
namespace CfnLint.Spec

/-- the value read at a path of object keys -/
def look : Val → List Key → Option Val
  | v, [] => some v
  | .dict d, k :: p =>
    match dlookup k d with
    | some x => look x p
    | none => none
  | _, _ :: _ => none

/-- the property of each serverless type which refers to code or a definition -/
def codeProperty : List (String × String) :=
  [("AWS::Serverless::Function", "CodeUri"), ("AWS::Serverless::LayerVersion", "ContentUri"),
   ("AWS::Serverless::Application", "Location"), ("AWS::Serverless::Api", "DefinitionUri"),
   ("AWS::Serverless::StateMachine", "DefinitionUri")]

/-- resource `n` of the template has type `ty` -/
def HasType (t : Val) (n : Key) (ty : String) : Prop := look t [.str "Resources", n, .str "Type"] = some (.str ty)

/-- an S3 reference -/
def IsS3 (s : String) : Prop := "s3://".toList <+: s.toList

/-- a nonempty text that is not an S3 reference is a local path -/
def IsLocal (s : String) : Prop := s ≠ "" ∧ ¬ IsS3 s

end CfnLint.Spec
