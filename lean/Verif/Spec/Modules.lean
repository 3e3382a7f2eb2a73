import Verif.Model.Modules
import Verif.Spec.JsonSize
import Verif.Spec.Relations
import Verif.Spec.Refs
import Verif.Spec.Elb
/-
What modules must not have, which properties work only with packages, which filters are too many, and which parameters have no bounds.
-/
namespace CfnLint.Spec

/-- the type of the resource ends with `::MODULE` -/
def ModuleAt (t : Val) (name : Key) : Prop := ∃ r ty, TypedResource t name r ∧ (Key.str "Type", Val.str ty) ∈ r ∧ "::MODULE".toList <:+ ty.toList

/-- some text of the resource ends with `::MODULE` -/
def LikeModule (r : List (Key × Val)) : Prop := ∃ k s, (k, Val.str s) ∈ r ∧ "::MODULE".toList <:+ s.toList

/-- what modules must not have -/
inductive ModuleFault (t globals : Val) : Path → Option Val → Prop
  | reserved {name q w} : ModuleAt t name → At t ([.str "Resources", name, .str "Metadata"] ++ q ++ [.str "AWS::CloudFormation::Module"]) w →
      ModuleFault t globals ([.str "Resources", name, .str "Metadata"] ++ q ++ [.str "AWS::CloudFormation::Module"]) (some w)
  | inGlobals {name q w} : ModuleAt t name → At globals ([.str "Resources", name, .str "Metadata"] ++ q ++ [.str "AWS::CloudFormation::Module"]) w →
      ModuleFault t globals ([.str "Resources", name, .str "Metadata"] ++ q ++ [.str "AWS::CloudFormation::Module"]) (some w)
  | tags {name r ps} : TypedResource t name r → LikeModule r → (Key.str "Properties", Val.dict ps) ∈ r → Given ps "Tags" →
      ModuleFault t globals [.str "Resources", name, .str "Properties", .str "Tags"] none
  | policy {name r key} : TypedResource t name r → LikeModule r → key = "CreationPolicy" ∨ key = "UpdatePolicy" → Given r key →
      ModuleFault t globals [.str "Resources", name, .str key] none

/-- the template has the transform for serverless resources -/
def HasServerless (t : Val) : Prop :=
  At t [.str "Transform"] (.str "AWS::Serverless-2016-10-31") ∨ ∃ xs, At t [.str "Transform"] (.list xs) ∧ .str "AWS::Serverless-2016-10-31" ∈ xs

/-- the template has a serverless resource -/
def UsesServerless (t : Val) : Prop := ∃ name r s, TypedResource t name r ∧ (Key.str "Type", Val.str s) ∈ r ∧ "AWS::Serverless::".toList <+: s.toList

/-- the resource is a filter for the group -/
def FilterOf (kv : Key × Val) (group : JVal) : Prop :=
  ∃ r ps, kv.2 = .dict r ∧ (Key.str "Type", Val.str "AWS::Logs::SubscriptionFilter") ∈ r ∧ (Key.str "Properties", Val.dict ps) ∈ r ∧
    ((∃ v, (Key.str "LogGroupName", v) ∈ ps ∧ group = jsonOf v) ∨ ((∀ v, (Key.str "LogGroupName", v) ∉ ps) ∧ group = .null))

/-- the third filter of a group: two of the resources before it are filters of the group -/
def ThirdFilter (t : Val) (name : Key) : Prop :=
  ∃ (res a : List (Key × Val)) (v : Val) (b : List (Key × Val)) (group : JVal) (c : List (Key × Val)), At t [.str "Resources"] (.dict res) ∧ res = a ++ (name, v) :: b ∧ FilterOf (name, v) group ∧
    c.Sublist a ∧ c.length = 2 ∧ ∀ kv ∈ a, FilterOf kv group ↔ kv ∈ c

/-- the parameter has neither both bounds nor allowed values -/
def Unbounded (ps : List (Key × Val)) : Prop := ¬ (Given ps "MinValue" ∧ Given ps "MaxValue") ∧ ¬ Given ps "AllowedValues"

/-- the properties of resources that `aws cloudformation package` fills in -/
inductive NamesPackage : String → String → Prop
  | api : NamesPackage "AWS::ApiGateway::RestApi" "BodyS3Location"
  | function : NamesPackage "AWS::Lambda::Function" "Code"
  | layer : NamesPackage "AWS::Lambda::LayerVersion" "Content"
  | application : NamesPackage "AWS::ElasticBeanstalk::ApplicationVersion" "SourceBundle"
  | machine : NamesPackage "AWS::StepFunctions::StateMachine" "DefinitionS3Location"

end CfnLint.Spec
