import Verif.Model.Declared
import Verif.Spec.Template
import Verif.Spec.FnShape
/-
How parameters and resources are declared.
-/
namespace CfnLint.Spec

/-! ### parameters -/

/-- the template has the parameter `n`, whatever it is -/
def ParamIs (t : Val) (n : Key) (v : Val) : Prop := ∃ ps, At t [.str "Parameters"] (.dict ps) ∧ (n, v) ∈ ps

/-- the properties of parameters that are texts -/
inductive TextProp : String → Prop
  | pattern : TextProp "AllowedPattern"
  | constraint : TextProp "ConstraintDescription"
  | default : TextProp "Default"
  | description : TextProp "Description"
  | type : TextProp "Type"

/-- the properties of parameters that are numbers, and the type of parameters they are for -/
inductive NumberProp : String → String → Prop
  | maxLength : NumberProp "MaxLength" "String"
  | minLength : NumberProp "MinLength" "String"
  | maxValue : NumberProp "MaxValue" "Number"
  | minValue : NumberProp "MinValue" "Number"

/-- the properties a parameter may have -/
def ParamProp (k : String) : Prop := TextProp k ∨ (∃ ty, NumberProp k ty) ∨ k = "AllowedValues" ∨ k = "NoEcho"

/-- what is taken for a number: integers, finite floats and texts that are whole numbers -/
inductive NumberLike : Val → Prop
  | int {i} : NumberLike (.int i)
  | float {r} : r ≠ "nan" → r ≠ "inf" → r ≠ "-inf" → NumberLike (.flt r)
  | text {s} : WholeText s → NumberLike (.str s)

/-- what is taken for a truth value -/
inductive TruthLike : Val → Prop
  | bool {b} : TruthLike (.bool b)
  | text {s} : s = "True" ∨ s = "true" ∨ s = "False" ∨ s = "false" → TruthLike (.str s)

/-- objects and lists -/
def Compound (v : Val) : Prop := (∃ xs, v = .list xs) ∨ ∃ kvs, v = .dict kvs

/-- below the value of the property there is a value of another type than the property has -/
inductive WrongType : String → Val → Path → Prop
  | text {k v} : TextProp k → Compound v → WrongType k v []
  | values {v} : (∀ xs, v ≠ .list xs) → WrongType "AllowedValues" v []
  | element {xs : List Val} {i : Nat} {x} : xs[i]? = some x → Compound x → WrongType "AllowedValues" (.list xs) [.int i]
  | number {k ty v} : NumberProp k ty → ¬ NumberLike v → WrongType k v []
  | truth {v} : ¬ TruthLike v → WrongType "NoEcho" v []

/-- the findings on parameters -/
inductive ParamFinding (t : Val) : Path × ParamFault → Prop
  | unknown {n o k v} : ParamIs t n (.dict o) → (k, v) ∈ o → (∀ s, k = Key.str s → ¬ ParamProp s) → ParamFinding t ([.str "Parameters", n, k], .unknown)
  | type {n o k v q} : ParamIs t n (.dict o) → (Key.str k, v) ∈ o → WrongType k v q → ParamFinding t (.str "Parameters" :: n :: .str k :: q, .type)
  | onlyFor {n o k v ty w} : ParamIs t n (.dict o) → (Key.str k, v) ∈ o → NumberProp k ty → (Key.str "Type", w) ∈ o → w.truthy = true → w ≠ .str ty →
      ParamFinding t ([.str "Parameters", n, .str k], .onlyFor)
  | missing {n o} : ParamIs t n (.dict o) → Key.str "Type" ∉ o.map Prod.fst → ParamFinding t ([.str "Parameters", n], .missing)

/-- the types of things of which there are lists -/
inductive ListedType : String → Prop
  | zone : ListedType "AWS::EC2::AvailabilityZone::Name"
  | image : ListedType "AWS::EC2::Image::Id"
  | instance : ListedType "AWS::EC2::Instance::Id"
  | groupName : ListedType "AWS::EC2::SecurityGroup::GroupName"
  | group : ListedType "AWS::EC2::SecurityGroup::Id"
  | subnet : ListedType "AWS::EC2::Subnet::Id"
  | vpc : ListedType "AWS::EC2::VPC::Id"
  | volume : ListedType "AWS::EC2::Volume::Id"
  | hosted : ListedType "AWS::Route53::HostedZone::Id"
  | number : ListedType "Number"
  | string : ListedType "String"

/-- the types of parameters that are not looked up -/
inductive PlainParamType : String → Prop
  | one {s} : ListedType s → PlainParamType s
  | key : PlainParamType "AWS::EC2::KeyPair::KeyName"
  | name : PlainParamType "AWS::SSM::Parameter::Name"
  | list {s} : ListedType s → PlainParamType ("List<" ++ s ++ ">")
  | comma : PlainParamType "CommaDelimitedList"

/-- the types of parameters -/
inductive ParamTypeName : String → Prop
  | plain {s} : PlainParamType s → ParamTypeName s
  | lookup {s} : PlainParamType s → ParamTypeName ("AWS::SSM::Parameter::Value<" ++ s ++ ">")

/-! ### resources -/

/-- the template has the resource `n`, whatever it is -/
def ResourceIs (t : Val) (n : Key) (v : Val) : Prop := ∃ rs, At t [.str "Resources"] (.dict rs) ∧ (n, v) ∈ rs

/-- the type of a resource; empty where none is given -/
def TypeIs (o : List (Key × Val)) (ty : String) : Prop := (Key.str "Type", Val.str ty) ∈ o ∨ (ty = "" ∧ Key.str "Type" ∉ o.map Prod.fst)

/-- a custom resource -/
def CustomResType (ty : String) : Prop := "Custom::".toList <+: ty.toList ∨ ty = "AWS::CloudFormation::CustomResource"

/-- the attributes of each resource, of custom resources and of the other resources -/
inductive AttributeOf : String → String → Prop
  | condition {ty} : AttributeOf ty "Condition"
  | deletion {ty} : AttributeOf ty "DeletionPolicy"
  | depends {ty} : AttributeOf ty "DependsOn"
  | metadata {ty} : AttributeOf ty "Metadata"
  | properties {ty} : AttributeOf ty "Properties"
  | type {ty} : AttributeOf ty "Type"
  | replace {ty} : AttributeOf ty "UpdateReplacePolicy"
  | version {ty} : CustomResType ty → AttributeOf ty "Version"
  | creation {ty} : ¬ CustomResType ty → AttributeOf ty "CreationPolicy"
  | update {ty} : ¬ CustomResType ty → AttributeOf ty "UpdatePolicy"

/-- types that need not be in the specification -/
def OpenResType (registry : List String) (ty : String) : Prop :=
  ty ∈ registry ∨ "Custom::".toList <+: ty.toList ∨ "AWS::Serverless::".toList <+: ty.toList ∨ "::MODULE".toList <:+ ty.toList

/-- the findings on resources -/
inductive ResourceFinding (specs : List (String × TypeTable)) (registry regions : List String) (t : Val) : Path × ResFault → Prop
  | resources {v} : At t [.str "Resources"] v → (∀ rs, v ≠ .dict rs) → ResourceFinding specs registry regions t ([.str "Resources"], .shape)
  | shape {n v} : ResourceIs t n v → (∀ o, v ≠ .dict o) → ResourceFinding specs registry regions t ([.str "Resources", n], .shape)
  | condition {n o v} : ResourceIs t n (.dict o) → (Key.str "Condition", v) ∈ o → (∀ s, v ≠ .str s) → ResourceFinding specs registry regions t ([.str "Resources", n, .str "Condition"], .condition)
  | typeText {n o v} : ResourceIs t n (.dict o) → (Key.str "Type", v) ∈ o → (∀ s, v ≠ .str s) → ResourceFinding specs registry regions t ([.str "Resources", n], .typeText)
  | attribute {n o ty k v} : ResourceIs t n (.dict o) → TypeIs o ty → (k, v) ∈ o → (∀ s, k = Key.str s → ¬ AttributeOf ty s) →
      ResourceFinding specs registry regions t ([.str "Resources", n, k], .attribute)
  | noType {n o} : ResourceIs t n (.dict o) → TypeIs o "" → ResourceFinding specs registry regions t ([.str "Resources", n], .noType)
  | badType {n o ty region table} : ResourceIs t n (.dict o) → TypeIs o ty → ty ≠ "" → region ∈ regions → (region, table) ∈ specs → ty ∉ table.map Prod.fst → ¬ OpenResType registry ty →
      ResourceFinding specs registry regions t ([.str "Resources", n, .str "Type"], .badType region)
  | noProperties {n o ty region table ps p} : ResourceIs t n (.dict o) → TypeIs o ty → Key.str "Properties" ∉ o.map Prod.fst → regions.head? = some region → dlookup region specs = some table →
      dlookup ty table = some ps → (p, true) ∈ ps → ¬ (ty = "AWS::CloudFormation::WaitCondition" ∧ Key.str "CreationPolicy" ∈ o.map Prod.fst) →
      ResourceFinding specs registry regions t ([.str "Resources", n], .noProperties)

end CfnLint.Spec
