import Verif.Model.Sub
import Verif.Model.PrimType
import Verif.Model.CondGrammar
/-
Model of the rules on how parameters and resources are declared: E2001 (rules/parameters/Configuration.py), E2002 (rules/parameters/Types.py) and E3001
(rules/resources/Configuration.py). A finding is its path and its kind. The specifications are, for each region, the types of resources with their
properties and whether these are required; the names of the types in the registry are another parameter.
-/
namespace CfnLint

/-! ### E2001 -/

/-- the kinds of findings on a parameter -/
inductive ParamFault where
  /-- a property that is not known -/
  | unknown
  /-- a value of another type -/
  | type
  /-- a property for parameters of another type -/
  | onlyFor
  /-- no type -/
  | missing
deriving DecidableEq

/-- `valid_keys`, parameters/Configuration.py:17-56: the type of a property and the types of parameters it is for (lists of one) -/
def paramProps : List (String × (String × Option String)) :=
  [("AllowedPattern", ("String", none)), ("AllowedValues", ("List", none)), ("ConstraintDescription", ("String", none)), ("Default", ("String", none)),
   ("Description", ("String", none)), ("MaxLength", ("Integer", some "String")), ("MaxValue", ("Integer", some "Number")),
   ("MinLength", ("Integer", some "String")), ("MinValue", ("Integer", some "Number")), ("NoEcho", ("Boolean", none)), ("Type", ("String", none))]

/-- `isinstance(value, (dict, list))`, parameters/Configuration.py:77-82; `str(value)` does not raise. -/
def textTypeCheck (v : Val) (path : Path) : List Path :=
  if isDictVal v || isListVal v then [path] else []

/-- `check_type`, parameters/Configuration.py:62-101; the elements of lists are texts (parameters/Configuration.py:21-24). -/
def paramTypeCheck (ty : String) (v : Val) (path : Path) : List Path :=
  if ty = "List" then
    match v with
    | .list xs => xs.zipIdx.flatMap (fun xi => textTypeCheck xi.1 (path ++ [.int xi.2]))
    | _ => [path]
  else if ty = "String" then textTypeCheck v path
  else if ty = "Boolean" then (if isBoolVal v || v ∈ [.str "True", .str "true", .str "False", .str "false"] then [] else [path])
  else if ty = "Integer" then (if isBoolVal v then [path] else if intReads v then [] else [path])
  else []

/-- a property for parameters of one type, parameters/Configuration.py:117-127 -/
def onlyForCheck (name : Key) (ty : Val) (k : Key) : Option String → List (Path × ParamFault)
  | none => []
  | some only => if ty.truthy && ty != .str only then [([.str "Parameters", name, k], .onlyFor)] else []

/-- one property of a parameter, parameters/Configuration.py:107-127; `ty` is `paramvalue.get('Type')`. -/
def paramPropCheck (name : Key) (ty : Val) (kv : Key × Val) : List (Path × ParamFault) :=
  match kv.1 with
  | .int _ => [([.str "Parameters", name, kv.1], .unknown)]
  | .str k =>
    match dlookup k paramProps with
    | none => [([.str "Parameters", name, kv.1], .unknown)]
    | some props =>
      (paramTypeCheck props.1 kv.2 [.str "Parameters", name, kv.1]).map (fun p => (p, .type)) ++
      onlyForCheck name ty kv.1 props.2

/-- one parameter, parameters/Configuration.py:107-135 -/
def paramCheck (kv : Key × Val) : PyM (List (Path × ParamFault)) :=
  match kv.2 with
  | .dict o => .ok (o.flatMap (paramPropCheck kv.1 ((dlookup (Key.str "Type") o).getD .none)) ++
      (if dhas (Key.str "Type") o then [] else [([.str "Parameters", kv.1], .missing)]))
  | v => .error (attrErr v "items")

/-- `match`, parameters/Configuration.py:103-137 -/
def parametersRule (t : Val) : PyM (List (Path × ParamFault)) :=
  match parameterItems t with
  | .error e => .error e
  | .ok ps => collectM paramCheck ps

/-! ### E2002 -/

/-- `VALID_PARAMETER_TYPES_SINGLE`, helpers.py:146-173 -/
def singleParameterTypes : List String :=
  ["AWS::EC2::AvailabilityZone::Name", "AWS::EC2::Image::Id", "AWS::EC2::Instance::Id", "AWS::EC2::KeyPair::KeyName", "AWS::EC2::SecurityGroup::GroupName",
   "AWS::EC2::SecurityGroup::Id", "AWS::EC2::Subnet::Id", "AWS::EC2::VPC::Id", "AWS::EC2::Volume::Id", "AWS::Route53::HostedZone::Id", "AWS::SSM::Parameter::Name",
   "Number", "String", "AWS::SSM::Parameter::Value<AWS::EC2::AvailabilityZone::Name>", "AWS::SSM::Parameter::Value<AWS::EC2::Image::Id>",
   "AWS::SSM::Parameter::Value<AWS::EC2::Instance::Id>", "AWS::SSM::Parameter::Value<AWS::EC2::KeyPair::KeyName>",
   "AWS::SSM::Parameter::Value<AWS::EC2::SecurityGroup::GroupName>", "AWS::SSM::Parameter::Value<AWS::EC2::SecurityGroup::Id>",
   "AWS::SSM::Parameter::Value<AWS::EC2::Subnet::Id>", "AWS::SSM::Parameter::Value<AWS::EC2::VPC::Id>", "AWS::SSM::Parameter::Value<AWS::EC2::Volume::Id>",
   "AWS::SSM::Parameter::Value<AWS::Route53::HostedZone::Id>", "AWS::SSM::Parameter::Value<AWS::SSM::Parameter::Name>",
   "AWS::SSM::Parameter::Value<Number>", "AWS::SSM::Parameter::Value<String>"]

/-- one parameter, Types.py:25-31 -/
def paramTypeKnown (kv : Key × Val) : PyM (List Path) :=
  match kv.2.getD "Type" (.str "String") with
  | .error e => .error e
  | .ok ty => .ok (if (singleParameterTypes ++ listParameterTypes).any (fun s => Val.str s == ty) then [] else [[.str "Parameters", kv.1, .str "Type"]])

/-- `match`, Types.py:18-33 -/
def parameterTypesRule (t : Val) : PyM (List Path) :=
  match parameterItems t with
  | .error e => .error e
  | .ok ps => collectM paramTypeKnown ps

/-! ### E3001 -/

/-- the kinds of findings on a resource -/
inductive ResFault where
  /-- what is no object -/
  | shape
  /-- a condition that is no text -/
  | condition
  /-- a type that is no text -/
  | typeText
  /-- an attribute that is not known -/
  | attribute
  /-- no type -/
  | noType
  /-- a type that is not known in the region -/
  | badType (region : String)
  /-- no properties, where some are required -/
  | noProperties
deriving DecidableEq

/-- the types of a region, with their properties and whether these are required -/
abbrev TypeTable := List (String × List (String × Bool))

/-- `valid_attributes`, resources/Configuration.py:24-34 -/
def resourceAttributes : List String :=
  ["Condition", "CreationPolicy", "DeletionPolicy", "DependsOn", "Metadata", "Properties", "Type", "UpdatePolicy", "UpdateReplacePolicy"]

/-- `valid_custom_attributes`, resources/Configuration.py:36-45 -/
def customAttributes : List String :=
  ["Condition", "DeletionPolicy", "DependsOn", "Metadata", "Properties", "Type", "UpdateReplacePolicy", "Version"]

/-- the attributes that are not known, resources/Configuration.py:75-85 -/
def attributesCheck (ty : String) (path : Path) (o : List (Key × Val)) : List (Path × ResFault) :=
  o.flatMap (fun kv =>
    if (if startsWith ty "Custom::" || ty == "AWS::CloudFormation::CustomResource" then customAttributes else resourceAttributes).any (fun s => Key.str s == kv.1) then []
    else [(path ++ [kv.1], .attribute)])

/-- the type in each region, resources/Configuration.py:87-109 (the test of lines 93-98 cannot hold) -/
def typeCheck (specs : List (String × TypeTable)) (registry regions : List String) (ty : String) (path : Path) : List (Path × ResFault) :=
  if ty = "" then [(path, .noType)]
  else specs.flatMap (fun rs =>
    if rs.1 ∈ regions && !dhas ty rs.2 && !decide (ty ∈ registry) && !(startsWith ty "Custom::" || startsWith ty "AWS::Serverless::" || endsWith ty "::MODULE") then
      [(path ++ [.str "Type"], .badType rs.1)]
    else [])

/-- resources without properties, resources/Configuration.py:111-129 -/
def propertiesCheck (specs : List (String × TypeTable)) (regions : List String) (ty : String) (path : Path) (o : List (Key × Val)) : PyM (List (Path × ResFault)) :=
  if dhas (Key.str "Properties") o then .ok []
  else
    match regions with
    | [] => .error (.indexError "list index out of range")
    | r :: _ =>
      match dlookup r specs with
      | none => .error (.keyError r)
      | some table =>
        match dlookup ty table with
        | none => .ok []
        | some ps =>
          .ok (if ps.any Prod.snd && !(ty == "AWS::CloudFormation::WaitCondition" && dhas (Key.str "CreationPolicy") o) then [(path, .noProperties)] else [])

/-- `_check_resource`, resources/Configuration.py:21-131; the path of a name that is no text cannot be joined (resources/Configuration.py:70). -/
def resourceCheck (specs : List (String × TypeTable)) (registry regions : List String) (kv : Key × Val) : PyM (List (Path × ResFault)) :=
  match kv.2 with
  | .dict o =>
    match (dlookup (Key.str "Type") o).getD (.str "") with
    | .str ty =>
      match propertiesCheck specs regions ty [.str "Resources", kv.1] o with
      | .error e => .error e
      | .ok l => .ok ((if ((dlookup (Key.str "Condition") o).getD (.str "")).isStr then [] else [([.str "Resources", kv.1, .str "Condition"], .condition)]) ++
          attributesCheck ty [.str "Resources", kv.1] o ++ typeCheck specs registry regions ty [.str "Resources", kv.1] ++ l)
    | _ =>
      match kv.1 with
      | .int _ => .error (.typeError "sequence item 1: expected str instance, int found")
      | .str _ => .ok ((if ((dlookup (Key.str "Condition") o).getD (.str "")).isStr then [] else [([.str "Resources", kv.1, .str "Condition"], .condition)]) ++
          [([.str "Resources", kv.1], .typeText)])
  | _ => .ok [([.str "Resources", kv.1], .shape)]

/-- `match`, resources/Configuration.py:134-146 -/
def resourcesRule (specs : List (String × TypeTable)) (registry regions : List String) (t : Val) : PyM (List (Path × ResFault)) :=
  match t.getD "Resources" (.dict []) with
  | .error e => .error e
  | .ok (.dict rs) => collectM (resourceCheck specs registry regions) rs
  | .ok _ => .ok [([.str "Resources"], .shape)]

end CfnLint
