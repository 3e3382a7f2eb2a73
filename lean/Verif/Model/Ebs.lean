import Verif.Model.ResProps
import Verif.Model.Regex
import Verif.Model.Scenario
/-
Model of E2504 (rules/resources/ectwo/Ebs.py), of E2506 (rules/resources/ectwo/SecurityGroupIngress.py) and of E3503
(rules/resources/certificatemanager/DomainValidationOptions.py). A finding is its path; the messages are not modelled. `fuel` is the recursion limit.
-/
namespace CfnLint
open Rx

/-- the names of volumes of an instance, Ebs.py:62 -/
def ephemeralRx : Rx := .seq (word "ephemeral".toList) (.alt dig (.alt (.seq (chr '1') dig) (.seq (chr '2') (rng '0' '3'))))

/-- the finding of one type, Ebs.py:27-42 -/
def volumeFault (given : Bool) (path : Path) (v : Val) : List Path :=
  match v with
  | .str s =>
    if s = "io1" then (if given then [] else [path ++ [.str "VolumeType"]])
    else if s = "" then []
    else if given then [path ++ [.str "Iops"]] else []
  | _ => []

/-- `_checkEbs`, Ebs.py:19-44 -/
def ebsCheck (fuel : Nat) (ebs : Val) (path : Path) : PyM (List Path) :=
  match ebs with
  | .dict kvs =>
    match getValues fuel ((dlookup (Key.str "VolumeType") kvs).getD .none) [] with
    | .error e => .error e
    | .ok types =>
      match getValues fuel ((dlookup (Key.str "Iops") kvs).getD .none) [] with
      | .error e => .error e
      | .ok iops => .ok ((types.getD []).flatMap (fun pv => volumeFault iops.isSome path pv.2))
  | _ => .ok []

/-- one device, Ebs.py:57-68 -/
def deviceCheck (fuel : Nat) (path : Path) (xi : Val × Nat) : PyM (List Path) :=
  match xi.1.getD "VirtualName" .none with
  | .error e => .error e
  | .ok name =>
    match xi.1.getD "Ebs" .none with
    | .error e => .error e
    | .ok ebs =>
      if name.truthy then
        match name with
        | .str s => .ok (if ephemeralRx.matchesAll s then [] else [path ++ [.int xi.2, .str "VirtualName"]])
        | _ => .error (.typeError "expected string or bytes-like object")
      else if ebs.truthy then ebsCheck fuel ebs (path ++ [.int xi.2, .str "Ebs"])
      else .ok []

/-- the devices of one resource, Ebs.py:54-68 -/
def devicesOf (fuel : Nat) (r : Path × Val) : PyM (List Path) :=
  match r.2 with
  | .list xs => collectM (deviceCheck fuel r.1) xs.zipIdx
  | _ => .ok []

/-- `match`, Ebs.py:46-69 -/
def ebsRule (fuel : Nat) (t : Val) : PyM (List Path) :=
  match resourceProperties fuel "AWS::EC2::Instance" ["BlockDeviceMappings"] t with
  | .error e => .error e
  | .ok rs =>
    match resourceProperties fuel "AWS::AutoScaling::LaunchConfiguration" ["BlockDeviceMappings"] t with
    | .error e => .error e
    | .ok rs' => collectM (devicesOf fuel) (rs ++ rs')

/-- `check_ingress_rule`, SecurityGroupIngress.py:19-42; `vpc` says whether the group is in a network -/
def ingressCheck (vpc : Bool) (props : Val) (path : Path) : PyM (List Path) :=
  match props.getD (if vpc then "SourceSecurityGroupName" else "SourceSecurityGroupId") .none with
  | .error e => .error e
  | .ok v => .ok (if v.truthy then [path ++ [.str (if vpc then "SourceSecurityGroupName" else "SourceSecurityGroupId")]] else [])

/-- one group, SecurityGroupIngress.py:50-67 -/
def groupIngress (nr : Key × List (Key × Val)) : PyM (List Path) :=
  let props := (dlookup (Key.str "Properties") nr.2).getD (.dict [])
  if props.truthy then
    match props.getD "VpcId" .none with
    | .error e => .error e
    | .ok vpc =>
      match props.getD "SecurityGroupIngress" .none with
      | .error e => .error e
      | .ok (.list xs) => collectM (fun xi : Val × Nat =>
          ingressCheck vpc.truthy xi.1 [.str "Resources", nr.1, .str "Properties", .str "SecurityGroupIngress", .int xi.2]) xs.zipIdx
      | .ok _ => .ok []
  else .ok []

/-- one resource of its own, SecurityGroupIngress.py:71-88 -/
def ownIngress (nr : Key × List (Key × Val)) : PyM (List Path) :=
  let props := (dlookup (Key.str "Properties") nr.2).getD (.dict [])
  match props.getD "GroupId" .none with
  | .error e => .error e
  | .ok g => if props.truthy then ingressCheck g.truthy props [.str "Resources", nr.1, .str "Properties"] else .ok []

/-- `match`, SecurityGroupIngress.py:44-89 -/
def ingressRule (t : Val) : PyM (List Path) :=
  match collectM groupIngress (resourcesOfType ["AWS::EC2::SecurityGroup"] t) with
  | .error e => .error e
  | .ok l =>
    match collectM ownIngress (resourcesOfType ["AWS::EC2::SecurityGroupIngress"] t) with
    | .error e => .error e
    | .ok l' => .ok (l ++ l')

/-- the finding of one set of properties, DomainValidationOptions.py:29-47 -/
def optionFault (path : Path) (obj : Val) : PyM (List Path) :=
  match obj.getD "DomainName" .none with
  | .error e => .error e
  | .ok d =>
    match obj.getD "ValidationDomain" .none with
    | .error e => .error e
    | .ok w =>
      match d, w with
      | .str d, .str w => .ok (if d = w then [] else if endsWith d ("." ++ w) then [] else [path ++ [.str "DomainName"]])
      | _, _ => .ok []

/-- `check_value`, DomainValidationOptions.py:23-48; `sets` is `get_object_without_conditions` -/
def optionCheck (sets : Val → PyM (List (Option Scenario × Val))) (v : Val) (path : Path) : PyM (List Path) :=
  match v with
  | .dict _ =>
    match sets v with
    | .error e => .error e
    | .ok ss => collectM (fun s : Option Scenario × Val => optionFault path s.2) ss
  | _ => .ok []

/-- `match_resource_properties`, DomainValidationOptions.py:50-58 -/
def domainOptionRule (sets : Val → PyM (List (Option Scenario × Val))) (fuel : Nat) (props : Val) (path : Path) : PyM (List Path) :=
  checkValue fuel { value := some (optionCheck sets) } props "DomainValidationOptions" path

end CfnLint
