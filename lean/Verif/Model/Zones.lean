import Verif.Model.CheckValue
import Verif.Model.Limits
import Verif.Model.Graph
/-
Model of W3010 (rules/resources/properties/AvailabilityZone.py) and of E3050 (rules/resources/iam/RefWithPath.py). A finding is its path.
-/
namespace CfnLint

/-- `check_az_value`, AvailabilityZone.py:50-59. The last key of a path is never a list, so that the inner test always holds. -/
def zoneValue (v : Val) (p : Path) : PyM (List Path) := .ok (if v == .str "all" then [] else [p])

/-- `check`, AvailabilityZone.py:61-80 -/
def zoneRule (fuel : Nat) (props : Val) (path : Path) : PyM (List Path) :=
  match checkValue fuel { value := some zoneValue } props "AvailabilityZone" path with
  | .error e => .error e
  | .ok l =>
    match checkValue fuel { value := some zoneValue } props "AvailabilityZones" path with
    | .error e => .error e
    | .ok l' => .ok (l ++ l')

/-- `check_ref`, RefWithPath.py:28-41; `resources` are those of `get_resources` -/
def pathRef (resources : List (Key × Val)) (v : Val) (p : Path) : PyM (List Path) :=
  match v with
  | .list _ => .error (.typeError "unhashable type: 'list_node'")
  | .dict _ => .error (.typeError "unhashable type: 'dict_node'")
  | v =>
    match (((toKey v).bind (fun k => dlookup k resources)).getD (.dict [])).getD "Properties" (.dict []) with
    | .error e => .error e
    | .ok props =>
      match props.getD "Path" .none with
      | .error e => .error e
      | .ok x => .ok (if x.truthy && x != .str "/" then [p] else [])

/-- `match_resource_properties`, RefWithPath.py:43-58, for AWS::CodeBuild::Project, the one type of the rule -/
def refWithPathRule (t : Val) (fuel : Nat) (props : Val) (path : Path) : PyM (List Path) :=
  match getResources t with
  | .error e => .error e
  | .ok rs => checkValue fuel { ref := some (pathRef rs) } props "ServiceRole" path

end CfnLint
