import Verif.Model.CheckValue
import Verif.Model.Graph
/-
Model of `get_resource_properties` (template.py:269-281) and `_get_sub_resource_properties` (template.py:221-267). A result is its
path and its value. `fuel` is the recursion limit.
-/
namespace CfnLint

/-- one element of a list, template.py:240-265; `rec` goes on with the same keys. The value of a single key that is no condition is
taken in place of the element, and the path lacks the index (template.py:255-260). -/
def subPropItem (rec : Val → Path → PyM (List (Path × Val))) (path : Path) (xi : Val × Nat) : PyM (List (Path × Val)) :=
  match xi.1 with
  | .dict [(k, a)] =>
    if k = .str "Fn::If" then collectM (fun c : Path × Val => rec c.2 c.1) (condValues a (path ++ [.int xi.2, k]))
    else if k = .str "Ref" ∧ a = .str "AWS::NoValue" then .ok []
    else rec a (path ++ [k])
  | .dict kvs => rec (.dict kvs) (path ++ [.int xi.2])
  | _ => .ok []

/-- `_get_sub_resource_properties`, template.py:221-267 -/
def subProps : Nat → List String → Val → Path → PyM (List (Path × Val))
  | 0, _, _, _ => .error .recursionError
  | _ + 1, [], v, path => .ok [(path, v)]
  | n + 1, k :: ks, .dict kvs, path =>
    match dlookup (Key.str k) kvs with
    | none => .ok []
    | some v => subProps n ks v (path ++ [.str k])
  | n + 1, k :: ks, .list xs, path => collectM (subPropItem (subProps n (k :: ks)) path) xs.zipIdx
  | _ + 1, _ :: _, _, _ => .ok []

/-- `get_resource_properties`, template.py:269-281, for the type `ty` and the other keys -/
def resourceProperties (fuel : Nat) (ty : String) (keys : List String) (t : Val) : PyM (List (Path × Val)) :=
  collectM (fun nr : Key × List (Key × Val) =>
    let props := (dlookup (Key.str "Properties") nr.2).getD .none
    if props.truthy then subProps fuel keys props [.str "Resources", nr.1, .str "Properties"] else .ok [])
    (resourcesOfType [ty] t)

end CfnLint
