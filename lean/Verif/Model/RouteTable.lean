import Verif.Model.CheckValue
import Verif.Model.Graph
/-
Model of rule E3022 (rules/resources/ectwo/RouteTableAssociation.py). A finding is the name of the resource, its path being
`Resources/<name>/Properties/SubnetId`, and the names of the other resources. `==` of values of different types of numbers is simplified to
equality.
-/
namespace CfnLint

/-- what a value of `SubnetId` is recorded as: the condition of the resource, the condition of the value, and the text -/
structure SubnetUse where
  resCond : Val
  propCond : Val
  subnet : Val
deriving DecidableEq, Repr

/-- `'.'.join(value)` of a list -/
def dotJoin : List Val → PyM String
  | [] => .ok ""
  | [.str s] => .ok s
  | .str s :: rest =>
    match dotJoin rest with
    | .error e => .error e
    | .ok r => .ok (s ++ "." ++ r)
  | _ => .error (.typeError "sequence item: expected str instance")

/-- RouteTableAssociation.py:45-48: the text of a `Fn::GetAtt`, none if the second element is no text -/
def subnetAtt : Val → PyM (Option String)
  | .list (x :: y :: rest) =>
    if y.isStr then
      match dotJoin (x :: y :: rest) with
      | .error e => .error e
      | .ok s => .ok (some s)
    else .ok none
  | .list _ => .error (.indexError "list index out of range")
  | .str s =>
    if 2 ≤ s.toList.length then
      match dotJoin (s.toList.map (fun c => .str (String.ofList [c]))) with
      | .error e => .error e
      | .ok r => .ok (some r)
    else .error (.indexError "string index out of range")
  | .dict kvs =>
    match dlookup (Key.int 1) kvs with
    | none => .error (.keyError "1")
    | some (.str _) => .error (.typeError "sequence item: expected str instance")
    | some _ => .ok none
  | _ => .error (.typeError "object is not subscriptable")

/-- `get_values`, RouteTableAssociation.py:29-52. Only the innermost condition is kept, and not which branch was taken. -/
def subnetValues (rc : Val) : Val → Val → PyM (List SubnetUse)
  | pc, .dict [(k, v)] =>
    if k = .str "Fn::If" then
      match v with
      | .list [c, a, b] =>
        match subnetValues rc c a with
        | .error e => .error e
        | .ok l =>
          match subnetValues rc c b with
          | .error e => .error e
          | .ok r => .ok (l ++ r)
      | _ => .ok []
    else if k = .str "Ref" then subnetValues rc pc v
    else if k = .str "Fn::GetAtt" then
      match subnetAtt v with
      | .error e => .error e
      | .ok (some s) => .ok [⟨rc, pc, .str s⟩]
      | .ok none => .ok []
    else .ok []
  | _, .dict _ => .ok []
  | pc, v => .ok [⟨rc, pc, v⟩]

/-- lists and objects cannot be keys of a dictionary -/
def unhashable : Val → Bool
  | .list _ => true
  | .dict _ => true
  | _ => false

/-- `check_values`, RouteTableAssociation.py:54-60, with 65-69: the values that are recorded for the resource -/
def subnetRecord (kv : Key × List (Key × Val)) : PyM (List (Key × SubnetUse)) :=
  match (dlookup (Key.str "Properties") kv.2).getD .none with
  | .dict [] => .ok []
  | .dict ps =>
    match subnetValues ((dlookup (Key.str "Condition") kv.2).getD .none) .none ((dlookup (Key.str "SubnetId") ps).getD .none) with
    | .error e => .error e
    | .ok us =>
      if us.any (fun u => unhashable u.resCond || unhashable u.propCond || unhashable u.subnet) then
        .error (.typeError "unhashable type")
      else .ok (us.map (fun u => (kv.1, u)))
  | v => if v.truthy then .error (attrErr v "get") else .ok []

/-- RouteTableAssociation.py:72-80: the other resources -/
def otherResources (all : List (Key × SubnetUse)) (name : Key) (u : SubnetUse) : List Key :=
  let assoc := fun v => (all.filter (fun x => x.2 = v)).map Prod.fst
  (if 1 < (assoc u).length then (assoc u).filter (fun n => n ≠ name) else []) ++
    (if u ≠ ⟨.none, .none, u.subnet⟩ then assoc ⟨.none, .none, u.subnet⟩ else [])

/-- `match`, RouteTableAssociation.py:62-91 -/
def routeTableRule (t : Val) : PyM (List (Key × List Key)) :=
  match collectM subnetRecord (resourcesOfType ["AWS::EC2::SubnetRouteTableAssociation"] t) with
  | .error e => .error e
  | .ok all =>
    .ok (all.flatMap (fun x =>
      if otherResources all x.1 x.2 = [] then [] else [(x.1, otherResources all x.1 x.2)]))

end CfnLint
