import Verif.Model.CheckValue
import Verif.Model.NodeOps
import Verif.Model.Graph
import Verif.Model.Refs
import Verif.Model.Limits
import Verif.Model.Config
/-
Model of W3037 (rules/resources/iam/Permissions.py). A finding is the kind of its message and its path. `raw` is the table of services of `Policies.json`, as
the prefix and the actions of each service; `decode` is `json.loads` followed by `convert_dict`, and gives nothing where an exception is raised.
-/
namespace CfnLint

/-- the messages of the rule -/
inductive PermFault where
  | notJson | service (s : String) | permission (p s : String)
deriving DecidableEq, Repr

abbrev PermFinding := PermFault × Path

/-- the services and their actions -/
abbrev ServiceMap := List (String × List String)

/-- `policy_service_map[service]` where there is such a service -/
def actionsOf (m : ServiceMap) (s : String) : Option (List String) := (m.find? (fun e => e.1 == s)).map Prod.snd

/-- Permissions.py:55-59 -/
def addService (m : ServiceMap) (s : String) (actions : List String) : ServiceMap :=
  if (actionsOf m s).isSome then m.map (fun e => if e.1 = s then (e.1, e.2 ++ actions) else e) else m ++ [(s, actions)]

/-- `load_service_map`, Permissions.py:42-61 -/
def loadServiceMap (raw : List (String × List String)) : ServiceMap :=
  raw.foldl (fun m e => addService m (lower e.1) (e.2.map lower)) []

/-- `any(w in action for action in actions)` -/
def someContains (actions : List String) (w : List Char) : Bool := actions.any (fun a => decide (w <:+: a.toList))

/-- whether the permission of a known service is accepted, Permissions.py:114-133 -/
def permissionOk (actions : List String) (p : String) : Bool :=
  if p = "*" then true
  else if endsWith p "*" then someContains actions ((splitOn '*' p.toList)[0]?.getD [])
  else if startsWith p "*" then someContains actions ((splitOn '*' p.toList)[1]?.getD [])
  else decide (p ∈ actions)

/-- `action.split(':', 1)`: the texts before and after the first colon -/
def splitColon : List Char → Option (List Char × List Char)
  | [] => none
  | ':' :: cs => some ([], cs)
  | c :: cs => (splitColon cs).map (fun p => (c :: p.1, p.2))

/-- `check_permissions`, Permissions.py:100-146 -/
def checkPermission (m : ServiceMap) (action : Val) (path : Path) : PyM (List PermFinding) :=
  match action with
  | .str a =>
    if a = "*" then .ok []
    else
      match splitColon a.toList with
      | none => .error (.valueError "not enough values to unpack")
      | some (s, p) =>
        match actionsOf m (lower (String.ofList s)) with
        | some actions =>
          .ok (if permissionOk actions (lower (String.ofList p)) then [] else [(.permission (String.ofList p) (String.ofList s), path)])
        | none => .ok [(.service (String.ofList s), path)]
  | v => .error (attrErr v "split")

/-- the actions under `Action`, Permissions.py:153-157 -/
def actionItems : Option Val → List Val
  | some (.str s) => [.str s]
  | some (.list xs) => xs
  | _ => []

/-- the actions under `NotAction`, Permissions.py:159-163: a value that is no text is extended if *`Action`* is a list -/
def notActionItems (action notAction : Option Val) : PyM (List Val) :=
  match notAction with
  | none => .ok []
  | some (.str s) => .ok [.str s]
  | some v =>
    match action with
    | some (.list _) => iterOf v
    | _ => .ok []

/-- `get_actions`, Permissions.py:148-165; `get` of what is no object raises -/
def getActions (st : Val) : PyM (List Val) :=
  match st with
  | .dict kvs =>
    match notActionItems (dlookup (.str "Action") kvs) (dlookup (.str "NotAction") kvs) with
    | .error e => .error e
    | .ok l => .ok (actionItems (dlookup (.str "Action") kvs) ++ l)
  | v =>
    match pyIn "Action" v with
    | .error e => .error e
    | .ok true => .error (attrErr v "get")
    | .ok false =>
      match pyIn "NotAction" v with
      | .error e => .error e
      | .ok true => .error (attrErr v "get")
      | .ok false => .ok []

/-- the actions of an element of the statements, Permissions.py:85-92 -/
def statementActions : Val → PyM (List Val)
  | .dict kvs => getActions (.dict kvs)
  | .list xs => collectM getActions xs
  | _ => .ok []

/-- an element of the statements, Permissions.py:84-96 -/
def permStatement (m : ServiceMap) (path : Path) (si : Val × Nat) : PyM (List PermFinding) :=
  match statementActions si.1 with
  | .error e => .error e
  | .ok actions => collectM (fun a => checkPermission m a (path ++ [.str "Statement", .int si.2])) actions

/-- the list of the statements of a document, Permissions.py:79-84 -/
def statementList (kvs : List (Key × Val)) : List Val :=
  match dlookup (.str "Statement") kvs with
  | some (.list xs) => xs
  | some (.dict []) => []
  | some (.dict es) => [.dict es]
  | _ => []

/-- the documents a document may be, Permissions.py:78-98 -/
def permObject (m : ServiceMap) (kvs : List (Key × Val)) (path : Path) : PyM (List PermFinding) :=
  collectM (fun dp : Val × Path =>
    match dp.1 with
    | .dict es => collectM (permStatement m dp.2) (statementList es).zipIdx
    | _ => .ok []) (itemsSafe [.dict] kvs path)

/-- `check_policy_document`, Permissions.py:63-98 -/
def permDocument (decode : String → Option Val) (m : ServiceMap) (value : Val) (path : Path) : PyM (List PermFinding) :=
  match value with
  | .str s =>
    match decode s with
    | none => .ok [(.notJson, path)]
    | some (.dict kvs) => permObject m kvs path
    | some _ => .ok []
  | .dict kvs => permObject m kvs path
  | _ => .ok []

/-- Permissions.py:182 -/
def permKeys : List String := ["KeyPolicy", "PolicyDocument", "RepositoryPolicyText", "AccessPolicies"]

/-- a property, Permissions.py:172-189 -/
def permProperty (fuel : Nat) (decode : String → Option Val) (m : ServiceMap) (kvs : List (Key × Val)) (path : Path) (kv : Key × Val) :
    PyM (List PermFinding) :=
  match kv with
  | (.str "Policies", .list xs) =>
    collectM (fun xi : Val × Nat => checkValue fuel { value := some (permDocument decode m) } xi.1 "PolicyDocument"
      (path ++ [.str "Policies", .int xi.2])) xs.zipIdx
  | (.str k, _) => if k ∈ permKeys then checkValue fuel { value := some (permDocument decode m) } (.dict kvs) k path else .ok []
  | _ => .ok []

/-- `match_resource_properties`, Permissions.py:167-191, with the table of the services, Permissions.py:35-38 -/
def permissions (fuel : Nat) (decode : String → Option Val) (raw : List (String × List String)) (kvs : List (Key × Val)) (path : Path) :
    PyM (List PermFinding) :=
  collectM (permProperty fuel decode (loadServiceMap raw) kvs path) kvs

end CfnLint
