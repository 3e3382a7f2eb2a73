import Verif.Model.Scenario
import Verif.Model.Limits
import Verif.Model.Graph
/-
Model of the rules about references between resources: W1001 (rules/functions/RelationshipConditions.py), E3005
(rules/resources/DependsOn.py) and W3005 (rules/resources/DependsOnObsolete.py).

Messages are modelled by their variable parts. `tree[-1] == key` of W3005 is structural equality: numbers that Python
calls equal though their types differ (`1 == 1.0`) are not modelled; texts are exact.
-/
namespace CfnLint

/-- the last element of a result of `search_deep_keys`, which is the value found and is passed on as the last element of
the path. Only texts matter: other values are never compared equal to a key of the path. -/
def lastKey : Val → Key
  | .str s => .str s
  | _ => .int 0

/-- `cfn.is_resource_available(path, resource)`, template.py:584-621, where the resource may be any value: lists and
objects cannot be looked up, null and floats are no names of resources -/
def availableAt (enum : String → List String → List String) (tb : CondTable) (t : Val) (path : Path) (resource : Val) :
    PyM (List Scenario) :=
  match pathConds t path with
  | .error e => .error e
  | .ok _ =>
    match toKey resource with
    | some k => isResourceAvailable enum tb t path k
    | none =>
      match t.getD "Resources" (.dict []) with
      | .error e => .error e
      | .ok (.dict _) =>
        match resource with
        | .list _ => .error (.typeError "unhashable type: 'list_node'")
        | .dict _ => .error (.typeError "unhashable type: 'dict_node'")
        | _ => .ok []
      | .ok v => .error (attrErr v "get")

/-- a finding of W1001: the path, the resource named and the scenario -/
structure RelReport where
  path : Path
  name : Val
  scenario : Scenario
deriving DecidableEq, Repr

/-- `value not in PSEUDOPARAMS` -/
def notPseudo : Val → Bool
  | .str s => decide (s ∉ pseudoParams)
  | _ => true

/-- the loop over the scenarios of one reference, RelationshipConditions.py:31-42 and 55-66; `v` is the value found -/
def relOne (enum : String → List String → List String) (tb : CondTable) (t : Val) (path : Path) (v name : Val) :
    PyM (List RelReport) :=
  if notPseudo name then
    match availableAt enum tb t (path ++ [lastKey v]) name with
    | .error e => .error e
    | .ok scs => .ok (scs.map (fun sc => ⟨path, name, sc⟩))
  else .ok []

/-- the resource a `Fn::GetAtt` names, RelationshipConditions.py:49-53 -/
def getAttTarget : Val → PyM Val
  | .list (v :: _) => .ok v
  | .list [] => .error (.indexError "list index out of range")
  | .str s => .ok (.str (beforeDot s))
  | _ => .ok .none

/-- one `Fn::GetAtt`, RelationshipConditions.py:47-66 -/
def relGetAtt (enum : String → List String → List String) (tb : CondTable) (t : Val) (f : Path × Val) :
    PyM (List RelReport) :=
  match getAttTarget f.2 with
  | .error e => .error e
  | .ok name => if name.truthy then relOne enum tb t f.1 f.2 name else .ok []

/-- `match` of W1001, RelationshipConditions.py:21-68 -/
def relationsRule (enum : String → List String → List String) (tb : CondTable) (t globals : Val) : PyM (List RelReport) :=
  match collectM (fun f => relOne enum tb t f.1 f.2 f.2) (searchDeepKeys "Ref" t globals) with
  | .error e => .error e
  | .ok refs =>
    match collectM (relGetAtt enum tb t) (searchDeepKeys "Fn::GetAtt" t globals) with
    | .error e => .error e
    | .ok atts => .ok (refs ++ atts)

/-- the three findings of E3005 -/
inductive DepKind where
  | notText
  | unknown
  | mayNotExist (sc : Scenario)
deriving DecidableEq, Repr

/-- `check_value`, DependsOn.py:18-37; `resources` is the result of `get_resources` -/
def dependsOnValue (enum : String → List String → List String) (tb : CondTable) (t : Val) (resources : List (Key × Val))
    (v : Val) (path : Path) : PyM (List (Path × DepKind)) :=
  match v with
  | .str s =>
    if dhas (Key.str s) resources then
      match isResourceAvailable enum tb t path (.str s) with
      | .error e => .error e
      | .ok scs => .ok ((scs.filter (fun sc => !sc.isEmpty)).map (fun sc => (path, .mayNotExist sc)))
    else .ok [(path, .unknown)]
  | _ => .ok [(path, .notText)]

/-- the values of `DependsOn` of a resource with their paths, DependsOn.py:44-53 and DependsOnObsolete.py:61-71 -/
def dependsOnValues (name : Key) (resource : Val) : PyM (List (Val × Path)) :=
  match resource.getD "DependsOn" .none with
  | .error e => .error e
  | .ok d =>
    if d.truthy then
      match d with
      | .list xs => .ok (xs.zipIdx.map (fun xi => (xi.1, [.str "Resources", name, .str "DependsOn", .int xi.2])))
      | d => .ok [(d, [.str "Resources", name, .str "DependsOn"])]
    else .ok []

/-- `match` of E3005, DependsOn.py:39-55 -/
def dependsOnRule (enum : String → List String → List String) (tb : CondTable) (t : Val) : PyM (List (Path × DepKind)) :=
  match getResources t with
  | .error e => .error e
  | .ok resources =>
    collectM (fun kv =>
      match dependsOnValues kv.1 kv.2 with
      | .error e => .error e
      | .ok vs => collectM (fun vp => dependsOnValue enum tb t resources vp.1 vp.2) vs) resources

/-- `get_resource_references`, DependsOnObsolete.py:18-31: the results below the resource -/
def referencesOf (fn : String) (t globals : Val) (resource : Key) : List (Path × Val) :=
  (searchDeepKeys fn t globals).filter (fun f =>
    match f.1 with
    | .str s :: r :: _ => s == "Resources" && r == resource
    | _ => false)

/-- `tree[-1][0]`, DependsOnObsolete.py:50 -/
def firstOf : Val → PyM Val
  | .list (v :: _) => .ok v
  | .list [] => .error (.indexError "list index out of range")
  | .str s =>
    match s.toList with
    | c :: _ => .ok (.str (String.ofList [c]))
    | [] => .error (.indexError "string index out of range")
  | .dict kvs =>
    match dlookup (Key.int 0) kvs with
    | some v => .ok v
    | none => .error (.keyError "0")
  | _ => .error (.typeError "object is not subscriptable")

/-- a finding of W3005: the place of the dependency and the place of the reference that makes it superfluous -/
abbrev ObsoleteReport := Path × Path

/-- `check_depends_on`, DependsOnObsolete.py:33-54 -/
def obsoleteValue (t globals : Val) (resource : Key) (key : Val) (path : Path) : PyM (List ObsoleteReport) :=
  match collectM (fun f : Path × Val =>
      match firstOf f.2 with
      | .error e => .error e
      | .ok v => .ok (if v = key then [(path, f.1)] else [])) (referencesOf "Fn::GetAtt" t globals resource) with
  | .error e => .error e
  | .ok atts =>
    .ok (((referencesOf "Ref" t globals resource).filter (fun f => f.2 = key)).map (fun f => (path, f.1)) ++ atts)

/-- `match` of W3005, DependsOnObsolete.py:56-73 -/
def obsoleteRule (t globals : Val) : PyM (List ObsoleteReport) :=
  match getResources t with
  | .error e => .error e
  | .ok resources =>
    collectM (fun kv =>
      match dependsOnValues kv.1 kv.2 with
      | .error e => .error e
      | .ok vs => collectM (fun vp => obsoleteValue t globals kv.1 vp.1 vp.2) vs) resources

end CfnLint
