import Verif.Model.Limits
import Verif.Model.Graph
/-
Model of the rules on the interface of a template: E4001 (rules/metadata/InterfaceConfiguration.py) and W4001 (rules/metadata/InterfaceParameterExists.py), of
E3007 (rules/resources/UniqueNames.py), and of `get_parameter_names` (template.py:124-132).
-/
namespace CfnLint

/-- `get_parameter_names`, template.py:124-132 -/
def parameterNames (t : Val) : PyM (List Key) :=
  match t.getD "Parameters" (.dict []) with
  | .error e => .error e
  | .ok (.dict ps) => .ok (ps.map Prod.fst)
  | .ok _ => .ok []

/-- the metadata and in them the interface, InterfaceConfiguration.py:29-31: `none` where no metadata are -/
def interfaceOf (t : Val) : PyM (Option Val) :=
  match t.getD "Metadata" (.dict []) with
  | .error e => .error e
  | .ok m =>
    if m.truthy then
      match m.getD "AWS::CloudFormation::Interface" (.dict []) with
      | .error e => .error e
      | .ok i => .ok (some i)
    else .ok none

/-- the start of all paths -/
def interfacePath : Path := [.str "Metadata", .str "AWS::CloudFormation::Interface"]

/-- what a key of a path is made from -/
def pathKey (v : Val) : Key := (toKey v).getD (.str "")

/-- one group, InterfaceConfiguration.py:42-48 -/
def groupKeys (iv : Val × Nat) : PyM (List Path) :=
  match iterOf iv.1 with
  | .error e => .error e
  | .ok ks => .ok ((ks.filter (fun k => !(k == .str "Label" || k == .str "Parameters"))).map
      (fun k => interfacePath ++ [.str "ParameterGroups", .int iv.2, pathKey k]))

/-- `match`, InterfaceConfiguration.py:22-50 -/
def interfaceRule (t : Val) : PyM (List Path) :=
  match interfaceOf t with
  | .error e => .error e
  | .ok (some (.dict kvs)) =>
    match iterOf ((dlookup (Key.str "ParameterGroups") kvs).getD (.list [])) with
    | .error e => .error e
    | .ok groups =>
      match collectM groupKeys groups.zipIdx with
      | .error e => .error e
      | .ok l => .ok ((kvs.filter (fun kv => !(kv.1 == .str "ParameterGroups" || kv.1 == .str "ParameterLabels"))).map (fun kv => interfacePath ++ [kv.1]) ++ l)
  | .ok _ => .ok []

/-- `value['Parameters']` of a value that has it -/
def getParametersItem : Val → PyM Val
  | .dict kvs =>
    match dlookup (Key.str "Parameters") kvs with
    | some v => .ok v
    | none => .error (.keyError "Parameters")
  | _ => .error (.typeError "indices must be integers")

/-- `paramvalue not in parameters` -/
def notAmong (params : List Key) (v : Val) : Bool := !params.any (fun k => k.toVal == v)

/-- one group, InterfaceParameterExists.py:37-45 -/
def groupParams (params : List Key) (iv : Val × Nat) : PyM (List Path) :=
  match pyIn "Parameters" iv.1 with
  | .error e => .error e
  | .ok false => .ok []
  | .ok true =>
    match getParametersItem iv.1 with
    | .error e => .error e
    | .ok ps =>
      match iterOf ps with
      | .error e => .error e
      | .ok names => .ok ((names.zipIdx.filter (fun nj => notAmong params nj.1)).map
          (fun nj => interfacePath ++ [.str "ParameterGroups", .int iv.2, .str "Parameters", .int nj.2]))

/-- `match`, InterfaceParameterExists.py:22-56 -/
def interfaceParams (t : Val) : PyM (List Path) :=
  match parameterNames t with
  | .error e => .error e
  | .ok params =>
    match interfaceOf t with
    | .error e => .error e
    | .ok (some (.dict kvs)) =>
      match (match (dlookup (Key.str "ParameterGroups") kvs).getD (.list []) with
        | .list groups => collectM (groupParams params) groups.zipIdx
        | _ => .ok []) with
      | .error e => .error e
      | .ok l =>
        .ok (l ++ (match (dlookup (Key.str "ParameterLabels") kvs).getD (.dict []) with
          | .dict labels => (labels.filter (fun kv => !params.contains kv.1)).map (fun kv => interfacePath ++ [.str "ParameterLabels", kv.1])
          | _ => []))
    | .ok _ => .ok []

/-- `match`, UniqueNames.py:15-20; where `Parameters` is a text, which would be searched, the model raises -/
def uniqueNames (t : Val) : PyM (List Path) :=
  match getResources t with
  | .error e => .error e
  | .ok rs => collectM (fun r =>
      match t.getD "Parameters" (.dict []) with
      | .error e => .error e
      | .ok (.dict ps) => .ok (if dhas r.1 ps then [[.str "Resources", r.1]] else [])
      | .ok (.list xs) => .ok (if xs.any (fun x => x == r.1.toVal) then [[.str "Resources", r.1]] else [])
      | .ok _ => .error (.typeError "argument is not iterable")) rs

end CfnLint
