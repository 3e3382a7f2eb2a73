import Verif.Model.ValueSpecs
import Verif.Model.Refs
import Verif.Model.Scenario
/-
Model of the rules that compare the values of parameters with what the specification says of the properties they are used for: W2030
(rules/parameters/AllowedValue.py) and W2031 (rules/parameters/AllowedPattern.py). A finding is its path; the messages are not modelled. What the rule
says of a text (`bad`) is `none` where nothing is specified.
-/
namespace CfnLint

/-- `value in cfn.template.get('Parameters', {})` and `cfn.template.get('Parameters').get(value, {})`, parameters/AllowedValue.py:48-49. Values in a list are compared as they are written. -/
def paramOf (t value : Val) : PyM (Option (Key × Val)) :=
  match t.getD "Parameters" (.dict []) with
  | .error e => .error e
  | .ok (.dict ps) =>
    match hashName value with
    | .error e => .error e
    | .ok h => .ok (h.toKey?.bind (fun k => (dlookup k ps).map (fun v => (k, v))))
  | .ok (.list xs) => if value ∈ xs then .error (attrErr (.list xs) "get") else .ok none
  | .ok (.str s) =>
    match value with
    | .str v => if v.toList <:+: s.toList then .error (attrErr (.str s) "get") else .ok none
    | _ => .error (.typeError "'in <string>' requires string as left operand")
  | .ok _ => .error (.typeError "argument is not iterable")

/-- a type whose values are single texts of the template, parameters/AllowedValue.py:54-56 -/
def singleType (ty : String) : Bool :=
  !startsWith ty "List<" && !startsWith ty "AWS::SSM::Parameter::Value<" && !decide (ty ∈ ["CommaDelimitedList", "List<String>"])

/-- `for index, allowed_value in enumerate(parameter_values)`, parameters/AllowedValue.py:59 -/
def enumerated : Val → PyM (List Val)
  | .list xs => .ok xs
  | .dict kvs => .ok (kvs.map (fun kv => kv.1.toVal))
  | .str s => .ok (s.toList.map (fun c => .str (String.ofList [c])))
  | _ => .error (.typeError "object is not iterable")

/-- the values of a parameter, parameters/AllowedValue.py:50-71 -/
def paramValues (E : PyText) (bad : String → Bool) (k : Key) (param : Val) : PyM (List Path) :=
  match param with
  | .dict o =>
    match (dlookup (Key.str "Type") o).getD .none with
    | .str ty =>
      if singleType ty then
        match (if ((dlookup (Key.str "AllowedValues") o).getD .none).truthy then enumerated ((dlookup (Key.str "AllowedValues") o).getD .none) else .ok []) with
        | .error e => .error e
        | .ok xs => .ok (xs.zipIdx.flatMap (fun xi => if bad (strOf E xi.1) then [[.str "Parameters", k, .str "AllowedValues", .int xi.2]] else []) ++
            (if ((dlookup (Key.str "Default") o).getD .none).truthy && bad (strOf E ((dlookup (Key.str "Default") o).getD .none)) then [[.str "Parameters", k, .str "Default"]] else []))
      else .ok []
    | _ => .ok []
  | v => .error (attrErr v "get")

/-- the resource of a path has a condition, parameters/AllowedValue.py:37-38 -/
def conditioned (t : Val) (path : Path) : PyM Bool :=
  match path with
  | [] => .error (.indexError "list index out of range")
  | a :: rest =>
    if a = .str "Resources" then
      match t.getD "Resources" (.dict []) with
      | .error e => .error e
      | .ok rs =>
        match rest with
        | [] => .error (.indexError "list index out of range")
        | n :: _ =>
          match rs.getK n .none with
          | .error e => .error e
          | .ok r => pyIn "Condition" r
    else .ok false

/-- `check_value_ref`, parameters/AllowedValue.py:28-73 and parameters/AllowedPattern.py:28-76 -/
def paramUse (E : PyText) (t : Val) (bad : Option (String → Bool)) (value : Val) (path : Path) : PyM (List Path) :=
  if Key.str "Fn::If" ∈ path then .ok []
  else
    match conditioned t path with
    | .error e => .error e
    | .ok true => .ok []
    | .ok false =>
      match bad with
      | none => .ok []
      | some bad =>
        match paramOf t value with
        | .error e => .error e
        | .ok none => .ok []
        | .ok (some (k, param)) => paramValues E bad k param

/-- the texts that are not allowed, parameters/AllowedValue.py:44-46, 60 and 67 -/
def badAllowed (vt : ValueType) : Option (String → Bool) :=
  if vt.allowed.isEmpty then none else some (fun s => !decide (s ∈ vt.allowed))

/-- the texts that the pattern does not match, parameters/AllowedPattern.py:44-48, 61 and 69 -/
def badPattern (E : PyText) (vt : ValueType) : Option (String → Bool) :=
  if vt.pattern = "" then none else some (fun s => !E.matches_ vt.pattern s)

/-- `check`, parameters/AllowedValue.py:75-117 and parameters/AllowedPattern.py:78-120, with the methods that call it -/
def paramUseRule (E : PyText) (fuel : Nat) (t : Val) (bad : ValueType → Option (String → Bool)) (rows : List (String × ValueRow)) (obj : Val) (path : Path) : PyM (List Path) :=
  eachDeclared rows (fun prop d v p =>
    match d.valueType with
    | none => .ok []
    | some vt => checkValue fuel { ref := some (paramUse E t (bad vt)) } v prop p) obj path

end CfnLint
