import Verif.Model.Refs
import Verif.Model.Scenario
import Verif.Model.Graph
/-
Model of the rules on outputs: E6001 (rules/outputs/Configuration.py), E6002 (rules/outputs/Required.py), E6003 (rules/outputs/Value.py), E6005
(rules/outputs/Description.py) and W6001 (rules/outputs/ImportValue.py), and of E1004 (rules/templates/Description.py). A finding is its path; of the
messages only `'/'.join(path)` is modelled, as it can raise. The table of the attributes of resources is a parameter.
-/
namespace CfnLint

/-! ### E6001 -/

/-- `valid_keys`, outputs/Configuration.py:18-23 -/
def outputKeys : List String := ["Value", "Export", "Description", "Condition"]

/-- `valid_funcs`, outputs/Configuration.py:26 with `FUNCTIONS_SINGLE`, helpers.py:82-90 (in another order; `set('Fn::FindInMap')` is a set of letters) -/
def outputFuncs : List String :=
  ["Fn::Base64", "Fn::GetAtt", "Fn::ImportValue", "Fn::Join", "Fn::FindInMap", "Fn::Select", "Ref", "Fn::If", "Fn::Contains", "Fn::Sub", "Fn::Cidr", "Fn::Transform"]

/-- a match with `'/'.join(path)` in its message: an integer in the path cannot be joined -/
def joinedMatch (path : Path) : PyM (List Path) :=
  if path.all (fun k => match k with | .str _ => true | .int _ => false) then .ok [path]
  else .error (.typeError "sequence item 1: expected str instance, int found")

/-- `check_func`, outputs/Configuration.py:28-53 -/
def outputFunc (value : Val) (path : Path) : PyM (List Path) :=
  match value with
  | .dict [kv] => if outputFuncs.any (fun f => Key.str f == kv.1) then .ok [] else joinedMatch path
  | .dict _ => joinedMatch path
  | .list _ => joinedMatch path
  | _ => .ok []

/-- `check_export`, outputs/Configuration.py:55-82 -/
def outputExport (value : Val) (path : Path) : PyM (List Path) :=
  match value with
  | .dict [kv] => if kv.1 == .str "Name" then outputFunc kv.2 (path ++ [.str "Name"]) else joinedMatch path
  | _ => joinedMatch path

/-- `value = output_value.get(...); if value: ...`, outputs/Configuration.py:99-105 -/
def whereGiven (check : Val → Path → PyM (List Path)) (v : Option Val) (path : Path) : PyM (List Path) :=
  match v with
  | some v => if v.truthy then check v path else .ok []
  | none => .ok []

/-- one output, outputs/Configuration.py:91-105; what is no object has no method `get` (nothing but an object, a list or a text can be looped over) -/
def outputCheck (kv : Key × Val) : PyM (List Path) :=
  match kv.2 with
  | .dict o =>
    match whereGiven outputFunc (dlookup (Key.str "Value") o) [.str "Outputs", kv.1, .str "Value"] with
    | .error e => .error e
    | .ok a =>
      match whereGiven outputExport (dlookup (Key.str "Export") o) [.str "Outputs", kv.1, .str "Export"] with
      | .error e => .error e
      | .ok b => .ok (o.flatMap (fun prop => if outputKeys.any (fun s => Key.str s == prop.1) then [] else [[.str "Outputs", kv.1, prop.1]]) ++ a ++ b)
  | v => .error (attrErr v "get")

/-- `match`, outputs/Configuration.py:84-108 -/
def outputsRule (t : Val) : PyM (List Path) :=
  match t.getD "Outputs" (.dict []) with
  | .error e => .error e
  | .ok (.dict outs) => collectM outputCheck outs
  | .ok v => .ok (if v.truthy then [[.str "Outputs"]] else [])

/-! ### E6002, E6005 and E1004 -/

/-- outputs/Required.py:22-28 -/
def outputRequired (kv : Key × Val) : PyM (List Path) :=
  match pyIn "Value" kv.2 with
  | .error e => .error e
  | .ok b => .ok (if b then [] else [[.str "Outputs", kv.1, .str "Value"]])

/-- `match`, outputs/Required.py:17-30 -/
def outputRequiredRule (t : Val) : PyM (List Path) :=
  match t.getD "Outputs" (.dict []) with
  | .error e => .error e
  | .ok (.dict outs) => collectM outputRequired outs
  | .ok v => if v.truthy then .error (attrErr v "items") else .ok []

/-- `if description: if not isinstance(description, six.string_types)`, outputs/Description.py:25-28 and templates/Description.py:23-26 -/
def notText (v : Val) : Bool :=
  v.truthy && (match v with | .str _ => false | _ => true)

/-- outputs/Description.py:23-28 -/
def outputText (kv : Key × Val) : PyM (List Path) :=
  match kv.2.getD "Description" .none with
  | .error e => .error e
  | .ok v => .ok (if notText v then [[.str "Outputs", kv.1, .str "Description"]] else [])

/-- `match`, outputs/Description.py:18-30 -/
def outputTextRule (t : Val) : PyM (List Path) :=
  match t.getD "Outputs" (.dict []) with
  | .error e => .error e
  | .ok (.dict outs) => collectM outputText outs
  | .ok v => if v.truthy then .error (attrErr v "items") else .ok []

/-- `match`, templates/Description.py:18-27 -/
def descriptionRule (t : Val) : PyM (List Path) :=
  match t.getD "Description" .none with
  | .error e => .error e
  | .ok v => .ok (if notText v then [[.str "Description"]] else [])

/-! ### E6003 -/

/-- `tree[0] == 'Outputs'` and `tree[2] == 'Value'` for the path with the value behind it, Value.py:38-39 and 57-58 -/
def inOutputValue (pw : Path × Val) : Bool :=
  pw.1.head? == some (.str "Outputs") &&
  (match pw.1 with
    | _ :: _ :: k :: _ => k == .str "Value"
    | [_, _] => pw.2 == .str "Value"
    | _ => false)

/-- `tree[-4] != 'Fn::Join' and tree[-3] != 1`, Value.py:47 and 66 -/
def notJoined (p : Path) : PyM Bool :=
  match p.reverse with
  | _ :: y :: x :: _ => .ok (x != .str "Fn::Join" && y != .int 1)
  | _ => .error (.indexError "list index out of range")

/-- `d.get(k, {})` with a value as key -/
def Val.getV (d k : Val) : PyM Val :=
  match d with
  | .dict kvs =>
    match hashName k with
    | .error e => .error e
    | .ok h => .ok ((h.toKey?.bind (fun k => dlookup k kvs)).getD (.dict []))
  | v => .error (attrErr v "get")

/-- `self.resourcetypes.get(objtype, {}).get('Attributes', {}).get(obj[1], {}).get('Type')`, Value.py:44-45 -/
def attributeType (attrs : String → String → Option String) (ty : Val) (obj : List Val) : PyM (Option String) :=
  match hashName ty with
  | .error e => .error e
  | .ok _ =>
    match obj with
    | _ :: a :: _ =>
      match hashName a with
      | .error e => .error e
      | .ok _ =>
        match ty, a with
        | .str ty, .str a => .ok (attrs ty a)
        | _, _ => .ok none
    | _ => .error (.indexError "list index out of range")

/-- one `Fn::GetAtt`, Value.py:38-52 -/
def listAttribute (attrs : String → String → Option String) (t : Val) (pw : Path × Val) : PyM (List (Path × Val)) :=
  if inOutputValue pw then
    match pw.2 with
    | .list obj =>
      match t.getD "Resources" (.dict []) with
      | .error e => .error e
      | .ok rs =>
        match obj with
        | [] => .error (.indexError "list index out of range")
        | r :: _ =>
          match rs.getV r with
          | .error e => .error e
          | .ok res =>
            match res.getD "Type" .none with
            | .error e => .error e
            | .ok ty =>
              if ty.truthy then
                match attributeType attrs ty obj with
                | .error e => .error e
                | .ok a =>
                  if a = some "List" then
                    match notJoined pw.1 with
                    | .error e => .error e
                    | .ok false => .ok []
                    | .ok true =>
                      if obj.all (fun v => match v with | .str _ => true | _ => false) then .ok [pw]
                      else .error (.typeError "sequence item 2: expected str instance")
                  else .ok []
              else .ok []
    | _ => .ok []
  else .ok []

/-- one `Ref`, Value.py:57-71 -/
def listParameter (t : Val) (pw : Path × Val) : PyM (List (Path × Val)) :=
  if inOutputValue pw then
    match pw.2 with
    | .str s =>
      match t.getD "Parameters" (.dict []) with
      | .error e => .error e
      | .ok ps =>
        match ps.getD s .none with
        | .error e => .error e
        | .ok param =>
          if param.truthy then
            match param.getD "Type" .none with
            | .error e => .error e
            | .ok ty =>
              if ty.truthy then
                match ty with
                | .str ty =>
                  if startsWith ty "List<" then
                    match notJoined pw.1 with
                    | .error e => .error e
                    | .ok b => .ok (if b then [pw] else [])
                  else .ok []
                | v => .error (attrErr v "startswith")
              else .ok []
          else .ok []
    | _ => .ok []
  else .ok []

/-- `match`, Value.py:28-73 -/
def outputValueRule (attrs : String → String → Option String) (t globals : Val) : PyM (List (Path × Val)) :=
  match collectM (listAttribute attrs t) (searchDeepKeys "Fn::GetAtt" t globals) with
  | .error e => .error e
  | .ok a =>
    match collectM (listParameter t) (searchDeepKeys "Ref" t globals) with
    | .error e => .error e
    | .ok b => .ok (a ++ b)

/-! ### W6001 -/

/-- `match`, outputs/ImportValue.py:17-39: three keys and the value make a path of four, so the fourth is the key of an import only where there are four keys. -/
def outputImportRule (t globals : Val) : List (Path × Val) :=
  (searchDeepKeys "Fn::ImportValue" t globals).filter (fun pw =>
    match pw.1 with
    | a :: _ :: b :: c :: _ => a == .str "Outputs" && b == .str "Value" && c == .str "Fn::ImportValue"
    | [a, _, b] => a == .str "Outputs" && b == .str "Value" && pw.2 == .str "Fn::ImportValue"
    | _ => false)

end CfnLint
