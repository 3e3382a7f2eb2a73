import Verif.Model.ValueSpecs
import Verif.Model.Config
import Verif.Model.Graph
/-
Model of E3008 (rules/resources/properties/ValueRefGetAtt.py): what the specification says of the references in the values of properties. A finding is its path; the
messages are not modelled, nor is what is printed at line 175. `fuel` is the recursion limit of `get_values`.
-/
namespace CfnLint

/-- `Ref` of an entry of `ValueTypes`: the types of parameters that the entries of `ParameterTypes` it names have, and the types of resources; an absent and an empty list of
resources are not told apart. Every entry that is shipped names entries of `ParameterTypes` that exist. -/
structure RefSpec where
  parameters : List (List String)
  resources : List String

/-- an entry of `ValueTypes`: `Ref`, and for each type of resource in `GetAtt` the attributes; a single attribute is a list of one -/
structure RefAttType where
  ref : Option RefSpec := none
  getAtt : Option (List (String × List String)) := none

/-- the declaration of a property: whether it has a `Value`, and the entries of `ValueTypes` that `ValueType` and `ListValueType` name; no entry is an empty one -/
structure RefAttRow extends PropRow where
  hasValue : Bool := true
  valueType : RefAttType := {}
  listType : RefAttType := {}

/-- `is_value_a_list`, ValueRefGetAtt.py:26-41, of the path read from its end -/
def isWholeRev (prop : String) : List Key → PyM Bool
  | [] => .error (.indexError "list index out of range")
  | .str s :: _ => .ok (decide (s = prop))
  | [.int _] => .error (.indexError "list index out of range")
  | .int _ :: k :: rest => if k = .str "Fn::If" then isWholeRev prop rest else .ok false

/-- `is_value_a_list`, ValueRefGetAtt.py:26-41 -/
def isWhole (prop : String) (path : Path) : PyM Bool := isWholeRev prop path.reverse

/-- `value in section` followed by `section.get(value, {})`, ValueRefGetAtt.py:62-63, 83-84 -/
def sectionEntry (sec v : Val) : PyM (Option Val) :=
  match sec with
  | .dict kvs =>
    match v with
    | .list _ => .error (.typeError "unhashable type")
    | .dict _ => .error (.typeError "unhashable type")
    | v => .ok ((toKey v).bind (fun k => dlookup k kvs))
  | .list xs => if v ∈ xs then .error (attrErr sec "get") else .ok none
  | .str t =>
    match v with
    | .str s => if s.toList <:+: t.toList then .error (attrErr sec "get") else .ok none
    | _ => .error (.typeError "'in <string>' requires string as left operand")
  | _ => .error (.typeError "argument is not iterable")

/-- a reference to an entry of a section whose types are not among those given, ValueRefGetAtt.py:62-82 and 83-98: an empty list of types has no valid ones either -/
def refSection (t : Val) (name : String) (types : List String) (v : Val) (p : Path) : PyM (List Path) :=
  match t.getD name (.dict []) with
  | .error e => .error e
  | .ok sec =>
    match sectionEntry sec v with
    | .error e => .error e
    | .ok none => .ok []
    | .ok (some entry) =>
      match entry.getD "Type" .none with
      | .error e => .error e
      | .ok ty => .ok (if types.any (fun x => Val.str x == ty) then [] else [p])

/-- `check_value_ref`, ValueRefGetAtt.py:43-100; the path ends in `Ref` -/
def refUseCheck (t : Val) (prop : String) (d : RefAttRow) (v : Val) (p : Path) : PyM (List Path) :=
  match (if d.type = some "List" then isWhole prop p.dropLast else .ok false) with
  | .error e => .error e
  | .ok whole =>
    match (if whole then d.listType.ref else d.valueType.ref) with
    | none => .ok []
    | some s =>
      match refSection t "Parameters" s.parameters.flatten v p with
      | .error e => .error e
      | .ok l =>
        match refSection t "Resources" s.resources v p with
        | .error e => .error e
        | .ok l' => .ok (l ++ l')

/-- the resource and the parts of the attribute, ValueRefGetAtt.py:111-119 -/
def attParts (v : Val) : PyM (Val × List Val) :=
  match v with
  | .list [] => .error (.indexError "list index out of range")
  | .list [r, .str a] => .ok (r, (splitOn '.' a.toList).map (fun x => .str (String.ofList x)))
  | .list [_, a] => .error (attrErr a "split")
  | .list (r :: as) => .ok (r, as)
  | .str s =>
    match (splitOn '.' s.toList).map (fun x => Val.str (String.ofList x)) with
    | r :: as => .ok (r, as)
    | [] => .error (.indexError "list index out of range")
  | _ => .error (.other "UnboundLocalError")

/-- `cfn.template.get('Resources', {}).get(resource_name, {}).get('Type')`, ValueRefGetAtt.py:126 -/
def usedType (t : Val) (r : Val) : PyM Val :=
  match t.getD "Resources" (.dict []) with
  | .error e => .error e
  | .ok (.dict kvs) =>
    match r with
    | .list _ => .error (.typeError "unhashable type")
    | .dict _ => .error (.typeError "unhashable type")
    | r => (((toKey r).bind (fun k => dlookup k kvs)).getD (.dict [])).getD "Type" .none
  | .ok v => .error (attrErr v "get")

/-- `is_custom_resource`, helpers.py:385-387 -/
def isCustomResource (ty : Val) : PyM Bool :=
  if !ty.truthy then .ok false
  else if ty = .str "AWS::CloudFormation::CustomResource" then .ok true
  else
    match ty with
    | .str s => .ok (startsWith s "Custom::")
    | v => .error (attrErr v "startswith")

/-- `'.'.join(map(str, resource_attribute))` -/
def attText (E : PyText) (as : List Val) : String := String.ofList (List.intercalate ['.'] (as.map (fun a => (strOf E a).toList)))

/-- ValueRefGetAtt.py:142-183 -/
def attSpecCheck (E : PyText) (spec : Option (List (String × List String))) (ty : Val) (as : List Val) (p : Path) : List Path :=
  match spec with
  | none => []
  | some g =>
    match g.find? (fun e => Val.str e.1 == ty) with
    | none => [p]
    | some e => if attText E as ∈ e.2 then [] else [p]

/-- ValueRefGetAtt.py:132 -/
def stackTypes : List Val := [.str "AWS::CloudFormation::Stack", .str "AWS::ServiceCatalog::CloudFormationProvisionedProduct"]

/-- `check_value_getatt`, ValueRefGetAtt.py:102-185; the path ends in `Fn::GetAtt` -/
def attUseCheck (E : PyText) (t : Val) (prop : String) (d : RefAttRow) (v : Val) (p : Path) : PyM (List Path) :=
  match attParts v with
  | .error e => .error e
  | .ok (r, as) =>
    match isWhole prop p.dropLast with
    | .error e => .error e
    | .ok whole =>
      match usedType t r with
      | .error e => .error e
      | .ok ty =>
        match isCustomResource ty with
        | .error e => .error e
        | .ok true => .ok []
        | .ok false =>
          if ty ∈ stackTypes then
            match as with
            | [] => .error (.indexError "list index out of range")
            | a :: _ =>
              if a = .str "Outputs" then .ok (if whole && d.type = some "List" then [p] else [])
              else .ok (attSpecCheck E (if whole && d.type = some "List" then d.listType.getAtt else d.valueType.getAtt) ty as p)
          else .ok (attSpecCheck E (if whole && d.type = some "List" then d.listType.getAtt else d.valueType.getAtt) ty as p)

/-- `check`, ValueRefGetAtt.py:187-211 -/
def refAttRule (E : PyText) (t : Val) (fuel : Nat) (rows : List (String × RefAttRow)) (obj : Val) (path : Path) : PyM (List Path) :=
  eachDeclared rows (fun prop d v p =>
    if d.hasValue then checkValue fuel { ref := some (refUseCheck t prop d), getAtt := some (attUseCheck E t prop d) } v prop p else .ok []) obj path

end CfnLint
