import Verif.Model.CheckValue
import Verif.Model.Graph
import Verif.Model.Config
import Verif.Model.CondGrammar
/-
Model of E3002 (rules/resources/properties/Properties.py:14-369). A finding is its path; the messages are not modelled. `fuel` is the
recursion limit. The specification is a parameter; resource types are taken to have no `Type` of their own.
-/
namespace CfnLint

/-- what the specification says of a property -/
structure PropRow where
  type : Option String := none
  itemType : Option String := none
  primItem : Option String := none
  prim : Option String := none
deriving DecidableEq, Repr

/-- what the specification says of a type -/
structure TypeRow where
  props : List (Key × PropRow)
  type : Option String := none
  itemType : Option String := none
  additional : Bool := false
deriving DecidableEq, Repr

/-- `ResourceTypes` and `PropertyTypes` -/
structure RowSpecs where
  resources : List (String × TypeRow)
  types : List (String × TypeRow)

/-- the type `name` within the resource type `parent`, Properties.py:204-213 -/
def typeRow (S : RowSpecs) (parent name : String) : Option TypeRow :=
  match dlookup (parent ++ "." ++ name) S.types with
  | some r => some r
  | none => dlookup name S.types

/-- the functions allowed in place of a primitive value, Properties.py:58-60 -/
def primFunctions : List String :=
  ["Fn::Base64", "Fn::GetAtt", "Fn::GetAZs", "Fn::ImportValue", "Fn::Join", "Fn::Split", "Fn::FindInMap", "Fn::Select", "Ref", "Fn::If",
    "Fn::Contains", "Fn::Sub", "Fn::Cidr", "Fn::Transform"]

/-- the functions with the return type `Singular` only (data/ExtendedSpecs/all/02_intrinsic_types.json) -/
def singularFunctions : List String := ["Fn::Base64", "Fn::ImportValue", "Fn::Join", "Fn::Sub"]

mutual
/-- `primitivetypecheck`, Properties.py:28-69; `json` says that the type is `Json` -/
def primCheck (json : Bool) : Val → Path → List Path
  | .list _, p => [p]
  | .dict [(k, v)], p =>
    (if k = .str "Ref" ∧ v = .str "AWS::NotificationARNs" then [p] else []) ++
    (if json then [] else if k = .str "Fn::If" then primIf json v p else if isKeyIn k primFunctions then [] else [p])
  | .dict _, p => if json then [] else [p]
  | _, _ => []
/-- the branches of a condition, Properties.py:52-57 -/
def primIf (json : Bool) : Val → Path → List Path
  | .list [_, a, b], p => primCheck json a (p ++ [.str "Fn::If", .int 1]) ++ primCheck json b (p ++ [.str "Fn::If", .int 2])
  | _, _ => []
end

/-- the name of the resource in an `Fn::GetAtt`, Properties.py:90-94 -/
def attTarget : Val → PyM (Option Val)
  | .list [] => .error (.indexError "list index out of range")
  | .list (x :: _) => .ok (some x)
  | .str s => .ok (some (.str (String.ofList ((splitOn '.' s.toList).headD []))))
  | _ => .ok none

/-- `template.get('Resources', {}).get(name, {}).get('Type')`, Properties.py:96-97 -/
def targetType (t name : Val) : PyM Val :=
  match t.getD "Resources" (.dict []) with
  | .error e => .error e
  | .ok rs =>
    match itemsOf rs with
    | .error _ => .error (attrErr rs "get")
    | .ok l =>
      match name with
      | .list _ => .error (.typeError "unhashable type")
      | .dict _ => .error (.typeError "unhashable type")
      | name => (((toKey name).bind (fun k => dlookup k l)).getD (.dict [])).getD "Type" .none

/-- `Fn::GetAtt` in place of a list, Properties.py:89-103 (`custom = false`) and 146-159 (`custom = true`) -/
def attCheck (t : Val) (custom : Bool) (a : Val) (p : Path) : PyM (List Path) :=
  match attTarget a with
  | .error e => .error e
  | .ok none => .ok []
  | .ok (some name) =>
    if name.truthy then
      match targetType t name with
      | .error e => .error e
      | .ok (.str ty) =>
        .ok (if (custom && ty == "AWS::CloudFormation::CustomResource") || "Custom::".toList.isPrefixOf ty.toList then [] else [p])
      | .ok v => .error (attrErr v "startswith")
    else .ok []

mutual
/-- `_check_list_for_condition`, Properties.py:71-133; `rec` checks an item -/
def objCond (rec : Val → Path → PyM (List Path)) (t : Val) : Val → Path → PyM (List Path)
  | .list [_, a, b], p =>
    match objBranch rec t a (p ++ [.int 1]) with
    | .error e => .error e
    | .ok l =>
      match objBranch rec t b (p ++ [.int 2]) with
      | .error e => .error e
      | .ok l' => .ok (l ++ l')
  | .list _, p => .ok [p]
  | .str s, p => if s.length = 3 then .ok [p ++ [.int 1], p ++ [.int 2]] else .ok [p]
  | .dict kvs, p => if kvs.length = 3 then .error (.typeError "unhashable type: 'slice'") else .ok [p]
  | _, _ => .error (.typeError "object has no len()")
/-- the body of the loop, Properties.py:76-126. For a nested condition the path lacks the key `Fn::If`. -/
def objBranch (rec : Val → Path → PyM (List Path)) (t : Val) : Val → Path → PyM (List Path)
  | .list xs, p => collectM (fun xi : Val × Nat => rec xi.1 (p ++ [.int xi.2])) xs.zipIdx
  | .dict [(k, d)], p =>
    if k = .str "Ref" ∧ d = .str "AWS::NoValue" then .ok []
    else if k = .str "Fn::GetAtt" then attCheck t false d p
    else if k = .str "Fn::If" then objCond rec t d p
    else .ok [p]
  | _, p => .ok [p]
end

/-- a property that is a list of objects, Properties.py:271-290 with `check_list_for_condition`, Properties.py:135-173 -/
def objectsCheck (rec : Val → Path → PyM (List Path)) (t : Val) (v : Val) (p : Path) : PyM (List Path) :=
  match v with
  | .list xs => collectM (fun xi : Val × Nat => rec xi.1 (p ++ [.int xi.2])) xs.zipIdx
  | .dict [(k, d)] =>
    if k = .str "Fn::If" then objCond rec t d (p ++ [k])
    else if k = .str "Fn::FindInMap" then .ok []
    else if k = .str "Fn::GetAtt" then attCheck t true d p
    else if k = .str "Ref" ∧ d = .str "AWS::NoValue" then .ok []
    else .ok [p]
  | _ => .ok [p]

/-- `'List<' not in param_type and '<List' not in param_type and not param_type == 'CommaDelimitedList'`, Properties.py:307, negated -/
def listType (ty : String) : Bool :=
  decide ("List<".toList <:+: ty.toList) || decide ("<List".toList <:+: ty.toList) || ty == "CommaDelimitedList"

/-- a reference in place of a list of primitive values, Properties.py:300-319 -/
def primRef (t : Val) (r : Val) (p : Path) : PyM (List Path) :=
  if r = .str "AWS::NotificationARNs" then .ok []
  else
    match t.getD "Parameters" (.dict []) with
    | .error e => .error e
    | .ok (.dict ps) =>
      match (toKey r).bind (fun k => dlookup k ps) with
      | none => .ok [p]
      | some prm =>
        match prm.subscript (.str "Type") with
        | .error e => .error e
        | .ok ty =>
          if ty.truthy then
            match ty with
            | .str s => .ok (if listType s then [] else [p])
            | .list xs => .ok (if Val.str "List<" ∈ xs ∨ Val.str "<List" ∈ xs then [] else [p])
            | .dict kvs => .ok (if (dlookup (Key.str "List<") kvs).isSome ∨ (dlookup (Key.str "<List") kvs).isSome then [] else [p])
            | _ => .error (.typeError "argument is not iterable")
          else .ok []
    | .ok _ => .ok [p]

/-- a property that is a list of primitive values, Properties.py:292-336 -/
def primsCheck (t : Val) (json : Bool) (v : Val) (p : Path) : PyM (List Path) :=
  match v with
  | .list xs => .ok (xs.zipIdx.flatMap (fun xi => primCheck json xi.1 (p ++ [.int xi.2])))
  | .dict kvs =>
    match dlookup (Key.str "Ref") kvs with
    | some r => primRef t r p
    | none =>
      match kvs with
      | [(k, _)] => .ok (if isKeyIn k singularFunctions then [p] else [])
      | _ => .ok []
  | _ => .ok [p]

/-- `templated_exceptions`, Properties.py:180-186 -/
def templatedExceptions : String → List String
  | "AWS::ApiGateway::RestApi" => ["S3Location"]
  | "AWS::Lambda::Function" => ["Code"]
  | "AWS::Lambda::LayerVersion" => ["Content"]
  | "AWS::ElasticBeanstalk::ApplicationVersion" => ["SourceBundle"]
  | "AWS::StepFunctions::StateMachine" => ["S3Location"]
  | _ => []

/-- `is_function_returning_object`, node.py:84-106 -/
def returnsObject : List (Key × Val) → Bool
  | [(.str "Fn::Select", .list [_, .dict [(.str "Fn::FindInMap", _)]])] => true
  | _ => false

/-- `len(text) == 1 and prop in 'Ref' and text.get(prop) == 'AWS::NoValue'`, Properties.py:263 -/
def namesNoValue : List (Key × Val) → PyM Bool
  | [(.str s, v)] => .ok (decide (s.toList <:+: "Ref".toList) && v == .str "AWS::NoValue")
  | [(.int _, _)] => .error (.typeError "'in <string>' requires string as left operand, not int")
  | _ => .ok false

/-- a key that is not declared, Properties.py:247-267; `rec` checks a value of the same type -/
def unknownKey (rec : Val → Path → PyM (List Path)) (additional : Bool) (kvs : List (Key × Val)) (kv : Key × Val) (p : Path) :
    PyM (List Path) :=
  if kv.1 = .str "Fn::If" ∧ kvs.length = 1 then
    collectM (fun c : Path × Val =>
      match c.2 with
      | .dict m => rec (.dict m) c.1
      | .list xs => collectM (fun xi : Val × Nat => rec xi.1 (c.1 ++ [.int xi.2])) xs.zipIdx
      | _ => .ok []) (condValues kv.2 (p ++ [kv.1]))
  else if returnsObject kvs then .ok []
  else
    match namesNoValue kvs with
    | .error e => .error e
    | .ok b => .ok (if b || additional then [] else [p ++ [kv.1]])

/-- `propertycheck`, Properties.py:195-346, after the type has been looked up -/
def rowCheck (S : RowSpecs) (t : Val) (parent : String) : Nat → String → TypeRow → Val → Path → PyM (List Path)
  | 0, _, _, _, _ => .error .recursionError
  | n + 1, name, row, v, p =>
    let item : Option String → Val → Path → PyM (List Path) := fun ty x q =>
      match typeRow S parent (ty.getD "None") with
      | none => .error (.keyError (ty.getD "None"))
      | some r => rowCheck S t parent n (ty.getD "None") r x q
    if row.props.isEmpty then
      match v with
      | .list xs =>
        if row.type = some "List" then collectM (fun xi : Val × Nat => item row.itemType xi.1 (p ++ [.int xi.2])) xs.zipIdx else .ok []
      | _ => .ok []
    else
      match v with
      | .dict kvs => collectM (fun kv : Key × Val =>
          match dlookup kv.1 row.props with
          | none => unknownKey (rowCheck S t parent n name row) row.additional kvs kv p
          | some d =>
            match d.type with
            | some ty =>
              if ty = "List" then
                match d.primItem with
                | none => objectsCheck (item d.itemType) t kv.2 (p ++ [kv.1])
                | some prim => primsCheck t (prim == "Json") kv.2 (p ++ [kv.1])
              else if ty = "Map" then .ok []
              else item (some ty) kv.2 (p ++ [kv.1])
            | none =>
              match d.prim with
              | some prim => .ok (primCheck (prim == "Json") kv.2 (p ++ [kv.1]))
              | none => .ok []) kvs
      | v => .ok (if v = .str "AWS::NoValue" ∨ (v.isStr = true ∧ name ∈ templatedExceptions parent) then [] else [p])

/-- the type whose declaration is used, Properties.py:360-362 -/
def customType (S : RowSpecs) (ty : String) : String :=
  if "Custom::".toList.isPrefixOf ty.toList && (dlookup ty S.resources).isNone then "AWS::CloudFormation::CustomResource" else ty

/-- `match`, Properties.py:348-369 -/
def propertiesRule (S : RowSpecs) (fuel : Nat) (t : Val) : PyM (List Path) :=
  collectM (fun nr : Key × List (Key × Val) =>
    match dlookup (Key.str "Properties") nr.2, dlookup (Key.str "Type") nr.2 with
    | some props, some (.str ty) =>
      match dlookup (customType S ty) S.resources with
      | none => .ok []
      | some row => rowCheck S t (customType S ty) fuel "" row props [.str "Resources", nr.1, .str "Properties"]
    | some _, some ty => .error (attrErr ty "startswith")
    | _, _ => .ok [])
    (resourcesOfType [] t)

end CfnLint
