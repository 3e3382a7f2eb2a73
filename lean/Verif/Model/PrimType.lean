import Verif.Model.CheckValue
import Verif.Model.PropCheck
import Verif.Model.PropSets
import Verif.Model.FnShape
/-
Model of E3012 (rules/resources/properties/ValuePrimitiveType.py:12-197) and of the loops over the declared properties that it shares
with other rules. A finding is its path; the messages are not modelled. `fuel` is the recursion limit of `get_values`.
-/
namespace CfnLint

/-- `for prop in v: if prop in specs: ...`, ValuePrimitiveType.py:155-156 -/
def declaredIn {ρ α : Type} (rows : List (String × ρ)) (f : String → ρ → PyM (List α)) (v : Val) : PyM (List α) :=
  match iterOf v with
  | .error e => .error e
  | .ok xs => collectM (fun x =>
      match x with
      | .str s =>
        match dlookup s rows with
        | none => .ok []
        | some r => f s r
      | .list _ => .error (.typeError "unhashable type: 'list_node'")
      | .dict _ => .error (.typeError "unhashable type: 'dict_node'")
      | _ => .ok []) xs

/-- `float(value)` raises no exception; `floatText` says which texts it takes -/
def floatReads (floatText : String → Bool) : Val → Bool
  | .str s => floatText s
  | .list _ => false
  | .dict _ => false
  | .none => false
  | _ => true

/-- `int(value)` raises no exception -/
def intReads : Val → Bool
  | .int _ => true
  | .bool _ => true
  | .str s => isIntText s
  | .flt r => !(r == "nan" || r == "inf" || r == "-inf")
  | _ => false

/-- `isinstance(value, bool)` -/
def isBoolVal : Val → Bool
  | .bool _ => true
  | _ => false

/-- `isinstance(value, float)` -/
def isFltVal : Val → Bool
  | .flt _ => true
  | _ => false

/-- `isinstance(value, int)`; a truth value is an `int` -/
def isIntVal : Val → Bool
  | .int _ => true
  | .bool _ => true
  | _ => false

/-- `isinstance(value, list)` -/
def isListVal : Val → Bool
  | .list _ => true
  | _ => false

/-- `isinstance(value, dict)` -/
def isDictVal : Val → Bool
  | .dict _ => true
  | _ => false

/-- `_value_check`, ValuePrimitiveType.py:52-90 -/
def looseCheck (floatText : String → Bool) (ty : String) (strict : Bool) (v : Val) (p : Path) : List Path :=
  if strict then [p]
  else if ty = "String" then []
  else if ty = "Boolean" then (if v ∈ [.str "True", .str "true", .str "False", .str "false"] then [] else [p])
  else if ty = "Integer" ∨ ty = "Long" ∨ ty = "Double" then
    if isBoolVal v then [p]
    else if ty = "Integer" then (if intReads v then [] else [p])
    else if ty = "Long" then (if isFltVal v then [p] else []) ++ (if intReads v then [] else [p])
    else (if floatReads floatText v then [] else [p])
  else []

/-- `check_primitive_type`, ValuePrimitiveType.py:92-128 -/
def primTypeCheck (floatText : String → Bool) (ty : String) (strict : Bool) (v : Val) (p : Path) : List Path :=
  if isDictVal v ∧ ty = "Json" then []
  else if ty = "String" then (if v.isStr then [] else looseCheck floatText ty strict v p)
  else if ty = "Boolean" then (if isBoolVal v then [] else looseCheck floatText ty strict v p)
  else if ty = "Double" then (if isFltVal v || isIntVal v then [] else looseCheck floatText ty strict v p)
  else if ty = "Integer" then (if isIntVal v then [] else looseCheck floatText ty strict v p)
  else if ty = "Long" then (if isIntVal v then [] else looseCheck floatText ty strict v p)
  else (if isListVal v then [p] else [])

/-- `check_value`, ValuePrimitiveType.py:130-149; the primitive type is not empty -/
def primValueCheck (floatText : String → Bool) (ty : String) (itemType : Option String) (strict : Bool) (v : Val) (p : Path) : List Path :=
  if itemType = some "Map" then
    match v with
    | .dict kvs => kvs.flatMap (fun kv => if isDictVal kv.2 then [] else primTypeCheck floatText ty strict kv.2 (p ++ [kv.1]))
    | _ => []
  else if isDictVal v then []
  else primTypeCheck floatText ty strict v p

/-- the primitive type of a declaration, ValuePrimitiveType.py:157-159 -/
def declaredPrim (d : PropRow) : Option String :=
  match d.prim with
  | some ty => if ty = "" then d.primItem else some ty
  | none => d.primItem

/-- `strict_exceptions`, ValuePrimitiveType.py:20-27 -/
def strictExceptions : List (String × List String) :=
  [("AWS::CloudFormation::Stack", ["Parameters"]), ("AWS::Lambda::Function.Environment", ["Variables"])]

/-- the strictness for a property, ValuePrimitiveType.py:165-168 -/
def strictFor (strict : Bool) (specType prop : String) : Bool :=
  match dlookup specType strictExceptions with
  | some props => if prop ∈ props then false else strict
  | none => strict

/-- `check`, ValuePrimitiveType.py:151-179 -/
def primRule (floatText : String → Bool) (strict : Bool) (fuel : Nat) (specType : String) (rows : List (String × PropRow)) (obj : Val)
    (path : Path) : PyM (List Path) :=
  declaredIn rows (fun prop d =>
    match declaredPrim d with
    | some ty =>
      if ty = "" then .ok []
      else checkValue fuel { value := some (fun v p =>
        .ok (primValueCheck floatText ty (if d.type = some "List" ∨ d.type = some "Map" then d.type else none) (strictFor strict specType prop) v p)) }
        obj prop path
    | none => .ok []) obj

end CfnLint
