import Verif.Model.CondGrammar
import Verif.Model.GetAtt
import Verif.Model.Sub
/-
Model of rule E1019 (rules/functions/Sub.py). A finding is its path and its kind; the texts of the messages are not modelled.
Numbers that are not integers equal no name. `get_resource_names` (template.py:114-122) and `get_valid_getatts`
(template.py:167-200) are evaluated for every variable, as in the code.
-/
namespace CfnLint

/-- what is wrong with a `Fn::Sub` -/
inductive SubKind where
  /-- "Fn::Sub cannot use list" -/
  | list
  /-- "Parameter for Fn::Sub not found" -/
  | unknown
  /-- "Subs first element should be of type string" -/
  | first
  /-- "Subs second element should be an object" -/
  | second
  /-- "Sub should be an array of 2" -/
  | length
  /-- "Sub should be a string or array of 2 items" -/
  | shape
  /-- "Sub parameter should use a valid function" -/
  | function
  /-- "Sub parameter should be an object of 1" -/
  | object
  /-- "Sub parameter value should be a string" -/
  | value
deriving DecidableEq, Repr, Inhabited

/-- `supported_functions`, Sub.py:46-57 -/
def subFunctions : List String :=
  ["Fn::Base64", "Fn::FindInMap", "Fn::GetAZs", "Fn::GetAtt", "Fn::If", "Fn::ImportValue", "Fn::Join", "Fn::Select", "Fn::Sub", "Ref"]

/-- the loop of `_get_parameters`, Sub.py:36-39 -/
def parameterTypesOf : List (Key × Val) → PyM (List (Key × Val))
  | [] => .ok []
  | (k, v) :: rest =>
    match v.getD "Type" (.str "String") with
    | .error e => .error e
    | .ok ty =>
      match parameterTypesOf rest with
      | .error e => .error e
      | .ok l => .ok ((k, ty) :: l)

/-- `_get_parameters`, Sub.py:31-41 -/
def subParameterTypes (t : Val) : PyM (List (Key × Val)) :=
  match t.getD "Parameters" (.dict []) with
  | .error e => .error e
  | .ok (.dict ps) => parameterTypesOf ps
  | .ok _ => .ok []

/-- `get_resource_names`, template.py:114-122 -/
def resourceNamesOf (t : Val) : PyM (List Key) :=
  match t.getD "Resources" (.dict []) with
  | .error e => .error e
  | .ok (.dict rs) => .ok (rs.map Prod.fst)
  | .ok _ => .ok []

/-- the body of the inner loop, Sub.py:118-131: whether the attribute is the one named, and the findings -/
def subAttr (x : String) (resource : Key) (a : String × AttrDecl) : PyM (Bool × List SubKind) :=
  match splitOn '.' x.toList with
  | [] => .error (.indexError "list index out of range")
  | r :: parts =>
    if resource = .str (String.ofList r) then
      if a.1 = "*" then .ok (true, [])
      else if a.1.toList = List.intercalate ['.'] parts then .ok (true, if a.2.type = some "List" then [.list] else [])
      else
        match parts with
        | [] => .error (.indexError "list index out of range")
        | p :: _ => .ok (a.1.toList = p ∧ a.2.type = some "Map", [])
    else .ok (false, [])

/-- the loops over resources and attributes, Sub.py:116-131; only texts have `split` -/
def subAttrLoop (x : Val) : List (Key × String × AttrDecl) → PyM (Bool × List SubKind)
  | [] => .ok (false, [])
  | (r, a) :: rest =>
    match x with
    | .str s =>
      match subAttr s r a with
      | .error e => .error e
      | .ok (b, ks) =>
        match subAttrLoop x rest with
        | .error e => .error e
        | .ok (b', ks') => .ok (b || b', ks ++ ks')
    | v => .error (attrErr v "split")

/-- whether a type is in `VALID_PARAMETER_TYPES_LIST`, Sub.py:112 -/
def isListType : Val → Bool
  | .str ty => decide (ty ∈ listParameterTypes)
  | _ => false

/-- `_test_parameter`, Sub.py:95-136; `vars` are the names the call defines -/
def subVariable (S : AttrSpecs) (t : Val) (vars : List Key) (x : Val) : PyM (List SubKind) :=
  match validGetAtts S t with
  | .error e => .error e
  | .ok tab =>
    match resourceNamesOf t with
    | .error e => .error e
    | .ok names =>
      match subParameterTypes t with
      | .error e => .error e
      | .ok types =>
        if (pseudoParams.map Key.str ++ names ++ vars).any (fun n => toKey x == some n) then .ok []
        else
          match x with
          | .list _ => .error (.typeError "unhashable type")
          | .dict _ => .error (.typeError "unhashable type")
          | x =>
            match subAttrLoop x (tab.flatMap (fun r => r.2.map (fun a => (r.1, a)))) with
            | .error e => .error e
            | .ok (found, ks) =>
              match (toKey x).bind (fun k => dlookup k types) with
              | some ty => .ok ((if isListType ty then [.list] else []) ++ ks)
              | none => .ok (ks ++ if found then [] else [.unknown])

/-- findings at a path -/
def subAtPath (p : Path) (r : PyM (List SubKind)) : PyM (List (Path × SubKind)) := r.map (fun ks => ks.map (fun k => (p, k)))

/-- `_test_string`, Sub.py:19-29 -/
def subString (S : AttrSpecs) (t : Val) (s : String) (vars : List Key) (p : Path) : PyM (List (Path × SubKind)) :=
  collectM (fun x => subAtPath p (subVariable S t vars (.str x))) (subParams s)

/-- the body of the loop of `_test_parameters`, Sub.py:61-91 -/
def subMapEntry (S : AttrSpecs) (t : Val) (p : Path) (kv : Key × Val) : PyM (List (Path × SubKind)) :=
  match kv.2 with
  | .dict [(k, v)] =>
    if isKeyIn k subFunctions = false then .ok [(p ++ [kv.1], .function)]
    else if k = .str "Ref" then subAtPath p (subVariable S t [] v)
    else if k = .str "Fn::GetAtt" then
      match v with
      | .list xs =>
        match joinDots xs with
        | .error _ => .ok []
        | .ok s => subAtPath p (subVariable S t [] (.str s))
      | .str s => subAtPath p (subVariable S t [] (.str s))
      | _ => .ok []
    else .ok []
  | .dict _ => .ok [(p ++ [kv.1], .object)]
  | .list _ => .ok [(p ++ [kv.1], .value)]
  | _ => .ok []

/-- the body of the loop of `match`, Sub.py:144-181; `findall` of something that is no text raises -/
def subOne (S : AttrSpecs) (t : Val) (f : Path × Val) : PyM (List (Path × SubKind)) :=
  match f.2 with
  | .str s => subString S t s [] f.1
  | .list [.str s, .dict m] =>
    match subString S t s (m.map Prod.fst) (f.1 ++ [.int 0]) with
    | .error e => .error e
    | .ok l =>
      match collectM (subMapEntry S t f.1) m with
      | .error e => .error e
      | .ok l' => .ok (l ++ l')
  | .list [_, .dict _] => .error (.typeError "expected string or bytes-like object")
  | .list [.str _, _] => .ok [(f.1 ++ [.int 1], .second)]
  | .list [_, _] => .ok [(f.1 ++ [.int 0], .first), (f.1 ++ [.int 1], .second)]
  | .list _ => .ok [(f.1, .length)]
  | .dict [(k, _)] => .ok (if k = .str "Fn::Transform" then [] else [(f.1, .shape)])
  | _ => .ok [(f.1, .shape)]

/-- rule E1019, Sub.py:138-183 -/
def subRule (S : AttrSpecs) (t globals : Val) : PyM (List (Path × SubKind)) :=
  collectM (subOne S t) (searchDeepKeys "Fn::Sub" t globals)

end CfnLint
