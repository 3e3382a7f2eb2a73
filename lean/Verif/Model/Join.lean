import Verif.Model.SubRule
import Verif.Model.FnShape
/-
Model of rule E1022 (rules/functions/Join.py). The functions are those of `IntrinsicTypes` in the specification
(data/ExtendedSpecs/all/02_intrinsic_types.json). All findings are at the path of the call; the messages are not modelled.
-/
namespace CfnLint

/-- `list_supported_functions`, Join.py:22-26: the intrinsic functions that may return a list -/
def joinListFunctions : List String :=
  ["Fn::Cidr", "Fn::FindInMap", "Fn::GetAZs", "Fn::GetAtt", "Fn::If", "Fn::Select", "Fn::Split", "Ref"]

/-- `singular_supported_functions`, Join.py:23-28: the intrinsic functions that may return a single value -/
def joinSingularFunctions : List String :=
  ["Fn::Base64", "Fn::FindInMap", "Fn::GetAtt", "Fn::If", "Fn::ImportValue", "Fn::Join", "Fn::Select", "Fn::Sub", "Ref"]

/-- `_normalize_getatt`, Join.py:42-46 -/
def joinNormalize : Val → Val
  | .str s =>
    match splitOn '.' s.toList with
    | [] => .list []
    | [r] => .list [.str (String.ofList r)]
    | r :: rest => .list [.str (String.ofList r), .str (String.ofList (List.intercalate ['.'] rest))]
  | v => v

/-- `_is_ref_a_list`, Join.py:48-59; what cannot be hashed cannot be looked up -/
def refIsList (types : List (Key × Val)) : Val → PyM Bool
  | .list _ => .error (.typeError "unhashable type")
  | .dict _ => .error (.typeError "unhashable type")
  | x =>
    .ok ((match (toKey x).bind (fun k => dlookup k types) with
      | some ty => isListType ty
      | none => false) || decide (x = .str "AWS::NotificationARNs"))

/-- 'TRUE', 'FALSE' and 'UNKNOWN' -/
inductive ListAnswer where
  | yes | no | open_
deriving DecidableEq, Repr, Inhabited

/-- the answer for the attribute `*`, Join.py:67-71 -/
def starAnswer (d : AttrDecl) : ListAnswer :=
  if d.item.getD "" ≠ "" then .no else if d.type = some "List" then .yes else .open_

/-- `_is_getatt_a_list`, Join.py:61-76, over the resources and their attributes in order -/
def getAttIsList (v : Val) : List (Key × String × AttrDecl) → PyM ListAnswer
  | [] => .ok .no
  | (r, n, d) :: rest =>
    match v.subscript (.int 0) with
    | .error e => .error e
    | .ok a =>
      if toKey a = some r then
        if n = "*" then .ok (starAnswer d)
        else
          match v.subscript (.int 1) with
          | .error e => .error e
          | .ok b => if toKey b = some (.str n) ∧ d.type = some "List" then .ok .yes else getAttIsList v rest
      else getAttIsList v rest

/-- the list of values given by a function, Join.py:88-102 -/
def joinCallList (types : List (Key × Val)) (tab : List (Key × String × AttrDecl)) (p : Path) (k : Key) (v : Val) : PyM (List Path) :=
  if isKeyIn k joinListFunctions = false then .ok [p]
  else if k = .str "Ref" then (refIsList types v).map (fun b => if b then [] else [p])
  else if k = .str "Fn::GetAtt" then (getAttIsList (joinNormalize v) tab).map (fun a => if a = .no then [p] else [])
  else .ok []

/-- one of the values, Join.py:113-137 -/
def joinElement (types : List (Key × Val)) (tab : List (Key × String × AttrDecl)) (p : Path) : Val → PyM (List Path)
  | .dict [(k, v)] =>
    if isKeyIn k joinSingularFunctions = false then .ok [p]
    else if k = .str "Ref" then (refIsList types v).map (fun b => if b then [p] else [])
    else if k = .str "Fn::GetAtt" then (getAttIsList (joinNormalize v) tab).map (fun a => if a = .yes then [p] else [])
    else .ok []
  | .str _ => .ok []
  | _ => .ok [p]

/-- `_match_string_objs`, Join.py:78-139 -/
def joinValues (S : AttrSpecs) (t : Val) (p : Path) (o : Val) : PyM (List Path) :=
  match subParameterTypes t with
  | .error e => .error e
  | .ok types =>
    match validGetAtts S t with
    | .error e => .error e
    | .ok table =>
      let tab := table.flatMap (fun r => r.2.map (fun a => (r.1, a)))
      match o with
      | .dict [(k, v)] => joinCallList types tab p k v
      | .list xs => collectM (joinElement types tab p) xs
      | _ => .ok [p]

/-- the body of the loop of `match`, Join.py:147-165 -/
def joinShape (S : AttrSpecs) (t : Val) (p : Path) : Val → PyM (List Path)
  | .list [d, o] =>
    match joinValues S t p o with
    | .error e => .error e
    | .ok l => .ok ((if isText d then [] else [p]) ++ l)
  | _ => .ok [p]

/-- rule E1022, Join.py:141-167 -/
def joinRule (S : AttrSpecs) (t globals : Val) : PyM (List Path) := callRule "Fn::Join" (joinShape S t) t globals

end CfnLint
