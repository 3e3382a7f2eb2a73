import Verif.Model.Graph
import Verif.Model.Yaml
import Verif.Model.Config
/-
Model of rule E1010 (rules/functions/GetAtt.py) with `get_valid_getatts` (template.py:167-200) and `get_modules`
(template.py:91-104).
A finding is the path of the key `Fn::GetAtt` and its kind; whether the path of the `RuleMatch` also holds the value
and the texts of the messages are not modelled. A dictionary as argument of `Fn::GetAtt` raises `KeyError` (Python would
accept a dictionary with the integer keys 0 and 1). The resource types are those of the region us-east-1.
-/
namespace CfnLint

/-- an attribute of a resource type: its `Type` and its `PrimitiveItemType` -/
structure AttrDecl where
  type : Option String
  item : Option String := none
deriving DecidableEq, Repr, Inhabited

/-- the resource types of the specification with their `Attributes`, if any -/
abbrev AttrSpecs := List (String × Option (List (String × AttrDecl)))

/-- the attributes of a resource type, template.py:181-198 -/
def typeAttrs (S : AttrSpecs) (ty : String) : Option (List (String × AttrDecl)) :=
  if startsWith ty "AWS::CloudFormation::Stack" then some [("*", ⟨none, some "String"⟩)]
  else if startsWith ty "Custom::" || startsWith ty "AWS::Serverless::" ||
      startsWith ty "AWS::CloudFormation::CustomResource" || endsWith ty "::MODULE" then some [("*", ⟨none, none⟩)]
  else
    match dlookup ty S with
    | some (some attrs) => some attrs
    | _ => none

/-- resource names with their attributes -/
abbrev AttrTable := List (Key × List (String × AttrDecl))

/-- the loop of `get_valid_getatts`, template.py:179-198 -/
def attrLoop (S : AttrSpecs) : List (Key × Val) → AttrTable → PyM AttrTable
  | [], acc => .ok acc
  | (name, value) :: rest, acc =>
    match pyIn "Type" value with
    | .error e => .error e
    | .ok false => attrLoop S rest acc
    | .ok true =>
      match value.subscript (.str "Type") with
      | .error e => .error e
      | .ok (.str ty) =>
        match typeAttrs S ty with
        | some attrs => attrLoop S rest (dset name attrs acc)
        | none => attrLoop S rest acc
      | .ok _ => attrLoop S rest acc

/-- `get_valid_getatts`, template.py:167-200 -/
def validGetAtts (S : AttrSpecs) (t : Val) : PyM AttrTable :=
  match resourcesOf t with
  | .error e => .error e
  | .ok res => attrLoop S res []

/-- whether an entry of `Resources` is a module, template.py:99-102: only a text ends in `::MODULE` when printed -/
def isModule : Val → Bool
  | .dict kvs =>
    match dlookup (Key.str "Type") kvs with
    | some (.str ty) => endsWith ty "::MODULE"
    | _ => false
  | _ => false

/-- the names of `get_modules()`, template.py:91-104, for resources that are an object -/
def moduleNames (res : List (Key × Val)) : List Key := (res.filter (fun kv => isModule kv.2)).map Prod.fst

/-- what is wrong with a `Fn::GetAtt` -/
inductive GaKind where
  | short | structure_ | function | attribute | resource
deriving DecidableEq, Repr, Inhabited

/-- `any(resname.startswith(s) for s in modules.keys())`, GetAtt.py:101 -/
def inModule (resname : Val) : List Key → PyM Bool
  | [] => .ok false
  | k :: ks =>
    match resname with
    | .str r =>
      match k with
      | .str s => if startsWith r s then .ok true else inModule resname ks
      | .int _ => .error (.typeError "startswith first arg must be str or a tuple of str, not int")
    | v => .error (attrErr v "startswith")

/-- GetAtt.py:85-98 for an attribute of a resource with the attributes `attrs` -/
def checkAttr (attrs : List (String × AttrDecl)) (restype : String) : List GaKind :=
  match splitOn '.' restype.toList with
  | first :: _ :: _ =>
    match dlookup (String.ofList first) attrs with
    | some d =>
      if d.type ≠ some "Map" then
        .attribute :: (if !dhas restype attrs && !dhas "*" attrs then [.attribute] else [])
      else []
    | none => if !dhas restype attrs && !dhas "*" attrs then [.attribute] else []
  | _ => if !dhas restype attrs && !dhas "*" attrs then [.attribute] else []

/-- GetAtt.py:81-107: `restype` is `None` when it cannot be checked -/
def checkResource (tab : AttrTable) (mods : List Key) (resname : Val) (restype : Option String) : PyM (List GaKind) :=
  if resname.truthy then
    match resname with
    | .list _ => .error (.typeError "unhashable type")
    | .dict _ => .error (.typeError "unhashable type")
    | v =>
      match (toKey v).bind (fun k => dlookup k tab) with
      | some attrs =>
        match restype with
        | some a => .ok (checkAttr attrs a)
        | none => .ok []
      | none =>
        match inModule v mods with
        | .error e => .error e
        | .ok true => .ok []
        | .ok false => .ok [.resource]
  else .ok []

/-- `'.'.join(xs)`: every element must be text -/
def joinDots : List Val → PyM String
  | [] => .ok ""
  | [.str s] => .ok s
  | .str s :: xs =>
    match joinDots xs with
    | .error e => .error e
    | .ok r => .ok (s ++ "." ++ r)
  | _ => .error (.typeError "sequence item: expected str instance")

/-- findings before those of the rest -/
def withKinds (ks : List GaKind) (r : PyM (List GaKind)) : PyM (List GaKind) := r.map (fun l => ks ++ l)

/-- GetAtt.py:44-107 for one value of `Fn::GetAtt` -/
def checkGetAtt (tab : AttrTable) (mods : List Key) : Val → PyM (List GaKind)
  | .str s =>
    if s.toList.length < 2 then .ok [.short]
    else
      match splitDot s with
      | [r, .str a] => checkResource tab mods r (some a)
      | _ => .error (.valueError "not enough values to unpack (expected 2, got 1)")
  | .list (r :: .str a :: xs) =>
    match joinDots (.str a :: xs) with
    | .error e => .error e
    | .ok ty => checkResource tab mods r (some ty)
  | .list (r :: .dict [(k, _)] :: _) =>
    withKinds (if k = .str "Ref" then [] else [.function]) (checkResource tab mods r none)
  | .list (r :: .dict _ :: _) => withKinds [.structure_] (checkResource tab mods r none)
  | .list (_ :: _ :: _) => .ok [.structure_]
  | .list _ => .ok [.short]
  | .dict kvs => if kvs.length < 2 then .ok [.short] else .error (.keyError "1")
  | _ => .error (.typeError "object has no len()")

/-- one result of the search: the path of the key with the kinds of findings -/
def getAttOne (tab : AttrTable) (mods : List Key) (f : Path × Val) : PyM (List (Path × GaKind)) :=
  (checkGetAtt tab mods f.2).map (fun ks => ks.map (fun k => (f.1, k)))

/-- `GetAtt.match`, GetAtt.py:33-107 -/
def getAttRule (S : AttrSpecs) (t globals : Val) : PyM (List (Path × GaKind)) :=
  match validGetAtts S t with
  | .error e => .error e
  | .ok tab =>
    match resourcesOf t with
    | .error e => .error e
    | .ok res => collectM (getAttOne tab (moduleNames res)) (searchDeepKeys "Fn::GetAtt" t globals)

end CfnLint
