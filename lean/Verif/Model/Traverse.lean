import Verif.Model.NodeOps
/-
Model of the traversal of resource properties, `RulesCollection.resource_property` and `run_resource`,
rules/__init__.py:259-376.

The specification of us-east-1 is given as typed declarations; the code reads it from JSON objects. A property
type or resource type without `Properties` has an empty list here (the code treats an empty object the same way
for property types; a resource type without `Properties` would raise). A declared property is a nonempty object.
`run_check` on each invocation is the subject of C05; here an invocation is recorded. The recursion limit of the
interpreter is not modelled.
-/
namespace CfnLint

/-- the declaration of a property: its `Type` and `ItemType` (an empty text counts as absent) -/
structure PropDecl where
  type : Option String
  itemType : Option String
deriving DecidableEq, Repr

/-- the declaration of a property type: its `Properties`, and `Type`/`ItemType` for a list type -/
structure TypeDecl where
  properties : List (Key × PropDecl)
  type : Option String
  itemType : Option String
deriving DecidableEq, Repr

/-- `RESOURCE_SPECS['us-east-1']`: `PropertyTypes` and `ResourceTypes` -/
structure TypeSpecs where
  propertyTypes : List (String × TypeDecl)
  resourceTypes : List (String × List (Key × PropDecl))

/-- an invocation of the rules: `matchall_resource_sub_properties(filename, cfn, properties,
property_spec_name, path)` -/
structure Visit where
  path : Path
  value : Val
  typeName : String
deriving DecidableEq

/-- `property_spec_name`, rules/__init__.py:263-266; a missing type is formatted as `None` -/
def specName (rt : String) (t : Option String) : String :=
  if t = some "Tag" then "Tag" else rt ++ "." ++ t.getD "None"

/-- rules/__init__.py:270-293: the rules are invoked except on an object with the single key `Fn::If` -/
def visitSelf (name : String) (path : Path) (v : Val) : List Visit :=
  match v with
  | .dict [(k, _)] => if k ≠ .str "Fn::If" then [⟨path, v, name⟩] else []
  | v => [⟨path, v, name⟩]

mutual
/-- `resource_property`, rules/__init__.py:259-345; `t` is `property_type` -/
def visitType (S : TypeSpecs) (rt : String) (t : Option String) (path : Path) (v : Val) : List Visit :=
  match dlookup (specName rt t) S.propertyTypes with
  | none => []
  | some d =>
    visitSelf (specName rt t) path v ++
      (if d.properties.isEmpty then
        (if d.type = some "List" then
          (match v with
           | .list xs => visitItems S rt d.itemType path 0 xs
           | _ => [])
        else [])
      else
        (match v with
         | .dict kvs => visitProps S rt t d.properties path kvs
         | _ => []))
termination_by (sizeOf v, 1)
/-- the loops over the elements of a list, rules/__init__.py:300-304, 316-320, 330-336, 360-366 -/
def visitItems (S : TypeSpecs) (rt : String) (t : Option String) (path : Path) (i : Nat) (xs : List Val) : List Visit :=
  match xs with
  | [] => []
  | x :: rest => visitType S rt t (path ++ [.int i]) x ++ visitItems S rt t path (i + 1) rest
termination_by (sizeOf xs, 0)
/-- the loop over the properties, rules/__init__.py:307-343; `ps` is `resource_spec_properties` -/
def visitProps (S : TypeSpecs) (rt : String) (t : Option String) (ps : List (Key × PropDecl)) (path : Path)
    (kvs : List (Key × Val)) : List Visit :=
  match kvs with
  | [] => []
  | (k, v) :: rest =>
    (match dlookup k ps with
     | none => if k = .str "Fn::If" then visitIf S rt t (path ++ [k]) v else []
     | some d => visitDecl S rt d (dhas (.str "PrimitiveItemType") ps) (path ++ [k]) v) ++
      visitProps S rt t ps path rest
termination_by (sizeOf kvs, 0)
/-- rules/__init__.py:311-325 -/
def visitIf (S : TypeSpecs) (rt : String) (t : Option String) (path : Path) (v : Val) : List Visit :=
  match v with
  | .list [_, a, b] => visitBranch S rt t (path ++ [.int 1]) a ++ visitBranch S rt t (path ++ [.int 2]) b
  | _ => []
termination_by (sizeOf v, 0)
/-- rules/__init__.py:314-325 -/
def visitBranch (S : TypeSpecs) (rt : String) (t : Option String) (path : Path) (v : Val) : List Visit :=
  match v with
  | .list xs => visitItems S rt t path 0 xs
  | v => visitType S rt t path v
termination_by (sizeOf v, 2)
/-- rules/__init__.py:327-343 and 358-374; `flag` is `resource_spec_properties.get('PrimitiveItemType')`, which
looks for a property of that name -/
def visitDecl (S : TypeSpecs) (rt : String) (d : PropDecl) (flag : Bool) (path : Path) (v : Val) : List Visit :=
  if d.type = some "List" ∧ flag = false then
    (match v with
     | .list xs => visitItems S rt d.itemType path 0 xs
     | _ => [])
  else
    (match d.type, v with
     | some t, .dict kvs => visitType S rt (some t) path (.dict kvs)
     | _, _ => [])
termination_by (sizeOf v, 2)
end

/-- the loop of `run_resource` over one choice of the properties, rules/__init__.py:355-374 -/
def visitTop (S : TypeSpecs) (rt : String) (ps : List (Key × PropDecl)) (path : Path) : List (Key × Val) → List Visit
  | [] => []
  | (k, v) :: rest =>
    (match dlookup k ps with
     | none => []
     | some d => visitDecl S rt d (dhas (.str "PrimitiveItemType") ps) (path ++ [k]) v) ++
      visitTop S rt ps path rest

/-- `run_resource`, rules/__init__.py:347-376 -/
def visitResource (S : TypeSpecs) (rt : String) (props : List (Key × Val)) (path : Path) : List Visit :=
  match dlookup rt S.resourceTypes with
  | none => []
  | some ps =>
    (itemsSafe [.dict] props path).flatMap (fun r =>
      match r.1 with
      | .dict kvs => visitTop S rt ps r.2 kvs
      | _ => [])

/-- a rule as far as the traversal is concerned: its id and `resource_sub_property_types` -/
structure SubRule where
  id : String
  types : List String
deriving DecidableEq

/-- the rules whose `match_resource_sub_properties` is called, in order: the decorator `matching` returns early
for the types a rule is not registered for, rules/__init__.py:120-122 -/
def invocations (rules : List SubRule) (vs : List Visit) : List (SubRule × Visit) :=
  vs.flatMap (fun v => (rules.filter (fun r => r.types.contains v.typeName)).map (fun r => (r, v)))

end CfnLint
