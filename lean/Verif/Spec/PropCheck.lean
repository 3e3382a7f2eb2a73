import Verif.Model.PropCheck
import Verif.Spec.Template
/-
What is wrong with the properties of a resource, given the declarations of the specification. Where the value of a property depends on a
condition, what is wrong is what is wrong with a branch.
-/
namespace CfnLint.Spec

/-- what is expected at a place -/
inductive Expected where
  | object (name : String) (row : TypeRow)
  | objects (item : String)
  | prims (json : Bool)
  | prim (json : Bool)
  | any

/-- the declaration a name stands for within a type of resources: its own, or else the general one -/
def rowNamed (S : RowSpecs) (parent name : String) : Option TypeRow :=
  ((S.types.find? (fun e => e.1 == parent ++ "." ++ name)).or (S.types.find? (fun e => e.1 == name))).map Prod.snd

/-- what the declaration of a property expects -/
def expectedOf (S : RowSpecs) (parent : String) (d : PropRow) : Expected :=
  match d.type with
  | some ty =>
    if ty = "List" then
      match d.primItem, d.itemType with
      | some prim, _ => .prims (prim == "Json")
      | none, some u => .objects u
      | none, none => .any
    else if ty = "Map" then .any
    else
      match rowNamed S parent ty with
      | some row => .object ty row
      | none => .any
  | none =>
    match d.prim with
    | some prim => .prim (prim == "Json")
    | none => .any

/-- the functions that may stand for a value -/
def valueFunctions : List String :=
  ["Ref", "Fn::Base64", "Fn::Cidr", "Fn::Contains", "Fn::FindInMap", "Fn::GetAZs", "Fn::GetAtt", "Fn::If", "Fn::ImportValue", "Fn::Join",
    "Fn::Select", "Fn::Split", "Fn::Sub", "Fn::Transform"]

/-- the functions that never return a list -/
def singleFunctions : List String := ["Fn::Base64", "Fn::ImportValue", "Fn::Join", "Fn::Sub"]

/-- objects for which the name of a local file may be given -/
def fileObjects : List (String × String) :=
  [("AWS::ApiGateway::RestApi", "S3Location"), ("AWS::Lambda::Function", "Code"), ("AWS::Lambda::LayerVersion", "Content"),
    ("AWS::ElasticBeanstalk::ApplicationVersion", "SourceBundle"), ("AWS::StepFunctions::StateMachine", "S3Location")]

/-- `Fn::Select` among the values of a mapping -/
def ChosenFromMap (v : Val) : Prop := ∃ i m, v = .dict [(.str "Fn::Select", .list [i, .dict [(.str "Fn::FindInMap", m)]])]

/-- an attribute of the resource `name` -/
def AttOf (a : Val) (name : String) : Prop :=
  (∃ rest, a = .list (.str name :: rest)) ∨
  ∃ s, a = .str s ∧ '.' ∉ name.toList ∧ (s.toList = name.toList ∨ ∃ rest, s.toList = name.toList ++ '.' :: rest)

/-- the resource `name` has the type `ty` -/
def ResHasType (t : Val) (name ty : String) : Prop :=
  ∃ res r, At t [.str "Resources"] (.dict res) ∧ (.str name, .dict r) ∈ res ∧ (.str "Type", .str ty) ∈ r

/-- types of resources whose attributes are not known -/
def CustomName (ty : String) : Prop := ∃ x, ty.toList = "Custom::".toList ++ x

/-- what may turn out to be a list of objects -/
def MayBeList (t v : Val) : Prop :=
  v = noValue ∨ (∃ a, v = .dict [(.str "Fn::FindInMap", a)]) ∨
  ∃ a name ty, v = .dict [(.str "Fn::GetAtt", a)] ∧ AttOf a name ∧ ResHasType t name ty ∧
    (ty = "AWS::CloudFormation::CustomResource" ∨ CustomName ty)

/-- types of parameters that are lists -/
def ListTypeName (ty : String) : Prop :=
  ty = "CommaDelimitedList" ∨ (∃ a b, ty.toList = a ++ ("List<".toList ++ b)) ∨ ∃ a b, ty.toList = a ++ ("<List".toList ++ b)

/-- the parameter `name` has the type `ty` -/
def ParamType (t : Val) (name ty : String) : Prop :=
  ∃ ps r, At t [.str "Parameters"] (.dict ps) ∧ (.str name, .dict r) ∈ ps ∧ (.str "Type", .str ty) ∈ r

/-- a reference to a list -/
def RefsList (t r : Val) : Prop :=
  r = .str "AWS::NotificationARNs" ∨ ∃ name ty, r = .str name ∧ ParamType t name ty ∧ ListTypeName ty

/-- the faults of a value, with their places relative to the value -/
inductive PropFault (S : RowSpecs) (t : Val) (parent : String) : Expected → Val → Path → Prop
  | notObject {name row v} : row.props ≠ [] → (∀ kvs, v ≠ .dict kvs) → v ≠ .str "AWS::NoValue" →
      ¬ ((∃ s, v = .str s) ∧ (parent, name) ∈ fileObjects) → PropFault S t parent (.object name row) v []
  | unknown {name row kvs k u} : row.props ≠ [] → (k, u) ∈ kvs → (∀ d, (k, d) ∉ row.props) → row.additional = false →
      ¬ IsIf (.dict kvs) → .dict kvs ≠ noValue → ¬ ChosenFromMap (.dict kvs) → PropFault S t parent (.object name row) (.dict kvs) [k]
  | branch {name row v q u p} : row.props ≠ [] → IsIf v → Leaf v q u → PropFault S t parent (.object name row) u p →
      PropFault S t parent (.object name row) v (q ++ p)
  | member {name row kvs k u d p} : (k, u) ∈ kvs → (k, d) ∈ row.props → PropFault S t parent (expectedOf S parent d) u p →
      PropFault S t parent (.object name row) (.dict kvs) (k :: p)
  | element {name row ty r xs} {i : Nat} {x p} : row.props = [] → row.type = some "List" → row.itemType = some ty →
      rowNamed S parent ty = some r → xs[i]? = some x → PropFault S t parent (.object ty r) x p →
      PropFault S t parent (.object name row) (.list xs) (.int i :: p)
  | item {ty r xs} {i : Nat} {x p} : rowNamed S parent ty = some r → xs[i]? = some x → PropFault S t parent (.object ty r) x p →
      PropFault S t parent (.objects ty) (.list xs) (.int i :: p)
  | notList {ty v} : (∀ xs, v ≠ .list xs) → ¬ IsIf v → ¬ MayBeList t v → PropFault S t parent (.objects ty) v []
  | badIf {ty a} : (∀ c x y, a ≠ .list [c, x, y]) → PropFault S t parent (.objects ty) (.dict [(.str "Fn::If", a)]) [.str "Fn::If"]
  | left {ty c a b p} : PropFault S t parent (.objects ty) a p →
      PropFault S t parent (.objects ty) (fnIf c a b) (.str "Fn::If" :: .int 1 :: p)
  | right {ty c a b p} : PropFault S t parent (.objects ty) b p →
      PropFault S t parent (.objects ty) (fnIf c a b) (.str "Fn::If" :: .int 2 :: p)
  | primItem {json xs} {i : Nat} {x p} : xs[i]? = some x → PropFault S t parent (.prim json) x p →
      PropFault S t parent (.prims json) (.list xs) (.int i :: p)
  | noPrims {json v} : (∀ xs, v ≠ .list xs) → (∀ kvs, v ≠ .dict kvs) → PropFault S t parent (.prims json) v []
  | noCall {json kvs} : (∀ f a, kvs = [(.str f, a)] → f ∉ valueFunctions) → PropFault S t parent (.prims json) (.dict kvs) []
  | noListCall {json f a} : f ∈ singleFunctions → PropFault S t parent (.prims json) (.dict [(.str f, a)]) []
  | noListRef {json r} : r ≠ .str "AWS::NoValue" → ¬ RefsList t r → PropFault S t parent (.prims json) (.dict [(.str "Ref", r)]) []
  | isList {json xs} : PropFault S t parent (.prim json) (.list xs) []
  | isArns {json} : PropFault S t parent (.prim json) (.dict [(.str "Ref", .str "AWS::NotificationARNs")]) []
  | noValueCall {kvs} : (∀ f a, kvs = [(.str f, a)] → f ∉ valueFunctions) → PropFault S t parent (.prim false) (.dict kvs) []
  | primLeft {c a b p} : PropFault S t parent (.prim false) a p →
      PropFault S t parent (.prim false) (fnIf c a b) (.str "Fn::If" :: .int 1 :: p)
  | primRight {c a b p} : PropFault S t parent (.prim false) b p →
      PropFault S t parent (.prim false) (fnIf c a b) (.str "Fn::If" :: .int 2 :: p)

/-- the values inside a value and what is expected of them -/
inductive Stands (S : RowSpecs) (parent : String) (E : Expected) (V : Val) : Expected → Val → Prop
  | start : Stands S parent E V E V
  | branch {name row v q u} : Stands S parent E V (.object name row) v → Leaf v q u → Stands S parent E V (.object name row) u
  | member {name row kvs k u d} : Stands S parent E V (.object name row) (.dict kvs) → (k, u) ∈ kvs → (k, d) ∈ row.props →
      Stands S parent E V (expectedOf S parent d) u
  | element {name row ty r xs x} : Stands S parent E V (.object name row) (.list xs) → row.props = [] → row.itemType = some ty →
      rowNamed S parent ty = some r → x ∈ xs → Stands S parent E V (.object ty r) x
  | item {ty r xs x} : Stands S parent E V (.objects ty) (.list xs) → rowNamed S parent ty = some r → x ∈ xs →
      Stands S parent E V (.object ty r) x
  | left {ty c a b} : Stands S parent E V (.objects ty) (fnIf c a b) → Stands S parent E V (.objects ty) a
  | right {ty c a b} : Stands S parent E V (.objects ty) (fnIf c a b) → Stands S parent E V (.objects ty) b

/-- the types a declaration names are declared; no property is named `Fn::If` -/
structure GoodRow (S : RowSpecs) (parent : String) (row : TypeRow) : Prop where
  nodup : (row.props.map Prod.fst).Nodup
  noIf : ∀ d, (.str "Fn::If", d) ∉ row.props
  items : ∀ k d, (k, d) ∈ row.props → d.type = some "List" → d.primItem = none → ∃ ty r, d.itemType = some ty ∧ rowNamed S parent ty = some r
  types : ∀ k d ty, (k, d) ∈ row.props → d.type = some ty → ty ≠ "List" → ty ≠ "Map" → ∃ r, rowNamed S parent ty = some r
  elements : row.props = [] → row.type = some "List" → ∃ ty r, row.itemType = some ty ∧ rowNamed S parent ty = some r

/-- values with which the rule does what it should -/
structure PlainProps (S : RowSpecs) (t : Val) (parent : String) (E : Expected) (V : Val) : Prop where
  rows : ∀ name row v, Stands S parent E V (.object name row) v → GoodRow S parent row
  /-- branches of conditions in place of an object are objects -/
  branches : ∀ name row v q u, Stands S parent E V (.object name row) v → IsIf v → Leaf v q u → ∃ kvs, u = .dict kvs
  /-- a single key is a text and no part of `Ref`, if it has the value `AWS::NoValue` -/
  keys : ∀ name row k u, Stands S parent E V (.object name row) (.dict [(k, u)]) →
    ∃ s, k = .str s ∧ (u = .str "AWS::NoValue" → s = "Ref" ∨ ∀ a b, "Ref".toList ≠ a ++ (s.toList ++ b))
  /-- conditions in place of a list are lists, are not nested and have no branches taken from mappings or custom resources -/
  conds : ∀ ty a, Stands S parent E V (.objects ty) (.dict [(.str "Fn::If", a)]) →
    ∃ xs, a = .list xs ∧ ∀ c x y, xs = [c, x, y] → ∀ z, z = x ∨ z = y → ¬ IsIf z ∧ (∀ m, z ≠ .dict [(.str "Fn::FindInMap", m)]) ∧
      ∀ m name, z = .dict [(.str "Fn::GetAtt", m)] → AttOf m name → ¬ ResHasType t name "AWS::CloudFormation::CustomResource"
  /-- attributes are those of resources with a type -/
  atts : ∀ ty a, Stands S parent E V (.objects ty) (.dict [(.str "Fn::GetAtt", a)]) →
    ∃ name rt, name ≠ "" ∧ AttOf a name ∧ ResHasType t name rt
  /-- objects in place of lists of primitive values are calls of functions -/
  calls : ∀ json kvs, Stands S parent E V (.prims json) (.dict kvs) → ∃ f a, kvs = [(.str f, a)] ∧ f ∈ valueFunctions
  /-- references are not to `AWS::NoValue`, nor to parameters without type -/
  refs : ∀ json r, Stands S parent E V (.prims json) (.dict [(.str "Ref", r)]) →
    ∃ name, r = .str name ∧ name ≠ "AWS::NoValue" ∧ ∀ ps prm, At t [.str "Parameters"] (.dict ps) → (.str name, prm) ∈ ps →
      ∃ ty, ty ≠ "" ∧ ParamType t name ty

/-- the properties of a resource -/
def PropsOf (t : Val) (name : Key) (r : List (Key × Val)) (props : Val) : Prop :=
  ∃ rs, At t [.str "Resources"] (.dict rs) ∧ (name, .dict r) ∈ rs ∧ (.str "Properties", props) ∈ r

/-- the declaration of a type of resources; custom types without their own have a common one -/
def DeclaredAs (S : RowSpecs) (ty parent : String) (row : TypeRow) : Prop :=
  (parent = ty ∧ (ty, row) ∈ S.resources) ∨
  (CustomName ty ∧ (∀ row', (ty, row') ∉ S.resources) ∧ parent = "AWS::CloudFormation::CustomResource" ∧ (parent, row) ∈ S.resources)

end CfnLint.Spec
