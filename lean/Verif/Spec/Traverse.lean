import Verif.Model.Traverse
import Verif.Spec.Template
/-
Which objects inside a resource's properties are of which property type. The declarations say what stands at a
property: a single object, a list or a map of objects. Choosing a branch of an `Fn::If` stays at the same
position.
-/
namespace CfnLint.Spec

/-- what stands at a position -/
inductive Decl where
  | single (t : String)
  | list (t : String)
  | map (t : String)
  | primitive
deriving DecidableEq

/-- the meaning of a declaration in the specification -/
def declOf (d : PropDecl) : Decl :=
  match d.type with
  | none => .primitive
  | some t =>
    if t = "List" then (match d.itemType with | some u => .list u | none => .primitive)
    else if t = "Map" then (match d.itemType with | some u => .map u | none => .primitive)
    else .single t

/-- the property type named `t` in resource type `rt`; `Tag` is common to all -/
def typeOf (S : TypeSpecs) (rt t : String) : Option TypeDecl :=
  dlookup (if t = "Tag" then "Tag" else rt ++ "." ++ t) S.propertyTypes

/-- the values that stand at declared positions of the properties `root`, which stand at `base`; `ps` are the
declared properties of the resource type -/
inductive Pos (S : TypeSpecs) (rt : String) (ps : List (Key × PropDecl)) (root : Val) (base : Path) :
    Decl → Path → Val → Prop where
  | top {q kvs k d v} : Leaf root q (.dict kvs) → (k, v) ∈ kvs → dlookup k ps = some d →
      Pos S rt ps root base (declOf d) (base ++ q ++ [k]) v
  | left {D p c a b} : Pos S rt ps root base D p (fnIf c a b) →
      Pos S rt ps root base D (p ++ [.str "Fn::If", .int 1]) a
  | right {D p c a b} : Pos S rt ps root base D p (fnIf c a b) →
      Pos S rt ps root base D (p ++ [.str "Fn::If", .int 2]) b
  | item {t p xs} {i : Nat} {x} : Pos S rt ps root base (.list t) p (.list xs) → xs[i]? = some x →
      Pos S rt ps root base (.single t) (p ++ [.int i]) x
  | mapped {t p kvs k x} : Pos S rt ps root base (.map t) p (.dict kvs) → ¬ IsIf (.dict kvs) → (k, x) ∈ kvs →
      Pos S rt ps root base (.single t) (p ++ [k]) x
  | listType {t p v d u} : Pos S rt ps root base (.single t) p v → typeOf S rt t = some d → d.properties = [] →
      d.type = some "List" → d.itemType = some u → Pos S rt ps root base (.list u) p v
  | prop {t p kvs k d pd v} : Pos S rt ps root base (.single t) p (.dict kvs) → ¬ IsIf (.dict kvs) → (k, v) ∈ kvs →
      typeOf S rt t = some d → dlookup k d.properties = some pd → Pos S rt ps root base (declOf pd) (p ++ [k]) v

/-- an object of type `t`: it stands at a position of that type and is neither an `Fn::If` nor a reference to
`AWS::NoValue` -/
def ObjectOf (S : TypeSpecs) (rt : String) (ps : List (Key × PropDecl)) (root : Val) (base : Path)
    (t : String) (p : Path) (v : Val) : Prop :=
  Pos S rt ps root base (.single t) p v ∧ (∃ kvs, v = .dict kvs) ∧ ¬ IsIf v ∧ v ≠ noValue

/-- the name by which rules register for the type -/
def registeredName (rt t : String) : String := if t = "Tag" then "Tag" else rt ++ "." ++ t

/-- declarations without the names that have a meaning of their own -/
structure Sane (S : TypeSpecs) (rt : String) (ps : List (Key × PropDecl)) : Prop where
  noList : typeOf S rt "List" = none
  noMap : typeOf S rt "Map" = none
  noNone : typeOf S rt "None" = none
  topKeys : ∀ kd ∈ ps, ∃ s, kd.1 = .str s ∧ s ≠ "Fn::If" ∧ s ≠ "PrimitiveItemType"
  typeKeys : ∀ td ∈ S.propertyTypes, ∀ kd ∈ td.2.properties, ∃ s, kd.1 = .str s ∧ s ≠ "Fn::If" ∧ s ≠ "PrimitiveItemType"

end CfnLint.Spec
