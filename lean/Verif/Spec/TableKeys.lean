import Verif.Spec.PropSets
/-
The attributes that a table defines and those that its keys use.
-/
namespace CfnLint.Spec

/-- under `σ` the value is a list with the element -/
def ItemOf (σ : String → Bool) (v u : Val) : Prop :=
  ∃ q xs x q', Chosen σ v q (.list xs) ∧ x ∈ xs ∧ Chosen σ x q' u ∧ u ≠ noValue

/-- the object has the attribute name -/
def AttrName (u : Val) (n : String) : Prop := ∃ a, u = .dict a ∧ (Key.str "AttributeName", .str n) ∈ a

/-- under `σ` the table defines the attribute -/
def Defines (σ : String → Bool) (kvs : List (Key × Val)) (n : String) : Prop :=
  ∃ v u, (Key.str "AttributeDefinitions", v) ∈ kvs ∧ ItemOf σ v u ∧ AttrName u n

/-- under `σ` the object has a key schema with the attribute -/
def SchemaUses (σ : String → Bool) (kvs : List (Key × Val)) (n : String) : Prop :=
  ∃ v u, (Key.str "KeySchema", v) ∈ kvs ∧ ItemOf σ v u ∧ AttrName u n

/-- under `σ` a key of the table or of one of its indexes uses the attribute -/
def KeysUse (σ : String → Bool) (kvs : List (Key × Val)) (n : String) : Prop :=
  SchemaUses σ kvs n ∨ ∃ p v ix, (p = "GlobalSecondaryIndexes" ∨ p = "LocalSecondaryIndexes") ∧ (Key.str p, v) ∈ kvs ∧ ItemOf σ v (.dict ix) ∧
    SchemaUses σ ix n

/-- the value is a list, whatever the conditions, or nothing, and its elements have the property or are nothing; `AWS::NoValue` is only found inside
`Fn::If` -/
structure ObjectsOf (P : Val → Prop) (v : Val) : Prop where
  there : v ≠ noValue
  items : ∀ xs, v = .list xs → noValue ∉ xs
  list : ∀ σ : String → Bool, Removed σ v ∨ ∃ q xs, Chosen σ v q (.list xs) ∧ ∀ x ∈ xs, ∃ q' u, Chosen σ x q' u ∧ (u ≠ noValue → P u)

/-- a description of a table: definitions, keys and indexes are lists of objects and attributes are named by texts; `schema` is what is asked of the key
schema of an index -/
structure TableOf (schema : Val → Prop) (kvs : List (Key × Val)) : Prop where
  wf : (Val.dict kvs).WF
  plain : PlainObject kvs
  defs : ∀ v, (Key.str "AttributeDefinitions", v) ∈ kvs → ObjectsOf (fun u => ∃ n, AttrName u n) v
  keys : ∀ v, (Key.str "KeySchema", v) ∈ kvs → ObjectsOf (fun u => ∃ n, AttrName u n) v
  indexes : ∀ p v, (p = "GlobalSecondaryIndexes" ∨ p = "LocalSecondaryIndexes") → (Key.str p, v) ∈ kvs →
    ObjectsOf (fun u => ∃ ix, u = .dict ix ∧ ∀ w, (Key.str "KeySchema", w) ∈ ix → schema w) v

/-- a list of keys without conditions -/
def PlainSchema (w : Val) : Prop := ∃ ks, w = .list ks ∧ ∀ k ∈ ks, ∃ n, AttrName k n

end CfnLint.Spec
