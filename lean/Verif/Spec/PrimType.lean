import Verif.Model.PropCheck
import Verif.Spec.FnShape
/-
Values and the primitive types the specification declares for them.
-/
namespace CfnLint.Spec

/-- the functions whose results are not known -/
def callNames : List String :=
  ["Ref", "Fn::Base64", "Fn::Cidr", "Fn::Contains", "Fn::FindInMap", "Fn::GetAZs", "Fn::GetAtt", "Fn::If", "Fn::ImportValue", "Fn::Join",
    "Fn::Select", "Fn::Split", "Fn::Sub"]

/-- nowhere in the value is a null -/
def NoNulls (v : Val) : Prop := ∀ q, ¬ At v q .none

/-- a value that is known: not the call of a function -/
def Known (v : Val) : Prop := ∀ f a, v = .dict [(.str f, a)] → f ∉ callNames

/-- the values of the primitive types; nothing is said of `Json` and of the other types except that no list is one -/
inductive HasPrim : String → Val → Prop
  | text {s} : HasPrim "String" (.str s)
  | truth {b} : HasPrim "Boolean" (.bool b)
  | int {i} : HasPrim "Integer" (.int i)
  | long {i} : HasPrim "Long" (.int i)
  | whole {i} : HasPrim "Double" (.int i)
  | double {r} : HasPrim "Double" (.flt r)
  | other {ty v} : ty ∉ ["String", "Boolean", "Integer", "Long", "Double"] → (∀ xs, v ≠ .list xs) → HasPrim ty v

/-- the values that can be read as one of the primitive type; `floatText` says which texts are numbers -/
inductive ReadsAs (floatText : String → Bool) : String → Val → Prop
  | text {v} : ReadsAs floatText "String" v
  | truth {s} : s ∈ ["True", "true", "False", "false"] → ReadsAs floatText "Boolean" (.str s)
  | int {s} : WholeText s → ReadsAs floatText "Integer" (.str s)
  | long {s} : WholeText s → ReadsAs floatText "Long" (.str s)
  | double {s} : floatText s = true → ReadsAs floatText "Double" (.str s)

/-- the value may stand where the type is declared -/
def Fits (floatText : String → Bool) (strict : Bool) (ty : String) (v : Val) : Prop :=
  HasPrim ty v ∨ (strict = false ∧ ReadsAs floatText ty v)

/-- the type declared for a property or for its items -/
def PrimOf (d : PropRow) (ty : String) : Prop :=
  ty ≠ "" ∧ (d.prim = some ty ∨ ((d.prim = none ∨ d.prim = some "") ∧ d.primItem = some ty))

/-- the properties of which values are read, not compared -/
def LooseProp (specType prop : String) : Prop :=
  (specType, prop) = ("AWS::CloudFormation::Stack", "Parameters") ∨ (specType, prop) = ("AWS::Lambda::Function.Environment", "Variables")

/-- how a property is checked -/
def IsStrict (strict : Bool) (specType prop : String) (b : Bool) : Prop := b = true ↔ strict = true ∧ ¬ LooseProp specType prop

/-- the faults of a value of a property: it does not fit, or, where a map is declared, an entry does not -/
inductive TypeFault (floatText : String → Bool) (strict : Bool) (d : PropRow) (ty : String) : Val → Path → Prop
  | value {v} : d.type ≠ some "Map" → (∀ kvs, v ≠ .dict kvs) → ¬ Fits floatText strict ty v → TypeFault floatText strict d ty v []
  | entry {kvs k w} : d.type = some "Map" → (k, w) ∈ kvs → (∀ l, w ≠ .dict l) → ¬ Fits floatText strict ty w →
      TypeFault floatText strict d ty (.dict kvs) [k]

/-- the faults of the properties of an object, with their places -/
def PropTypeFault (floatText : String → Bool) (strict : Bool) (specType : String) (rows : List (String × PropRow)) (kvs : List (Key × Val))
    (p : Path) : Prop :=
  ∃ prop d ty b v q u r, (prop, d) ∈ rows ∧ PrimOf d ty ∧ IsStrict strict specType prop b ∧ (.str prop, v) ∈ kvs ∧ PropValue v q u ∧ Known u ∧
    TypeFault floatText b d ty u r ∧ p = .str prop :: (q ++ r)

/-- no truth value stands where a number is declared; where values are read as numbers, none is a fraction -/
def PlainNum (strict : Bool) (ty : String) (v : Val) : Prop :=
  ty ∈ ["Integer", "Long", "Double"] → (∀ b, v ≠ .bool b) ∧ (strict = false → ty = "Integer" → ∀ r, v ≠ .flt r)

end CfnLint.Spec
