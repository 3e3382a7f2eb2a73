import Verif.Model.Outputs
import Verif.Spec.RefRules
/-
What outputs must be.
-/
namespace CfnLint.Spec

/-- the template has the output `n`, whatever it is -/
def OutputIs (t : Val) (n : Key) (v : Val) : Prop := ∃ outs, At t [.str "Outputs"] (.dict outs) ∧ (n, v) ∈ outs

/-- a call of one of the functions whose value is no list -/
def SingleCall (v : Val) : Prop :=
  ∃ f w, v = .dict [(Key.str f, w)] ∧ (f = "Fn::Base64" ∨ f = "Fn::GetAtt" ∨ f = "Fn::ImportValue" ∨ f = "Fn::Join" ∨ f = "Fn::FindInMap" ∨ f = "Fn::Select" ∨
    f = "Ref" ∨ f = "Fn::If" ∨ f = "Fn::Contains" ∨ f = "Fn::Sub" ∨ f = "Fn::Cidr" ∨ f = "Fn::Transform")

/-- a list, or an object that is no such call -/
def NotSingle (v : Val) : Prop := (∃ xs, v = .list xs) ∨ ((∃ kvs, v = .dict kvs) ∧ ¬ SingleCall v)

/-- the findings on the forms of outputs -/
inductive OutputFinding (t : Val) : Path → Prop
  | outputs {v} : At t [.str "Outputs"] v → v.truthy = true → (∀ outs, v ≠ .dict outs) → OutputFinding t [.str "Outputs"]
  | property {n o k w} : OutputIs t n (.dict o) → (k, w) ∈ o → k ≠ .str "Value" → k ≠ .str "Export" → k ≠ .str "Description" → k ≠ .str "Condition" →
      OutputFinding t [.str "Outputs", n, k]
  | value {n o v} : OutputIs t n (.dict o) → (.str "Value", v) ∈ o → v.truthy = true → NotSingle v → OutputFinding t [.str "Outputs", n, .str "Value"]
  | export {n o v} : OutputIs t n (.dict o) → (.str "Export", v) ∈ o → v.truthy = true → (∀ w, v ≠ .dict [(.str "Name", w)]) → OutputFinding t [.str "Outputs", n, .str "Export"]
  | name {n o w} : OutputIs t n (.dict o) → (.str "Export", .dict [(.str "Name", w)]) ∈ o → NotSingle w → OutputFinding t [.str "Outputs", n, .str "Export", .str "Name"]

/-- `Value` is in the output: as a key of an object, as an element of a list, as a part of a text -/
def ValueIn (v : Val) : Prop :=
  (∃ o w, v = .dict o ∧ (Key.str "Value", w) ∈ o) ∨ (∃ xs, v = .list xs ∧ Val.str "Value" ∈ xs) ∨ (∃ s, v = .str s ∧ "Value".toList <:+: s.toList)

/-- something of another kind than a text, and not empty -/
def OtherThanText (v : Val) : Prop := v.truthy = true ∧ ∀ s, v ≠ .str s

/-- the key stands in the value of an output -/
def InOutput (p : Path) (key : String) : Prop := ∃ n q, p = .str "Outputs" :: n :: .str "Value" :: q ++ [.str key]

/-- the last key but two is `Fn::Join`, or the last but one is 1 -/
def JoinedAt (p : Path) : Prop := (∃ pre y f, p = pre ++ [.str "Fn::Join", y, f]) ∨ ∃ pre f, p = pre ++ [.int 1, f]

/-- the attribute is a list -/
def ListAttribute (attrs : String → String → Option String) (t : Val) (r a : String) : Prop :=
  ∃ ty, At t [.str "Resources", .str r, .str "Type"] (.str ty) ∧ ty ≠ "" ∧ attrs ty a = some "List"

/-- the parameter is a list -/
def ListTypedParameter (t : Val) (s : String) : Prop := ∃ ty, At t [.str "Parameters", .str s, .str "Type"] (.str ty) ∧ "List<".toList <+: ty.toList

/-- what is found: a list attribute or a list parameter as the value of an output -/
inductive ListOutput (attrs : String → String → Option String) (t globals : Val) : Path × Val → Prop
  | attribute {p r a} : KeyAt t globals "Fn::GetAtt" p (.list [.str r, .str a]) → InOutput p "Fn::GetAtt" → ListAttribute attrs t r a → ¬ JoinedAt p →
      ListOutput attrs t globals (p, .list [.str r, .str a])
  | parameter {p s} : KeyAt t globals "Ref" p (.str s) → InOutput p "Ref" → ListTypedParameter t s → ¬ JoinedAt p → ListOutput attrs t globals (p, .str s)

/-- resources and parameters are objects with texts as types, the arguments of `Fn::GetAtt` in outputs are a name and an attribute, and no output is a `Ref` -/
structure OutputShape (t globals : Val) : Prop where
  args : ∀ p xs, KeyAt t globals "Fn::GetAtt" p (.list xs) → InOutput p "Fn::GetAtt" → ∃ r a, xs = [.str r, .str a]
  resources : ∀ v, At t [.str "Resources"] v → ∃ rs, v = .dict rs
  resource : ∀ r v, At t [.str "Resources", .str r] v → ∃ o, v = .dict o
  type : ∀ r v, At t [.str "Resources", .str r, .str "Type"] v → ∃ ty, v = .str ty
  parameters : ∀ v, At t [.str "Parameters"] v → ∃ ps, v = .dict ps
  parameter : ∀ s v, At t [.str "Parameters", .str s] v → ∃ o, v = .dict o
  ptype : ∀ s v, At t [.str "Parameters", .str s, .str "Type"] v → ∃ ty, v = .str ty
  noRef : ¬ KeyAt t globals "Ref" [.str "Outputs", .str "Ref"] (.str "Value")

end CfnLint.Spec
