import Verif.Model.Registry
import Verif.Spec.ResProps
/-
Resources that have a schema of their own.
-/
namespace CfnLint.Spec

/-- the text has a word in it -/
def HasWord (w s : String) : Prop := ∃ a b, s = a ++ w ++ b

/-- the text has a dynamic reference in it -/
def DynRefIn (s : String) : Prop := ∃ a w b, s = a ++ "{{resolve:" ++ w ++ "}}" ++ b ∧ w ≠ ""

/-- what the rule takes for syntax of templates -/
def SyntaxIn (s : String) : Prop :=
  DynRefIn s ∨ (∃ w ∈ ["AWS::AccountId", "AWS::NotificationARNs", "AWS::NoValue", "AWS::Partition", "AWS::Region", "AWS::StackId", "AWS::StackName", "AWS::URLSuffix", "Ref",
    "Condition", "Fn::"], HasWord w s)

/-- the resource has the type and the properties; without properties those are empty -/
def ResourceProps (t : Val) (ty : String) (name : Key) (props : Val) : Prop :=
  ∃ res r, At t [.str "Resources"] (.dict res) ∧ (name, .dict r) ∈ res ∧ (.str "Type", .str ty) ∈ r ∧
    ((.str "Properties", props) ∈ r ∨ (∀ v, (Key.str "Properties", v) ∉ r) ∧ props = .dict [])

/-- no key in the value is that of a function, a reference or a condition, and no text has a dynamic reference or a pseudo parameter in it -/
def NoCallsIn (v : Val) : Prop :=
  (∀ p kvs k w, At v p (.dict kvs) → (Key.str k, w) ∈ kvs → k ≠ "Ref" ∧ k ≠ "Condition" ∧ ¬ HasWord "Fn::" k) ∧
    ∀ p s, At v p (.str s) → ¬ HasWord "{{resolve:" s ∧ ¬ HasWord "AWS::" s

end CfnLint.Spec
