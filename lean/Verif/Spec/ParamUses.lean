import Verif.Model.ParamUses
import Verif.Spec.ValueSpecs
import Verif.Spec.Declared
/-
The values of parameters that are used for properties.
-/
namespace CfnLint.Spec

/-- the values of the type are single texts, and they are in the template -/
def SingleParam (ty : String) : Prop :=
  ¬ "List<".toList <+: ty.toList ∧ ¬ "AWS::SSM::Parameter::Value<".toList <+: ty.toList ∧ ty ≠ "CommaDelimitedList"

/-- the values that a parameter can have and whose texts are bad, where they stand -/
inductive BadParamValue (E : PyText) (bad : String → Prop) (n : Key) (o : List (Key × Val)) : Path → Prop
  | allowed {ty xs} {i : Nat} {x} : (Key.str "Type", Val.str ty) ∈ o → SingleParam ty → (Key.str "AllowedValues", Val.list xs) ∈ o → xs[i]? = some x → bad (valueText E x) →
      BadParamValue E bad n o [.str "Parameters", n, .str "AllowedValues", .int i]
  | default {ty v} : (Key.str "Type", Val.str ty) ∈ o → SingleParam ty → (Key.str "Default", v) ∈ o → v.truthy = true → bad (valueText E v) →
      BadParamValue E bad n o [.str "Parameters", n, .str "Default"]

/-- the texts that the specification of a property does not allow -/
def NotListed (vt : ValueType) (s : String) : Prop := vt.allowed ≠ [] ∧ s ∉ vt.allowed

/-- the texts that the pattern of a property does not match -/
def NotMatched (E : PyText) (vt : ValueType) (s : String) : Prop := vt.pattern ≠ "" ∧ E.matches_ vt.pattern s = false

/-- a declared property of the object refers, outside of any `Fn::If`, to the parameter `n` -/
def PropertyUsesParam (rows : List (String × ValueRow)) (kvs : List (Key × Val)) (n : String) (vt : ValueType) : Prop :=
  ∃ prop d v, (prop, d) ∈ rows ∧ d.valueType = some vt ∧ prop ≠ "Fn::If" ∧ (Key.str prop, v) ∈ kvs ∧
    (v = .dict [(.str "Ref", .str n)] ∨ ∃ xs, v = .list xs ∧ Val.dict [(.str "Ref", .str n)] ∈ xs) ∧ n ≠ "AWS::NoValue"

end CfnLint.Spec
