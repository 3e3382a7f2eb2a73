import Verif.Model.ValueSpecs
import Verif.Spec.PrimType
/-
Values and what the specification says of their types: the allowed texts, a pattern, the least and the greatest length or number.
-/
namespace CfnLint.Spec

/-- the text that stands for a value -/
def valueText (E : PyText) : Val → String
  | .str s => s
  | .int i => toString i
  | .flt r => r
  | .bool b => if b then "True" else "False"
  | .none => "None"
  | v => E.shown v

/-- the text has a dynamic reference -/
def HasResolve (s : String) : Prop := ∃ a b, s.toList = a ++ ("{{resolve:".toList ++ b)

/-- the value is not one of those allowed -/
def NotAllowed (E : PyText) (d : ValueRow) (v : Val) : Prop :=
  ∃ vt, d.valueType = some vt ∧ vt.allowed ≠ [] ∧ ¬ HasResolve (valueText E v) ∧ valueText E v ∉ vt.allowed

/-- a text, a number or a truth value -/
def Scalar (v : Val) : Prop := v ≠ .none ∧ (∀ xs, v ≠ .list xs) ∧ ∀ kvs, v ≠ .dict kvs

/-- the pattern does not match -/
def NoMatch (E : PyText) (d : ValueRow) (v : Val) : Prop :=
  ∃ vt, d.valueType = some vt ∧ vt.pattern ≠ "" ∧ Scalar v ∧ ¬ HasResolve (valueText E v) ∧ E.matches_ vt.pattern (valueText E v) = false

/-- texts are declared, alone or in a list -/
def DeclaresText (d : ValueRow) : Prop :=
  (d.type = some "List" ∧ d.primItem = some "String") ∨ (d.type ≠ some "List" ∧ d.prim = some "String")

/-- the text is too short or too long -/
def BadLength (d : ValueRow) (v : Val) : Prop :=
  ∃ vt lo hi s, d.valueType = some vt ∧ vt.stringMin = some lo ∧ vt.stringMax = some hi ∧ DeclaresText d ∧ v = .str s ∧
    (s.length < lo ∨ hi < s.length)

/-- the number a value stands for -/
inductive NumberIn (E : PyText) : Val → Val → Prop
  | int {i} : NumberIn E (.int i) (.int i)
  | flt {r} : NumberIn E (.flt r) (.flt r)
  | bool {b} : NumberIn E (.bool b) (.bool b)
  | text {s x} : E.toFloat s = some x → NumberIn E (.str s) x

/-- the value is a text that is no number, or a number too small or too great -/
def BadNumberValue (E : PyText) (d : ValueRow) (v : Val) : Prop :=
  ∃ vt lo hi ty, d.valueType = some vt ∧ vt.numberMin = some lo ∧ vt.numberMax = some hi ∧ d.prim = some ty ∧
    ty ∈ ["String", "Integer", "Long", "Double"] ∧
    ((∃ s, v = .str s ∧ ∀ x, ¬ NumberIn E v x) ∨ ∃ x, NumberIn E v x ∧ ¬ (E.le lo x = true ∧ E.le x hi = true))

/-- the faults of the properties of an object, with their places -/
def ValueFault (rows : List (String × ValueRow)) (F : ValueRow → Val → Prop) (kvs : List (Key × Val)) (p : Path) : Prop :=
  ∃ prop d v q u, (prop, d) ∈ rows ∧ (.str prop, v) ∈ kvs ∧ PropValue v q u ∧ Known u ∧ F d u ∧ p = .str prop :: q

/-- the faults of the objects a value may be -/
def ValueFaults (rows : List (String × ValueRow)) (F : ValueRow → Val → Prop) (v : Val) (p : Path) : Prop :=
  ∃ q l r, Leaf v q (.dict l) ∧ ValueFault rows F l r ∧ p = q ++ r

end CfnLint.Spec
