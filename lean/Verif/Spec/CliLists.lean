import Verif.Spec.Rules
/-
What the arguments of a list option mean.
-/
namespace CfnLint.Spec

/-- `l` are the pieces of `s` between its commas -/
def CommaPieces (s : String) (l : List String) : Prop :=
  l ≠ [] ∧ (∀ p ∈ l, ',' ∉ p.toList) ∧ ",".intercalate l = s

/-- the elements that the arguments of one occurrence stand for, in order -/
inductive Elements (split : Bool) : List String → List String → Prop
  | none : Elements split [] []
  | whole {s ss l} : split = false → Elements split ss l → Elements split (s :: ss) (s :: l)
  | pieces {s ss p l} : split = true → CommaPieces s p → Elements split ss l →
      Elements split (s :: ss) (p ++ l)

end CfnLint.Spec
