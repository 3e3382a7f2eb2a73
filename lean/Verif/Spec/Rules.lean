/-
Specifications about rule enablement, independent of the model.
-/
namespace CfnLint.Spec

/-- `p` is a prefix of `s`. -/
def IsPrefix (p s : String) : Prop := ∃ t, s = p ++ t

/-- The documented enablement decision for a rule with the given `id`. -/
def Enabled (id : String) (experimental includeExperimental : Bool)
    (ignore incl mandatory : List String) : Prop :=
  (experimental = true → includeExperimental = true) ∧
  (∃ p ∈ incl, IsPrefix p id) ∧
  ((∃ p ∈ mandatory, IsPrefix p id) ∨ ¬ ∃ p ∈ ignore, p ≠ "" ∧ IsPrefix p id)

end CfnLint.Spec
