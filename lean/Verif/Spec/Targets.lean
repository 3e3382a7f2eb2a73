import Verif.Spec.ListSpecs
/-
Targets of event rules, of which there may be five.
-/
namespace CfnLint.Spec

/-- more than `n` paths have the property -/
def MoreThan (n : Nat) (P : Path → Prop) : Prop := ∃ l : List Path, l.Nodup ∧ n < l.length ∧ ∀ p ∈ l, P p

/-- the branch of the outermost condition on the path -/
def outerBranch : Path → Option Key
  | .str "Fn::If" :: b :: _ => some b
  | _ => none

/-- the path of the targets of a rule -/
def targetsOf (name : Key) : Path := [.str "Resources", name, .str "Properties", .str "Targets"]

end CfnLint.Spec
