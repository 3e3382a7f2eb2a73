import Verif.Model.Zones
import Verif.Spec.PrimType
import Verif.Spec.Relations
/-
Which zones are written down, and which references are to resources with paths.
-/
namespace CfnLint.Spec

/-- a zone that is written down: a value that is not calculated, other than `all` -/
def FixedZone (u : Val) : Prop := Known u ∧ u ≠ .str "all"

/-- the reference is to a resource with a path that is given and is not the root -/
def RefToPath (t : Val) (u : Val) : Prop :=
  ∃ name r props x, u = .dict [(.str "Ref", .str name)] ∧ TypedResource t (.str name) r ∧ (.str "Properties", .dict props) ∈ r ∧
    (.str "Path", x) ∈ props ∧ x.truthy = true ∧ x ≠ .str "/"

end CfnLint.Spec
