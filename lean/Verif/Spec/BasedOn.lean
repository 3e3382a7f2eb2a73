import Verif.Spec.PropSets
import Verif.Model.BasedOn
/-
When the value of a property makes other properties necessary or unwanted.
-/
namespace CfnLint.Spec

/-- the template has a resource with the name and the type -/
def ResourceTyped (t : Val) (k : Key) (ty : Val) : Prop :=
  ∃ tkvs rs r, t = .dict tkvs ∧ (Key.str "Resources", .dict rs) ∈ tkvs ∧ (k, .dict r) ∈ rs ∧ (Key.str "Type", ty) ∈ r

/-- the value is used as the name of a resource -/
inductive AsName : Val → Key → Prop
  | str (s : String) : AsName (.str s) (.str s)
  | int (i : Int) : AsName (.int i) (.int i)
  | yes : AsName (.bool true) (.int 1)
  | no : AsName (.bool false) (.int 0)

/-- the value is one of those that the element of the specification is about -/
inductive Triggers (t : Val) (s : BasedOn) : Val → Prop
  | text {r x} : s.regex = some r → r x = true → Triggers t s (.str x)
  | ref {x ty} : ResourceTyped t (.str x) (.str ty) → ty ∈ s.refs → Triggers t s (.dict [(.str "Ref", .str x)])
  | getAtt {x k ty a more} : AsName x k → ResourceTyped t k (.str ty) → (ty, a) ∈ s.getAtts →
      Triggers t s (.dict [(.str "Fn::GetAtt", .list (x :: .str a :: more))])

/-- Under `σ` the property of the object has a value that the element is about. -/
def TriggeredBy (σ : String → Bool) (t : Val) (kvs : List (Key × Val)) (k : String) (s : BasedOn) : Prop :=
  ∃ v q u, (Key.str k, v) ∈ kvs ∧ Chosen σ v q u ∧ Triggers t s u

end CfnLint.Spec
