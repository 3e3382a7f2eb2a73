import Verif.Spec.Template
/- Which values the keys lead to. -/
namespace CfnLint.Spec

/-- Following the keys from a value through branches of conditions and elements of lists one arrives at a value at a path. -/
inductive Selected : List String → Val → Path → Val → Prop
  | done {v} : Selected [] v [] v
  | key {k ks v q kvs u p w} : Leaf v q (.dict kvs) → (.str k, u) ∈ kvs → Selected ks u p w → Selected (k :: ks) v (q ++ .str k :: p) w
  | item {k ks v q xs} {i : Nat} {x p w} : Leaf v q (.list xs) → xs[i]? = some x → Selected (k :: ks) x p w →
      Selected (k :: ks) v (q ++ .int i :: p) w

/-- the values met on the way and the keys still to be followed -/
inductive Visits (K : List String) (V : Val) : List String → Val → Prop
  | start : Visits K V K V
  | key {k ks kvs u} : Visits K V (k :: ks) (.dict kvs) → (.str k, u) ∈ kvs → Visits K V ks u
  | item {k ks xs x q u} : Visits K V (k :: ks) (.list xs) → x ∈ xs → Leaf x q u → Visits K V (k :: ks) u

/-- On the way no object is a condition, and the elements of lists are objects with no or several keys, conditions, references to
`AWS::NoValue` or neither objects nor lists. -/
structure PlainWalk (K : List String) (V : Val) : Prop where
  object : ∀ k ks u, Visits K V (k :: ks) u → ¬ IsIf u
  items : ∀ k ks xs x, Visits K V (k :: ks) (.list xs) → x ∈ xs → (∀ ys, x ≠ .list ys) ∧ ∀ key a, x = .dict [(key, a)] → IsIf x ∨ x = noValue

/-- the resource `name` of the type `ty` has the properties `props` -/
def HasProps (t : Val) (ty : String) (name : Key) (props : Val) : Prop :=
  ∃ res r, At t [.str "Resources"] (.dict res) ∧ (name, .dict r) ∈ res ∧ (.str "Type", .str ty) ∈ r ∧ (.str "Properties", props) ∈ r

end CfnLint.Spec
