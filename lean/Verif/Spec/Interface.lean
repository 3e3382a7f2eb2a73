import Verif.Spec.Relations
/-
The interface of a template: its entries, its groups of parameters, and the names that it uses.
-/
namespace CfnLint.Spec

/-- where the interface stands -/
def facePath : Path := [.str "Metadata", .str "AWS::CloudFormation::Interface"]

/-- the metadata of a template have the form that is expected of them, as far as the entries of the interface go -/
structure InterfaceShape (t : Val) : Prop where
  top : ∃ kvs, t = .dict kvs
  metadata : ∀ v, At t [.str "Metadata"] v → ∃ kvs, v = .dict kvs
  face : ∀ v, At t facePath v → ∃ kvs, v = .dict kvs
  groups : ∀ v, At t (facePath ++ [.str "ParameterGroups"]) v → ∃ xs, v = .list xs
  group : ∀ (i : Nat) v, At t (facePath ++ [.str "ParameterGroups", .int i]) v → ∃ kvs, v = .dict kvs

/-- so have the names of parameters in it -/
structure InterfaceNames (t : Val) : Prop where
  parameters : ∀ v, At t [.str "Parameters"] v → ∃ kvs, v = .dict kvs
  lists : ∀ (i : Nat) v, At t (facePath ++ [.str "ParameterGroups", .int i, .str "Parameters"]) v → ∃ xs, v = .list xs
  labels : ∀ v, At t (facePath ++ [.str "ParameterLabels"]) v → ∃ kvs, v = .dict kvs

/-- an entry that the interface cannot have -/
def StrayEntry (t : Val) (p : Path) : Prop :=
  (∃ k v, At t p v ∧ p = facePath ++ [k] ∧ k ≠ .str "ParameterGroups" ∧ k ≠ .str "ParameterLabels") ∨
  ∃ (i : Nat) (k : Key) (v : Val), At t p v ∧ p = facePath ++ [.str "ParameterGroups", .int i, k] ∧ k ≠ .str "Label" ∧ k ≠ .str "Parameters"

/-- a value is the name of a parameter -/
def NamesParameter (t v : Val) : Prop := ∃ k d, At t [.str "Parameters", k] d ∧ v = k.toVal

/-- a name in the interface that is none of a parameter -/
def UnknownName (t : Val) (p : Path) : Prop :=
  (∃ (i j : Nat) (v : Val), At t p v ∧ p = facePath ++ [.str "ParameterGroups", .int i, .str "Parameters", .int j] ∧ ¬ NamesParameter t v) ∨
  ∃ k v, At t p v ∧ p = facePath ++ [.str "ParameterLabels", k] ∧ ¬ NamesParameter t k.toVal

end CfnLint.Spec
