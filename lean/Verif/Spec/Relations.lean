import Verif.Spec.Graph
import Verif.Spec.Scenario
/-
Specification of references to resources, for the rules about resources that may not exist and about superfluous
dependencies.
-/
namespace CfnLint.Spec

/-- At `p` stands a `Ref` or an `Fn::GetAtt` that names `R`; the last element of `p` is the name of the function. -/
inductive Mentions (t : Val) : Path → String → Prop
  | ref {q R} : At t (q ++ [.str "Ref"]) (.str R) → Mentions t (q ++ [.str "Ref"]) R
  | getAtt {q R xs} : At t (q ++ [.str "Fn::GetAtt"]) (.list (.str R :: xs)) → Mentions t (q ++ [.str "Fn::GetAtt"]) R
  | getAttText {q R} {s : String} : At t (q ++ [.str "Fn::GetAtt"]) (.str s) → Owner s.toList R.toList →
      Mentions t (q ++ [.str "Fn::GetAtt"]) R

/-- The same, with the variables of the texts of `Fn::Sub`. -/
inductive MentionsAny (t : Val) : Path → String → Prop
  | plain {p R} : Mentions t p R → MentionsAny t p R
  | sub {q R n} {s : String} : At t (q ++ [.str "Fn::Sub"]) (.str s) → Variable s.toList n → Owner n R.toList →
      MentionsAny t (q ++ [.str "Fn::Sub"]) R

/-- `k` is a resource: an object with a type that is not null -/
def TypedResource (t : Val) (k : Key) (r : List (Key × Val)) : Prop :=
  ∃ top res ty, t = .dict top ∧ (Key.str "Resources", .dict res) ∈ top ∧ (k, .dict r) ∈ res ∧
    (Key.str "Type", ty) ∈ r ∧ ty ≠ .none

/-- a value of `DependsOn` of the resource `k`, standing at `p`; empty values and null are none -/
inductive DependsOnAt (t : Val) (k : Key) : Path → Val → Prop
  | one {r d} : TypedResource t k r → (Key.str "DependsOn", d) ∈ r → d.truthy = true → (∀ xs, d ≠ .list xs) →
      DependsOnAt t k [.str "Resources", k, .str "DependsOn"] d
  | item {r xs} {i : Nat} {v} : TypedResource t k r → (Key.str "DependsOn", .list xs) ∈ r → xs[i]? = some v →
      DependsOnAt t k [.str "Resources", k, .str "DependsOn", .int i] v

end CfnLint.Spec
