import Verif.Model.Runtimes
import Verif.Spec.PrimType
/-
Which runtimes of functions are to be reported.
-/
namespace CfnLint.Spec

/-- the runtime cannot be used any more -/
def RuntimeOver (now : Int) (r : Lifecycle) : Prop := r.deprecated < now

/-- the runtime is not supported any more but can still be used -/
def RuntimeAged (now : Int) (r : Lifecycle) : Prop := r.eol < now ∧ now < r.deprecated

/-- a text that is the name of a runtime of which `T` is said -/
def NamesRuntime (rows : List (String × Lifecycle)) (T : Lifecycle → Prop) (v : Val) : Prop := ∃ s r, v = .str s ∧ (s, r) ∈ rows ∧ T r

/-- the places to report for a value of the runtime that stands at `p`: the value itself or, where it refers to a parameter, the default and the values
that the parameter allows -/
inductive RuntimePlace (rows : List (String × Lifecycle)) (T : Lifecycle → Prop) (params : List (Key × Val)) : Val → Path → Path → Prop
  | value {u p} : NamesRuntime rows T u → RuntimePlace rows T params u p p
  | default {s par d p} : (.str s, .dict par) ∈ params → (.str "Default", d) ∈ par → NamesRuntime rows T d →
      RuntimePlace rows T params (.dict [(.str "Ref", .str s)]) p [.str "Parameters", .str s, .str "Default"]
  | allowed {s par xs x p} {i : Nat} : (.str s, .dict par) ∈ params → (.str "AllowedValues", .list xs) ∈ par → xs[i]? = some x → NamesRuntime rows T x →
      RuntimePlace rows T params (.dict [(.str "Ref", .str s)]) p [.str "Parameters", .str s, .str "AllowedValues", .int i]

/-- neither a list nor an object -/
def NotNested (v : Val) : Prop := (∀ xs, v ≠ .list xs) ∧ ∀ kvs, v ≠ .dict kvs

/-- parameters whose defaults and allowed values are neither lists nor objects -/
def PlainParams (params : List (Key × Val)) : Prop :=
  (Val.dict params).WF ∧ ∀ k par, (k, par) ∈ params → ∃ kvs, par = .dict kvs ∧ (∀ d, (Key.str "Default", d) ∈ kvs → NotNested d) ∧
    ∀ xs x, (Key.str "AllowedValues", .list xs) ∈ kvs → x ∈ xs → NotNested x

end CfnLint.Spec
