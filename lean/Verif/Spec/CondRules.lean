import Verif.Spec.Template
/- Specification of the use of conditions in a template. -/
namespace CfnLint.Spec

/-- The places where the condition `c` is used: the first argument of an `Fn::If` anywhere, a `Condition`
function inside the `Conditions` section, the `Condition` attribute of a resource or of an output. -/
inductive UsesCond (t : Val) (c : String) : Path → Prop
  | fnIf {p} : At t (p ++ [.str "Fn::If", .int 0]) (.str c) → UsesCond t c (p ++ [.str "Fn::If", .int 0])
  | cond {p} : At t (.str "Conditions" :: p ++ [.str "Condition"]) (.str c) →
      UsesCond t c (.str "Conditions" :: p ++ [.str "Condition"])
  | resource {r} : At t [.str "Resources", r, .str "Condition"] (.str c) →
      UsesCond t c [.str "Resources", r, .str "Condition"]
  | output {o} : At t [.str "Outputs", o, .str "Condition"] (.str c) →
      UsesCond t c [.str "Outputs", o, .str "Condition"]

/-- The condition `c` is defined. -/
def DefinesCond (t : Val) (c : String) : Prop := ∃ v, At t [.str "Conditions", .str c] v

/-- The parts of the template that mention conditions have their shape: every `Fn::If` is a list that
names a condition first, resources have a type, outputs are objects whose condition is a name. -/
structure CondShape (t : Val) : Prop where
  top : ∃ kvs, t = .dict kvs
  ifs : ∀ p v, At t (p ++ [.str "Fn::If"]) v → ∃ c rest, v = .list (.str c :: rest)
  conditions : ∀ v, At t [.str "Conditions"] v → ∃ kvs, v = .dict kvs ∧ ∀ k w, (k, w) ∈ kvs → ∃ s, k = .str s
  resourcesObj : ∀ v, At t [.str "Resources"] v → ∃ kvs, v = .dict kvs
  resources : ∀ r v, At t [.str "Resources", r] v → (∃ w, At v [.str "Condition"] w) →
    ∃ ty, At v [.str "Type"] ty ∧ ty ≠ .none
  outputs : ∀ v, At t [.str "Outputs"] v → ∃ kvs, v = .dict kvs ∧ ∀ k w, (k, w) ∈ kvs → ∃ o, w = .dict o ∧
    ∀ c, (Key.str "Condition", c) ∈ o → ∃ s, c = .str s

end CfnLint.Spec
