import Verif.Model.Py
import Verif.Model.Runner
import Verif.Spec.Template
/-
Subnets and their route tables. A subnet is named by a text, by `Ref` or by `Fn::GetAtt`; `Fn::If` chooses between two of them. A subnet has
one route table: no two resources that exist together may associate the same subnet.
-/
namespace CfnLint.Spec

/-- the resource of that name associates a route table with a subnet: the condition of the resource, if any, and the value of `SubnetId` -/
def Associates (t : Val) (name : Key) (cond : Option Val) (v : Val) : Prop :=
  ∃ rs r ps, At t [.str "Resources"] (.dict rs) ∧ (name, .dict r) ∈ rs ∧ (.str "Type", .str "AWS::EC2::SubnetRouteTableAssociation") ∈ r ∧
    (.str "Properties", .dict ps) ∈ r ∧ (.str "SubnetId", v) ∈ ps ∧
    (match cond with
      | some c => (.str "Condition", c) ∈ r
      | none => ∀ c, (.str "Condition", c) ∉ r)

/-- the parts of a name, with dots between them -/
def withDots : List String → String
  | [] => ""
  | [s] => s
  | s :: rest => s ++ "." ++ withDots rest

/-- with the decisions `ds` on conditions, the value names the subnet `w` -/
inductive Names : Val → List (Val × Bool) → String → Prop
  | text {s} : Names (.str s) [] s
  | ref {s} : Names (.dict [(.str "Ref", .str s)]) [] s
  | att {x y rest} : Names (.dict [(.str "Fn::GetAtt", .list ((x :: y :: rest).map .str))]) [] (withDots (x :: y :: rest))
  | yes {c a b ds w} : Names a ds w → Names (.dict [(.str "Fn::If", .list [c, a, b])]) ((c, true) :: ds) w
  | no {c a b ds w} : Names b ds w → Names (.dict [(.str "Fn::If", .list [c, a, b])]) ((c, false) :: ds) w

/-- the value is a name of a subnet, or a choice between such -/
inductive SubnetExpr : Val → Prop
  | text {s} : SubnetExpr (.str s)
  | ref {s} : SubnetExpr (.dict [(.str "Ref", .str s)])
  | att {x y rest} : SubnetExpr (.dict [(.str "Fn::GetAtt", .list ((x :: y :: rest).map .str))])
  | choice {c a b} : SubnetExpr a → SubnetExpr b → SubnetExpr (.dict [(.str "Fn::If", .list [.str c, a, b])])

/-- with the truth values `σ` of the conditions the resource exists -/
def Made (σ : Val → Bool) : Option Val → Prop
  | some c => σ c = true
  | none => True

/-- the two resources may associate the same subnet at the same time -/
def Clash (t : Val) (n m : Key) : Prop :=
  ∃ (σ : Val → Bool) (c d : Option Val) (v w : Val) (ds es : List (Val × Bool)) (s : String),
    Associates t n c v ∧ Associates t m d w ∧ Made σ c ∧ Made σ d ∧ Names v ds s ∧ Names w es s ∧
    (∀ x ∈ ds, σ x.1 = x.2) ∧ ∀ x ∈ es, σ x.1 = x.2

end CfnLint.Spec
