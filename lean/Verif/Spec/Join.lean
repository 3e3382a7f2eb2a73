import Verif.Spec.FnShape
import Verif.Spec.SubRule
/- Specification of `Fn::Join`. -/
namespace CfnLint.Spec

/-- a reference to a list: a parameter of a type of lists, or the topics of the stack -/
def ListRef (t : Val) (n : String) : Prop := n = "AWS::NotificationARNs" ∨ ListParameter t n

/-- attribute `A` of resource `R` is a list -/
def ListAttr (S : AttrSpecs) (t : Val) (R A : String) : Prop :=
  ∃ ty attrs d, HasResource t R ty ∧ ¬ OpenType ty ∧ dlookup ty S = some (some attrs) ∧ (A, d) ∈ attrs ∧ d.type = some "List"

/-- `R` is inside a module: it is no resource, and its name begins with that of a module -/
def ModuleInner (t : Val) (R : String) : Prop := InsideModule t R ∧ ∀ ty, ¬ HasResource t R ty

/-- it is not known whether the attributes of `R` are lists; the outputs of a nested stack are texts -/
def OpenAttr (t : Val) (R : String) : Prop :=
  (∃ ty, HasResource t R ty ∧ OpenType ty ∧ ty ≠ "AWS::CloudFormation::Stack") ∨ ModuleInner t R

/-- what may be one of the joined values -/
inductive JoinItem (S : AttrSpecs) (t : Val) : Val → Prop
  | text {s} : JoinItem S t (.str s)
  | ref {n} : ¬ ListRef t n → JoinItem S t (.dict [(.str "Ref", .str n)])
  | attr {v R A} : NamesAttr v R A → ¬ ListAttr S t R A → JoinItem S t (.dict [(.str "Fn::GetAtt", v)])
  | call {v} : OneCall ["Fn::Base64", "Fn::FindInMap", "Fn::If", "Fn::ImportValue", "Fn::Join", "Fn::Select", "Fn::Sub"] v → JoinItem S t v

/-- what may be the list of the joined values -/
inductive JoinList (S : AttrSpecs) (t : Val) : Val → Prop
  | list {xs} : (∀ x ∈ xs, JoinItem S t x) → JoinList S t (.list xs)
  | ref {n} : ListRef t n → JoinList S t (.dict [(.str "Ref", .str n)])
  | attr {v R A} : NamesAttr v R A → ListAttr S t R A ∨ OpenAttr t R → JoinList S t (.dict [(.str "Fn::GetAtt", v)])
  | call {v} : OneCall ["Fn::Cidr", "Fn::FindInMap", "Fn::GetAZs", "Fn::If", "Fn::Select", "Fn::Split"] v → JoinList S t v

/-- `Fn::Join`: a delimiter and a list of values -/
def BadJoin (S : AttrSpecs) (t : Val) (_ : Path) (v : Val) (s : Path) : Prop :=
  s = [] ∧ ¬ ∃ d o, v = .list [.str d, o] ∧ JoinList S t o

/-- `v` is the list of a `Fn::Join` or one of its values -/
def JoinPart (t v : Val) : Prop :=
  ∃ q d o, At t (q ++ [.str "Fn::Join"]) (.list [d, o]) ∧ (v = o ∨ ∃ xs, o = .list xs ∧ v ∈ xs)

/-- the value names attribute `A` of `R` by `R.A` or `[R, A]` -/
def NamesTwo (v : Val) (R A : String) : Prop :=
  (v = .str (R ++ "." ++ A) ∧ '.' ∉ R.toList) ∨ v = .list [.str R, .str A]

/-- references by texts and attributes in two parts, not inside of modules -/
structure PlainJoins (t : Val) : Prop where
  refs : ∀ x, JoinPart t (.dict [(.str "Ref", x)]) → ∃ n, x = .str n
  attrs : ∀ x, JoinPart t (.dict [(.str "Fn::GetAtt", x)]) → ∃ R A, NamesTwo x R A ∧ ¬ ModuleInner t R

end CfnLint.Spec
