import Verif.Spec.Transform
/-
Constraints on the values of parameters, as documented: numbers have a least and a greatest value, texts a least and a greatest length, and
all parameters may have a list of allowed values. Numbers may be written as texts. A list is written as a text with commas; each of its
elements must be allowed.
-/
namespace CfnLint.Spec

/-- how a scalar is written -/
inductive WrittenAs : Val → String → Prop
  | text {s} : WrittenAs (.str s) s
  | number {i : Int} : WrittenAs (.int i) (toString i)

/-- the number that is meant -/
inductive MeansNumber : Val → Int → Prop
  | number {i} : MeansNumber (.int i) i
  | text {i : Int} : MeansNumber (.str (toString i)) i

/-- types of lists -/
def listTypes : List String := ["CommaDelimitedList", "List<Number>"]

/-- the parameter states the attribute -/
def Attr (p : Val) (name : String) (v : Val) : Prop := look p [.str name] = some v

/-- the value is among the allowed ones -/
def Among (s : String) (vs : List Val) : Prop := ∃ v ∈ vs, WrittenAs v s

/-- the parameter `p` may not have the value `d` -/
inductive Denies (p d : Val) : Prop
  | below {m a b} : Attr p "Type" (.str "Number") → Attr p "MinValue" m → MeansNumber m a → MeansNumber d b → b < a → Denies p d
  | above {m a b} : Attr p "Type" (.str "Number") → Attr p "MaxValue" m → MeansNumber m a → MeansNumber d b → a < b → Denies p d
  | short {m a s} : Attr p "Type" (.str "String") → Attr p "MinLength" m → MeansNumber m a → WrittenAs d s →
      (s.toList.length : Int) < a → Denies p d
  | long {m a s} : Attr p "Type" (.str "String") → Attr p "MaxLength" m → MeansNumber m a → WrittenAs d s →
      a < (s.toList.length : Int) → Denies p d
  | other {ty vs s} : Attr p "Type" (.str ty) → ty ∉ listTypes → Attr p "AllowedValues" (.list vs) → WrittenAs d s → ¬ Among s vs →
      Denies p d
  | element {ty vs s a x b} : Attr p "Type" (.str ty) → ty ∈ listTypes → Attr p "AllowedValues" (.list vs) → WrittenAs d s →
      s.toList = a ++ (x ++ b) → (∀ c ∈ x, c ≠ ',') → (a = [] ∨ a.getLast? = some ',') → (b = [] ∨ b.head? = some ',') →
      ¬ Among (String.ofList x) vs → Denies p d

end CfnLint.Spec
