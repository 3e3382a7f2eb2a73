import Verif.Spec.Template
import Verif.Spec.Refs
/- Specification of the grammar of conditions, after the CloudFormation user guide. -/
namespace CfnLint.Spec

/-- the functions a condition is made of -/
def grammarFunctions : List String := ["Fn::And", "Fn::Or", "Fn::Not", "Fn::Equals", "Condition"]

/-- the functions an operand of `Fn::Equals` may use -/
def operandFunctions : List String := ["Fn::FindInMap", "Fn::Join", "Fn::Select", "Fn::Split", "Fn::Sub", "Ref"]

/-- the types of parameters whose value is a list -/
def IsListType (ty : String) : Prop :=
  ty = "CommaDelimitedList" ∨
  (∃ x ∈ ["Number", "String", "AWS::EC2::AvailabilityZone::Name", "AWS::EC2::Image::Id", "AWS::EC2::Instance::Id",
    "AWS::EC2::SecurityGroup::GroupName", "AWS::EC2::SecurityGroup::Id", "AWS::EC2::Subnet::Id", "AWS::EC2::VPC::Id",
    "AWS::EC2::Volume::Id", "AWS::Route53::HostedZone::Id"], ty = "List<" ++ x ++ ">") ∨
  ty = "AWS::SSM::Parameter::Value<CommaDelimitedList>" ∨
  (∃ x ∈ ["Number", "String", "AWS::EC2::AvailabilityZone::Name", "AWS::EC2::Image::Id", "AWS::EC2::Instance::Id",
    "AWS::EC2::SecurityGroup::GroupName", "AWS::EC2::SecurityGroup::Id", "AWS::EC2::Subnet::Id", "AWS::EC2::VPC::Id",
    "AWS::EC2::Volume::Id", "AWS::Route53::HostedZone::Id"], ty = "AWS::SSM::Parameter::Value<List<" ++ x ++ ">>")

/-- `s` is a parameter that holds a list -/
def ListParameter (t : Val) (s : String) : Prop :=
  ∃ ty, At t [.str "Parameters", .str s, .str "Type"] (.str ty) ∧ IsListType ty

/-- a text, number or Boolean -/
def Literal : Val → Prop
  | .str _ | .int _ | .flt _ | .bool _ => True
  | _ => False

/-- the functions whose argument holds conditions or comparisons -/
def logicalFunctions : List String := ["Fn::And", "Fn::Or", "Fn::Not", "Fn::Equals"]

/-- an operand of `Fn::Equals`: a literal, or a call of one of the functions, without logical functions inside; a reference
names something that is not a list -/
def GoodOperand (t : Val) (v : Val) : Prop :=
  Literal v ∨ ∃ k w, v = .dict [(.str k, w)] ∧ k ∈ operandFunctions ∧ (k = "Ref" → ∃ s, w = .str s ∧ ¬ ListParameter t s) ∧
    ∀ q, ∀ fn ∈ logicalFunctions, ∀ u, ¬ At v (q ++ [.str fn]) u

/-- The grammar of conditions. -/
inductive Grammatical (t : Val) : Val → Prop
  | equals {a b} : GoodOperand t a → GoodOperand t b → Grammatical t (.dict [(.str "Fn::Equals", .list [a, b])])
  | and {vs} : 2 ≤ vs.length → vs.length ≤ 10 → (∀ v ∈ vs, Grammatical t v) → Grammatical t (.dict [(.str "Fn::And", .list vs)])
  | or {vs} : 2 ≤ vs.length → vs.length ≤ 10 → (∀ v ∈ vs, Grammatical t v) → Grammatical t (.dict [(.str "Fn::Or", .list vs)])
  | not {v} : Grammatical t v → Grammatical t (.dict [(.str "Fn::Not", .list [v])])
  | named {s} : Grammatical t (.dict [(.str "Condition", .str s)])

/-- every condition of the template follows the grammar -/
def AllGrammatical (t : Val) : Prop := ∀ k v, At t [.str "Conditions", k] v → Grammatical t v

/-! ### The faults -/

/-- how many conditions the function takes -/
def SizeOk (fn : String) (n : Nat) : Prop := (fn = "Fn::Not" → n = 1) ∧ (fn ≠ "Fn::Not" → 2 ≤ n ∧ n ≤ 10)

/-- A condition that is no call of a function, or of another function than those of conditions; with its place. -/
inductive BadCondition (t : Val) : Path → Prop
  | form {k v} : At t [.str "Conditions", k] v → (∀ x w, v ≠ .dict [(x, w)]) → BadCondition t [.str "Conditions", k]
  | function {k x w} : At t [.str "Conditions", k] (.dict [(x, w)]) → (∀ f ∈ grammarFunctions, x ≠ .str f) →
      BadCondition t [.str "Conditions", k, x]

/-- A call of `Fn::And`, `Fn::Or` or `Fn::Not` with an argument that is no list of as many conditions as it takes. -/
inductive BadList (t : Val) (fn : String) : Path → Prop
  | size {q v} : At t (.str "Conditions" :: q ++ [.str fn]) v → (∀ xs, v = .list xs → ¬ SizeOk fn xs.length) →
      BadList t fn (.str "Conditions" :: q ++ [.str fn])
  | form {q xs} {i : Nat} {v} : At t (.str "Conditions" :: q ++ [.str fn]) (.list xs) → SizeOk fn xs.length →
      xs[i]? = some v → (∀ x w, v ≠ .dict [(x, w)]) → BadList t fn (.str "Conditions" :: q ++ [.str fn, .int i])
  | function {q xs} {i : Nat} {x w} : At t (.str "Conditions" :: q ++ [.str fn]) (.list xs) → SizeOk fn xs.length →
      xs[i]? = some (.dict [(x, w)]) → (∀ f ∈ grammarFunctions, x ≠ .str f) →
      BadList t fn (.str "Conditions" :: q ++ [.str fn, .int i, x])

/-- A call of `Fn::Equals` that does not compare two operands. -/
inductive BadEquals (t : Val) : Path → Prop
  | size {q v} : At t (.str "Conditions" :: q ++ [.str "Fn::Equals"]) v → (∀ a b, v ≠ .list [a, b]) →
      BadEquals t (.str "Conditions" :: q ++ [.str "Fn::Equals"])
  | form {q a b} {i : Nat} {v} : At t (.str "Conditions" :: q ++ [.str "Fn::Equals"]) (.list [a, b]) → [a, b][i]? = some v →
      ¬ Literal v → (∀ x w, v ≠ .dict [(x, w)]) → BadEquals t (.str "Conditions" :: q ++ [.str "Fn::Equals", .int i])
  | function {q a b} {i : Nat} {x w} : At t (.str "Conditions" :: q ++ [.str "Fn::Equals"]) (.list [a, b]) →
      [a, b][i]? = some (.dict [(x, w)]) → (∀ f ∈ operandFunctions, x ≠ .str f) →
      BadEquals t (.str "Conditions" :: q ++ [.str "Fn::Equals", .int i, x])
  | listRef {q a b} {i : Nat} {s} : At t (.str "Conditions" :: q ++ [.str "Fn::Equals"]) (.list [a, b]) →
      [a, b][i]? = some (.dict [(.str "Ref", .str s)]) → ListParameter t s →
      BadEquals t (.str "Conditions" :: q ++ [.str "Fn::Equals", .int i])

/-! ### Restrictions -/

/-- The name `s` is looked up correctly (C66): it does not merely begin with a declared name, no module has a name that is
nearly as long, and a parameter of that name is not a resource or pseudo parameter as well. -/
structure ClearName (t : Val) (s : String) : Prop where
  begins : ∀ n, Declared t n → n.toList <+: s.toList → Declared t s
  modules : Declared t s → ∀ m, IsModule t m → m.toList <+: s.toList → m.toList.length + 2 < s.toList.length
  once : ∀ ty, At t [.str "Parameters", .str s, .str "Type"] ty →
    (∀ x, At t [.str "Resources", .str s, .str "Type"] (.str x) → x = "" ∨ IsModule t s) ∧ s ∉ pseudoNames

/-- references in operands of `Fn::Equals` are texts that are looked up correctly -/
def ClearRefs (t : Val) : Prop := ∀ q i v, At t (.str "Conditions" :: q ++ [.str "Fn::Equals", .int i, .str "Ref"]) v →
  ∃ s, v = .str s ∧ ClearName t s

/-- the argument of `Condition` is a text -/
def TextNames (t : Val) : Prop := ∀ q v, At t (.str "Conditions" :: q ++ [.str "Condition"]) v → ∃ s, v = .str s

/-- no condition is named like a function -/
def NamesClear (t : Val) : Prop := ∀ fn ∈ logicalFunctions, ∀ v, ¬ At t [.str "Conditions", .str fn] v

/-- there are no logical functions inside the operands of `Fn::Equals` -/
def PlainOperands (t : Val) : Prop := ∀ q i q' fn v, fn ∈ logicalFunctions →
  ¬ At t (.str "Conditions" :: q ++ .str "Fn::Equals" :: .int i :: q' ++ [.str fn]) v

/-- the condition `c` mentions the condition `d` -/
def MentionsCond (t : Val) (c : Key) (d : String) : Prop := ∃ q, At t (.str "Conditions" :: c :: q ++ [.str "Condition"]) (.str d)

/-- the conditions can be ranked so that each mentions only lower ones -/
def AcyclicConds (t : Val) : Prop := ∃ rank : Key → Nat, ∀ c d, MentionsCond t c d → rank (.str d) < rank c

/-- no operand of `Fn::Equals` is a number with a fraction -/
def NoFractions (t : Val) : Prop := ∀ q i x, ¬ At t (.str "Conditions" :: q ++ [.str "Fn::Equals", .int i]) (.flt x)

end CfnLint.Spec
