import Verif.Spec.FnShape
import Verif.Spec.Regex
/- What `Fn::Cidr` demands: an address block, a count up to 256 and perhaps a mask up to 128. -/
namespace CfnLint.Spec

/-- calls that may stand for a part -/
def cidrCalls : List String := ["Fn::FindInMap", "Fn::Select", "Ref", "Fn::GetAtt", "Fn::Sub", "Fn::ImportValue"]

/-- what may be the block -/
inductive CidrBlock : Val → Prop
  | text {s} : CidrText s → CidrBlock (.str s)
  | call {v} : OneCall cidrCalls v → CidrBlock v

/-- what may be the count or the mask -/
inductive CidrNumber : Val → Prop
  | int {n} : CidrNumber (.int n)
  | call {v} : OneCall cidrCalls v → CidrNumber v

/-- `Fn::Cidr`: a block, a count and perhaps a mask -/
inductive BadCidr : Path → Val → Path → Prop
  | size {p v} : (∀ b c, v ≠ .list [b, c]) → (∀ b c m, v ≠ .list [b, c, m]) → BadCidr p v []
  | block {p b c r} : r.length ≤ 1 → ¬ CidrBlock b → BadCidr p (.list (b :: c :: r)) [.int 0]
  | count {p b c r} : r.length ≤ 1 → ¬ CidrNumber c → BadCidr p (.list (b :: c :: r)) [.int 1]
  | mask {p b c m} : ¬ CidrNumber m → BadCidr p (.list [b, c, m]) [.int 2]

/-- `n` is used for a count -/
def CountRef (t : Val) (n : String) : Prop :=
  ∃ q b r, At t (q ++ [.str "Fn::Cidr"]) (.list (b :: .dict [(.str "Ref", .str n)] :: r)) ∧ r.length ≤ 1

/-- `n` is used for a mask -/
def MaskRef (t : Val) (n : String) : Prop :=
  ∃ q b c, At t (q ++ [.str "Fn::Cidr"]) (.list [b, c, .dict [(.str "Ref", .str n)]])

/-- the parameter `n` is not a number with both bounds from 1 to `hi` -/
def BadNumber (t : Val) (n : String) (hi : Int) (p : Path) : Prop :=
  ∃ fs, At t [.str "Parameters", .str n] (.dict fs) ∧
    (((.str "Type", .str "Number") ∉ fs ∧ p = [.str "Parameters", .str n]) ∨
     ((.str "Type", .str "Number") ∈ fs ∧ ∃ b ∈ ["MinValue", "MaxValue"],
       (¬ ∃ i : Int, (.str b, .int i) ∈ fs ∧ 1 ≤ i ∧ i ≤ hi) ∧ p = [.str "Parameters", .str n, .str b]))

/-- if an object, then with one key -/
def OneKey (v : Val) : Prop := ∀ kvs, v = .dict kvs → kvs.length = 1

/-- a count or mask without surprises: no Boolean, no object with several keys, references by name -/
def PlainNumber (v : Val) : Prop := OneKey v ∧ (∀ b, v ≠ .bool b) ∧ ∀ r, v = .dict [(.str "Ref", r)] → ∃ s, r = .str s

/-- a call with all three parts, or of a wrong size; no line break after the block -/
def PlainCidrCall (v : Val) : Prop :=
  (∀ b c, v ≠ .list [b, c]) ∧ ∀ b c m, v = .list [b, c, m] →
    (∀ s : String, b = .str s → ¬ ∃ l, s.toList = l ++ ['\n']) ∧ OneKey b ∧ PlainNumber c ∧ PlainNumber m

/-- templates without the constructs on which the rule goes astray -/
structure PlainCidr (t : Val) : Prop where
  wf : t.WF
  object : ∃ kvs, t = .dict kvs
  calls : ∀ q v, At t (q ++ [.str "Fn::Cidr"]) v → PlainCidrCall v
  parameters : ∀ v, At t [.str "Parameters"] v → ∃ kvs, v = .dict kvs
  parameter : ∀ n v, CountRef t n ∨ MaskRef t n → At t [.str "Parameters", .str n] v → ∃ kvs, v = .dict kvs ∧ kvs ≠ []
  bounds : ∀ n b v, CountRef t n ∨ MaskRef t n → b ∈ ["MinValue", "MaxValue"] → At t [.str "Parameters", .str n, .str b] v →
    ∃ i, v = .int i

/-- no bound of a mask is above 128 and yet not above 256 -/
def NoWideMask (t : Val) : Prop :=
  ∀ n b (i : Int), MaskRef t n → b ∈ ["MinValue", "MaxValue"] → At t [.str "Parameters", .str n, .str b] (.int i) → ¬ (128 < i ∧ i ≤ 256)

end CfnLint.Spec
