import Verif.Spec.Template
import Verif.Spec.Sub
/- Specification of the form of calls. -/
namespace CfnLint.Spec

/-- The places where calls of `fn` are at fault: `Bad p v s` says that a call with argument `v` at the path `p` is wrong at
`p ++ s`. -/
def BadCall (fn : String) (Bad : Path → Val → Path → Prop) (t : Val) (p : Path) : Prop :=
  ∃ q v s, At t (q ++ [.str fn]) v ∧ Bad (q ++ [.str fn]) v s ∧ p = q ++ [.str fn] ++ s

/-- a call of one of the functions `fs` -/
def OneCall (fs : List String) (v : Val) : Prop := ∃ f ∈ fs, ∃ a, v = .dict [(.str f, a)]

/-- `Fn::If`: three elements, the first of which is a text -/
inductive BadIf : Path → Val → Path → Prop
  | size {p v} : (∀ a b c, v ≠ .list [a, b, c]) → BadIf p v []
  | condition {p c xs} : (∀ s, c ≠ .str s) → BadIf p (.list (c :: xs)) [.int 0]

/-- decimal digits, with single underscores between them -/
inductive DigitRun : List Char → Prop
  | one {d} : '0' ≤ d → d ≤ '9' → DigitRun [d]
  | more {d r} : '0' ≤ d → d ≤ '9' → DigitRun r → DigitRun (d :: r)
  | gap {d r} : '0' ≤ d → d ≤ '9' → DigitRun r → DigitRun (d :: '_' :: r)

/-- a text that is a whole number, perhaps with a sign and white space around it -/
def WholeText (s : String) : Prop :=
  ∃ n, Trimmed s.toList n ∧ ∃ sign digits, n = sign ++ digits ∧ sign ∈ [[], ['+'], ['-']] ∧ DigitRun digits

/-- what may be the index of `Fn::Select` -/
inductive SelectIndex : Val → Prop
  | int {n} : SelectIndex (.int n)
  | text {s} : WholeText s → SelectIndex (.str s)
  | call {v} : OneCall ["Ref", "Fn::FindInMap"] v → SelectIndex v

/-- what may be the list of `Fn::Select` -/
inductive SelectSource : Val → Prop
  | list {xs} : SelectSource (.list xs)
  | call {v} : OneCall ["Fn::FindInMap", "Fn::GetAtt", "Fn::GetAZs", "Fn::If", "Fn::Split", "Fn::Cidr", "Ref"] v → SelectSource v

/-- `Fn::Select`: an index and a list -/
def BadSelect (_ : Path) (v : Val) (s : Path) : Prop := s = [] ∧ ¬ ∃ i l, v = .list [i, l] ∧ SelectIndex i ∧ SelectSource l

/-- what may be the text of `Fn::Split` -/
inductive SplitSource : Val → Prop
  | text {s} : SplitSource (.str s)
  | call {v} : OneCall ["Fn::Base64", "Fn::FindInMap", "Fn::GetAZs", "Fn::GetAtt", "Fn::If", "Fn::ImportValue", "Fn::Join", "Fn::Select",
      "Fn::Sub", "Ref"] v → SplitSource v

/-- `Fn::Split`: a delimiter and a text -/
inductive BadSplit : Path → Val → Path → Prop
  | size {p v} : (∀ a b, v ≠ .list [a, b]) → BadSplit p v []
  | delimiter {p a b} : (∀ s, a ≠ .str s) → BadSplit p (.list [a, b]) [.int 0]
  | source {p a b} : ¬ SplitSource b → BadSplit p (.list [a, b]) []

/-- `Fn::ImportValue`: a text or a call, and not in the conditions -/
inductive BadImport : Path → Val → Path → Prop
  | place {r v} : BadImport (.str "Conditions" :: r) v []
  | value {p v} : (∀ s, v ≠ .str s) →
      ¬ OneCall ["Fn::Base64", "Fn::FindInMap", "Fn::If", "Fn::Join", "Fn::Select", "Fn::Split", "Fn::Sub", "Ref"] v → BadImport p v []

/-- `Fn::Base64`: a text or a call that may give one -/
def BadBase64 (_ : Path) (v : Val) (s : Path) : Prop :=
  s = [] ∧ (∀ x, v ≠ .str x) ∧ ∀ k a, v = .dict [(k, a)] → k = .str "Fn::Split"

/-- `Fn::GetAZs`: nothing, a region or the region of the stack -/
inductive ZonesOf (regions : List String) : Val → Prop
  | here : ZonesOf regions (.str "")
  | region {r} : r ∈ regions → ZonesOf regions (.str r)
  | ref : ZonesOf regions (.dict [(.str "Ref", .str "AWS::Region")])

/-- a call of `Fn::GetAZs` for something else -/
def BadGetAz (regions : List String) (_ : Path) (v : Val) (s : Path) : Prop := s = [] ∧ ¬ ZonesOf regions v

/-- `Fn::Not`: a list -/
def BadNot (_ : Path) (v : Val) (s : Path) : Prop := s = [] ∧ ∀ xs, v ≠ .list xs

end CfnLint.Spec
