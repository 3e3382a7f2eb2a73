import Verif.Spec.Regex
import Verif.Spec.ResProps
/- What the records of each type have to look like. -/
namespace CfnLint.Spec

/-- decimal digits, at least one -/
def DigitText (l : List Char) : Prop := l ≠ [] ∧ ∀ c ∈ l, '0' ≤ c ∧ c ≤ '9'

/-- a flag 0 or 128, a tag of letters and digits and a value in quotation marks -/
def CaaText (s : String) : Prop :=
  ∃ flag tag value, s.toList = flag ++ ' ' :: (tag ++ ' ' :: value) ∧ ' ' ∉ flag ∧ ' ' ∉ tag ∧ DigitText flag ∧
    (digitsValue flag = 0 ∨ digitsValue flag = 128) ∧ MaybeBreak Alnum (String.ofList tag) ∧ value.head? = some '"' ∧ value.getLast? = some '"'

/-- a priority up to 65535 -/
def Priority (l : List Char) : Prop := DigitText l ∧ digitsValue l ≤ 65535

/-- a priority and a domain name -/
def MxText (s : String) : Prop :=
  ∃ priority name, s.toList = priority ++ ' ' :: name ∧ ' ' ∉ name ∧ Priority priority ∧ MaybeBreak DomainText (String.ofList name)

/-- what a record of a type may be; `v6` says which texts are IPv6 addresses -/
inductive RecordText (v6 : String → Prop) : String → String → Prop
  | a {s} : MaybeBreak LooseIpv4 s → RecordText v6 "A" s
  | aaaa {s} : v6 s → RecordText v6 "AAAA" s
  | caa {s} : CaaText s → RecordText v6 "CAA" s
  | cname {s} : MaybeBreak DomainText s → RecordText v6 "CNAME" s
  | validation {s} : MaybeBreak ValidationText s → RecordText v6 "CNAME" s
  | mx {s} : MxText s → RecordText v6 "MX" s
  | ns {s} : MaybeBreak DomainText s → RecordText v6 "NS" s
  | ptr {s} : MaybeBreak DomainText s → RecordText v6 "PTR" s
  | txt {s} : MaybeBreak TxtText s → RecordText v6 "TXT" s

/-- the types whose records are checked -/
def recordTypes : List String := ["A", "AAAA", "CAA", "CNAME", "MX", "NS", "PTR", "TXT"]

/-- a record set, in a resource of its own or in a group, and its place -/
def RecordAt (t : Val) (path : Path) (rs : Val) : Prop :=
  (∃ name, HasProps t "AWS::Route53::RecordSet" name rs ∧ path = [.str "Resources", name, .str "Properties"]) ∨
  ∃ name props xs, ∃ i : Nat, HasProps t "AWS::Route53::RecordSetGroup" name (.dict props) ∧ (.str "RecordSets", .list xs) ∈ props ∧
    xs[i]? = some rs ∧ path = [.str "Resources", name, .str "Properties", .str "RecordSets", .int i]

/-- A record set without alias has a record that is not of its type, or is a CNAME with more than one record. -/
def BadRecord (v6 : String → Prop) (path : Path) (rs : Val) (p : Path) : Prop :=
  ∃ kvs ty v, rs = .dict kvs ∧ (.str "Type", .str ty) ∈ kvs ∧ ty ∈ recordTypes ∧ (∀ a, (.str "AliasTarget", a) ∉ kvs) ∧
    (.str "ResourceRecords", v) ∈ kvs ∧
    ((∃ q s, PropValue v q (.str s) ∧ ¬ RecordText v6 ty s ∧ p = path ++ .str "ResourceRecords" :: q) ∨
     (ty = "CNAME" ∧ ∃ x y xs, v = .list (x :: y :: xs) ∧ p = path ++ [.str "ResourceRecords"]))

/-- a priority and a name with nothing wrong but the name -/
def OnlyNameBad (s : String) : Prop :=
  ∃ f d, s.toList = f ++ ' ' :: d ∧ ' ' ∉ d ∧ Priority f ∧ ¬ MaybeBreak DomainText (String.ofList d)

/-- a record set the rule can cope with: records are a list, of texts and objects, aliases are not empty, no MX record is wrong in its
name only -/
def PlainRecord (rs : Val) : Prop :=
  ∃ kv kvs, rs = .dict (kv :: kvs) ∧ (∀ a, (.str "AliasTarget", a) ∈ kv :: kvs → ∃ b bs, a = .dict (b :: bs)) ∧
    ∀ v, (.str "ResourceRecords", v) ∈ kv :: kvs → (∃ xs, v = .list xs) ∧ ∀ q u, PropValue v q u →
      (∃ fs, u = .dict fs) ∨ ∃ s, u = .str s ∧ ((.str "Type", .str "MX") ∈ kv :: kvs → ¬ OnlyNameBad s)

/-- groups have properties that are objects and not conditions -/
def PlainGroups (t : Val) : Prop :=
  ∀ name props, HasProps t "AWS::Route53::RecordSetGroup" name props → (∃ kv kvs, props = .dict (kv :: kvs)) ∧ ¬ IsIf props

end CfnLint.Spec
