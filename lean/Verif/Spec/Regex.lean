import Verif.Model.Regex
/- The language of a regular expression, and what the texts of addresses and records are. -/
namespace CfnLint.Spec

/-- the texts a regular expression stands for -/
inductive Lang : Rx → List Char → Prop
  | eps : Lang .eps []
  | set {p c} : p c = true → Lang (.set p) [c]
  | seq {a b u v} : Lang a u → Lang b v → Lang (.seq a b) (u ++ v)
  | left {a b u} : Lang a u → Lang (.alt a b) u
  | right {a b u} : Lang b u → Lang (.alt a b) u
  | nil {a} : Lang (.star a) []
  | cons {a u v} : Lang a u → Lang (.star a) v → Lang (.star a) (u ++ v)

/-- the decimal digits of a number -/
def Decimal (n : Nat) (l : List Char) : Prop := l = Nat.toDigits 10 n

/-- four numbers up to 255 with a dot between them, a stroke and a number up to 32 -/
def CidrText (s : String) : Prop :=
  ∃ a b c d m w x y z v, a ≤ 255 ∧ b ≤ 255 ∧ c ≤ 255 ∧ d ≤ 255 ∧ m ≤ 32 ∧ Decimal a w ∧ Decimal b x ∧ Decimal c y ∧ Decimal d z ∧
    Decimal m v ∧ s.toList = w ++ '.' :: (x ++ '.' :: (y ++ '.' :: (z ++ '/' :: v)))

/-- an address of the same kind -/
def Ipv4Text (s : String) : Prop :=
  ∃ a b c d w x y z, a ≤ 255 ∧ b ≤ 255 ∧ c ≤ 255 ∧ d ≤ 255 ∧ Decimal a w ∧ Decimal b x ∧ Decimal c y ∧ Decimal d z ∧
    s.toList = w ++ '.' :: (x ++ '.' :: (y ++ '.' :: z))

/-- the number that digits stand for -/
def digitsValue (l : List Char) : Nat := l.foldl (fun n c => 10 * n + (c.toNat - 48)) 0

/-- one to three digits with a value up to 255, leading zeros allowed -/
def LooseOctet (l : List Char) : Prop := l ≠ [] ∧ l.length ≤ 3 ∧ (∀ c ∈ l, '0' ≤ c ∧ c ≤ '9') ∧ digitsValue l ≤ 255

/-- four of them -/
def LooseIpv4 (l : List Char) : Prop :=
  ∃ w x y z, LooseOctet w ∧ LooseOctet x ∧ LooseOctet y ∧ LooseOctet z ∧ l = w ++ '.' :: (x ++ '.' :: (y ++ '.' :: z))

/-- letters and digits -/
def Alnum (l : List Char) : Prop := ∀ c ∈ l, ('a' ≤ c ∧ c ≤ 'z') ∨ ('A' ≤ c ∧ c ≤ 'Z') ∨ ('0' ≤ c ∧ c ≤ '9')

/-- visible ASCII characters, at least one -/
def DomainText (l : List Char) : Prop := l ≠ [] ∧ ∀ c ∈ l, '!' ≤ c ∧ c ≤ '~'

/-- one to 255 characters in quotation marks -/
def TxtItem (l : List Char) : Prop := ∃ w, l = '"' :: (w ++ ['"']) ∧ '"' ∉ w ∧ 1 ≤ w.length ∧ w.length ≤ 255

/-- one or more items, with spaces between them or none -/
inductive TxtText : List Char → Prop
  | one {l} : TxtItem l → TxtText l
  | more {l b r} : TxtItem l → (∀ c ∈ b, c = ' ') → TxtText r → TxtText (l ++ (b ++ r))

/-- a name for the validation of a certificate -/
def ValidationText (l : List Char) : Prop :=
  ∃ w e, '\n' ∉ w ∧ (e = [] ∨ e = ['.']) ∧ l = w ++ (".acm-validations.aws".toList ++ e)

/-- the text, or the text with a line break at its end -/
def MaybeBreak (P : List Char → Prop) (s : String) : Prop := ∃ l, P l ∧ (s.toList = l ∨ s.toList = l ++ ['\n'])

end CfnLint.Spec
