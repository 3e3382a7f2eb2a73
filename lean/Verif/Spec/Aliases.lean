import Verif.Model.Aliases
import Verif.Spec.Schedule
import Verif.Spec.ResProps
import Verif.Spec.JsonSize
/-
Which names distributions can have, and which containers are essential.
-/
namespace CfnLint.Spec

/-- small letters and digits -/
def LowDigit (c : Char) : Prop := ('a' ≤ c ∧ c ≤ 'z') ∨ ('0' ≤ c ∧ c ≤ '9')

/-- a part of the name of a domain: up to 63 letters, digits and hyphens, the first and the last of which is no hyphen -/
def HostLabel (l : List Char) : Prop := l ≠ [] ∧ l.length ≤ 63 ∧ (∀ c ∈ l, LowDigit c ∨ c = '-') ∧ l.head? ≠ some '-' ∧ l.getLast? ≠ some '-'

/-- a part of the name of a domain the first letter of which may be replaced by a star -/
def StarLabel (l : List Char) : Prop := HostLabel l ∨ ∃ r, l = '*' :: r ∧ HostLabel ('a' :: r)

/-- what is taken for the name of a domain: two or more parts, the last of which has two or more letters and no star -/
def DomainLike (l : List Char) : Prop :=
  ∃ labels last, Pieces '.' l (labels ++ [last]) ∧ labels ≠ [] ∧ (∀ x ∈ labels, StarLabel x) ∧ HostLabel last ∧ 2 ≤ last.length

/-- such a text, perhaps with a line break after it -/
def DomainLine (s : String) : Prop := ∃ l, DomainLike l ∧ (s.toList = l ∨ s.toList = l ++ ['\n'])

/-- a part other than the first is a star -/
def LaterStar (s : String) : Prop := ∃ a ps, Pieces '.' s.toList (a :: ps) ∧ ['*'] ∈ ps

/-- the name of a domain, or a star for the first part of one -/
def AliasName (s : String) : Prop :=
  ∃ first labels last, Pieces '.' s.toList (first :: (labels ++ [last])) ∧ (HostLabel first ∨ first = ['*']) ∧ (∀ x ∈ labels, HostLabel x) ∧ HostLabel last

/-- no braces are in the text -/
def NoBraces (s : String) : Prop := '{' ∉ s.toList ∧ '}' ∉ s.toList

/-- what `str.format` takes with `n` arguments for fields without names: braces are doubled, or they are one of at most `n` empty fields -/
inductive Formats : Nat → List Char → Prop
  | nil {n} : Formats n []
  | plain {n c r} : c ≠ '{' → c ≠ '}' → Formats n r → Formats n (c :: r)
  | open {n r} : Formats n r → Formats n ('{' :: '{' :: r)
  | close {n r} : Formats n r → Formats n ('}' :: '}' :: r)
  | field {n r} : Formats n r → Formats (n + 1) ('{' :: '}' :: r)

/-- `s` is an alias of a distribution whose aliases are at `p` -/
def AliasAt (t : Val) (p : Path) (s : String) : Prop :=
  ∃ name kvs conf xs, HasProps t "AWS::CloudFront::Distribution" name (.dict kvs) ∧ (Key.str "DistributionConfig", Val.dict conf) ∈ kvs ∧
    (Key.str "Aliases", Val.list xs) ∈ conf ∧ Val.str s ∈ xs ∧ p = [.str "Resources", name, .str "Properties", .str "DistributionConfig", .str "Aliases"]

/-- the container says, or does not deny, that it is essential -/
def Essential (c : Val) : Prop := ∃ kvs, c = .dict kvs ∧ ∀ v, (Key.str "Essential", v) ∈ kvs → v.truthy = true

end CfnLint.Spec
