import Verif.Model.Py
/-
Reading a specification by path, independently of how overrides are merged.
-/
namespace CfnLint.Spec

/-- a value that is not an object -/
def IsLeaf (v : Val) : Prop := ∀ d, v ≠ .dict d

/-- `Holds v p w`: following the object keys `p` from `v` leads to `w`. -/
inductive Holds : Val → List Key → Val → Prop
  | here (v : Val) : Holds v [] v
  | into {k : Key} {x w : Val} {d : List (Key × Val)} {p : List Key} : (k, x) ∈ d → Holds x p w → Holds (.dict d) (k :: p) w

/-- `p` is mentioned by an override when a leaf of the override sits at `p` or above it. -/
def Mentioned (o : Val) (p : List Key) : Prop := ∃ q w, q <+: p ∧ Holds o q w ∧ IsLeaf w

/-- A resource type matches a pattern in which a star stands for any text. -/
inductive Glob : List Char → List Char → Prop
  | nil : Glob [] []
  | star {p t} (s : List Char) : Glob p t → Glob ('*' :: p) (s ++ t)
  | char {c p t} : c ≠ '*' → Glob p t → Glob (c :: p) (c :: t)

/-- The characters of names and patterns of resource types. -/
def TypeChar (c : Char) : Prop := c.isAlphanum ∨ c = ':'

/-- A regular expression made of type characters, dots and `(.*)`, ended by `$`. -/
inductive RxShape : List Char → Prop
  | stop : RxShape ['$']
  | any {r} : RxShape r → RxShape ('(' :: '.' :: '*' :: ')' :: r)
  | dot {r} : RxShape r → RxShape ('.' :: r)
  | char {c r} : TypeChar c → RxShape r → RxShape (c :: r)

/-- Such a regular expression matches the whole of a text. -/
inductive RxMatch : List Char → List Char → Prop
  | stop : RxMatch ['$'] []
  | any {r t} (s : List Char) : RxMatch r t → RxMatch ('(' :: '.' :: '*' :: ')' :: r) (s ++ t)
  | dot {c r t} : RxMatch r t → RxMatch ('.' :: r) (c :: t)
  | char {c r t} : TypeChar c → RxMatch r t → RxMatch (c :: r) (c :: t)

/-- What is assumed about `re.compile` and `re.match`: such regular expressions compile, and match the texts of
type characters they should. Others are left open. -/
def PyRegex (rx : String → Option (String → Bool)) : Prop :=
  ∀ r : String, RxShape r.toList →
    ∃ m, rx r = some m ∧ ∀ x : String, (∀ c ∈ x.toList, TypeChar c) → (m x = true ↔ RxMatch r.toList x.toList)

end CfnLint.Spec
