import Verif.Spec.Json
import Verif.Spec.Template
/-
The size of a JSON document: what its text denotes, and what a line of a substitution is without its placeholders.
-/
namespace CfnLint.Spec

/-- the code points of a text -/
def codeText (s : String) : JText := s.toList.map Char.toNat

/-- the name of a member -/
def memberName : Key → JText
  | .str s => codeText s
  | .int i => (dumpInt i).map Char.toNat

mutual
/-- the JSON value of a value of a template -/
def jsonOf : Val → JVal
  | .none => .null
  | .bool b => .bool b
  | .int i => .int i
  | .flt r => .flt r.toList
  | .str s => .str (codeText s)
  | .list xs => .arr (jsonItems xs)
  | .dict kvs => .obj (jsonMembers kvs)
/-- the values of a list -/
def jsonItems : List Val → List JVal
  | [] => []
  | v :: vs => jsonOf v :: jsonItems vs
/-- the values of the members of an object -/
def jsonMembers : List (Key × Val) → List (JText × JVal)
  | [] => []
  | (k, v) :: kvs => (memberName k, jsonOf v) :: jsonMembers kvs
end

/-- the floats of a value are written as numbers: none is infinite or no number -/
def FloatsAreNumbers (v : Val) : Prop := ∀ p r, At v p (.flt r) → Number r.toList (.flt r.toList)

/-- a line without the part from its first `${` to its last `}` -/
def LineWithout (l o : List Char) : Prop :=
  (∃ a m b, l = a ++ '$' :: '{' :: (m ++ '}' :: b) ∧ ¬ ['$', '{'] <:+: a ∧ '}' ∉ b ∧ o = a ++ b) ∨
  ((¬ ∃ a m b, l = a ++ '$' :: '{' :: (m ++ '}' :: b)) ∧ o = l)

/-- the functions that a template can use, JsonSize.py:45 -/
def jsonFunctions : List String :=
  ["Fn::Base64", "Fn::GetAtt", "Fn::GetAZs", "Fn::ImportValue", "Fn::Join", "Fn::Split", "Fn::FindInMap", "Fn::Select", "Ref", "Fn::If", "Fn::Contains", "Fn::Sub", "Fn::Cidr"]

/-- a text whose lines have lost that part -/
inductive LinesWithout : List Char → List Char → Prop
  | last {l o} : '\n' ∉ l → LineWithout l o → LinesWithout l o
  | more {l o r o'} : '\n' ∉ l → LineWithout l o → LinesWithout r o' → LinesWithout (l ++ '\n' :: r) (o ++ '\n' :: o')

/-- the object is the use of a function -/
def UsesFunction (kvs : List (Key × Val)) : Prop := ∃ f x, kvs = [(Key.str f, x)] ∧ f ∈ jsonFunctions

mutual
/-- the value that is measured: substitutions are their texts without placeholders, other functions are left as they are -/
inductive Measured : Val → Val → Prop
  | text {s o : String} : LinesWithout s.toList o.toList → Measured (.dict [(.str "Fn::Sub", .str s)]) (.str o)
  | withNames {s o : String} {r} : LinesWithout s.toList o.toList → Measured (.dict [(.str "Fn::Sub", .list (.str s :: r))]) (.str o)
  | noText {x} : (∀ s, x ≠ .str s) → (∀ xs, x ≠ .list xs) → Measured (.dict [(.str "Fn::Sub", x)]) (.dict [(.str "Fn::Sub", x)])
  | function {f x} : f ∈ jsonFunctions → f ≠ "Fn::Sub" → Measured (.dict [(.str f, x)]) (.dict [(.str f, x)])
  | object {kvs ws} : ¬ UsesFunction kvs → MeasuredMembers kvs ws → Measured (.dict kvs) (.dict ws)
  | list {xs ws} : MeasuredItems xs ws → Measured (.list xs) (.list ws)
  | scalar {v} : (∀ kvs, v ≠ .dict kvs) → (∀ xs, v ≠ .list xs) → Measured v v
/-- the members of an object -/
inductive MeasuredMembers : List (Key × Val) → List (Key × Val) → Prop
  | nil : MeasuredMembers [] []
  | cons {k v w kvs ws} : Measured v w → MeasuredMembers kvs ws → MeasuredMembers ((k, v) :: kvs) ((k, w) :: ws)
/-- the items of a list -/
inductive MeasuredItems : List Val → List Val → Prop
  | nil : MeasuredItems [] []
  | cons {v w vs ws} : Measured v w → MeasuredItems vs ws → MeasuredItems (v :: vs) (w :: ws)
end

/-- no function is used in a value -/
def NoFunctionIn (v : Val) : Prop := ∀ p f x, At v p (.dict [(.str f, x)]) → f ∉ jsonFunctions

/-- the texts of all substitutions are texts -/
def SubsAreTexts (v : Val) : Prop := ∀ p xs, At v p (.dict [(.str "Fn::Sub", .list xs)]) → ∃ s r, xs = .str s :: r

end CfnLint.Spec
