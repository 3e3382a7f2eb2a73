import Verif.Spec.PropSets
/-
Domain names and the zones they are in.
-/
namespace CfnLint.Spec

/-- under `σ` the property of the object is the text -/
def TextUnder (σ : String → Bool) (kvs : List (Key × Val)) (k s : String) : Prop :=
  ∃ v q, (Key.str k, v) ∈ kvs ∧ Chosen σ v q (.str s)

/-- the text ends in a dot -/
def EndsInDot (s : String) : Prop := ∃ a : List Char, s.toList = a ++ ['.']

/-- `d` is the domain that the text names, without the dot that may end it -/
def DomainOf (s : String) (d : List Char) : Prop :=
  s.toList = d ++ ['.'] ∨ (s.toList = d ∧ ¬ EndsInDot s)

/-- the domain ends with the characters of the other -/
def EndsWith (d z : List Char) : Prop := ∃ a, d = a ++ z

/-- the domain is in the zone: it is the zone itself, or a name and a dot come before it; every domain is
in the root zone -/
def InZone (d z : List Char) : Prop := d = z ∨ (∃ a, d = a ++ '.' :: z) ∨ z = []

end CfnLint.Spec
