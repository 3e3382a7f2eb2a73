import Verif.Model.ListSpecs
import Verif.Spec.PropSets
/-
Lists that are values of properties: how many elements they have under given truth values of the conditions, and which elements are equal.
-/
namespace CfnLint.Spec

open Classical in
/-- how many of the elements are not removed -/
noncomputable def sizeOfList (σ : String → Bool) (xs : List Val) : Nat := (xs.filter (fun x => decide (¬ Removed σ x))).length

/-- under the truth values `σ` the value is a list of `n` elements -/
def ListOf (σ : String → Bool) (v : Val) (n : Nat) : Prop := ∃ q xs, Chosen σ v q (.list xs) ∧ n = sizeOfList σ xs

/-- the specification bounds the number of elements -/
def Bounds (d : ListRow) (lo hi : Int) : Prop := d.type = some "List" ∧ d.listMin = some lo ∧ d.listMax = some hi

/-- no list the value may be has `AWS::NoValue` as element -/
def NoGaps (v : Val) : Prop := ∀ q xs, Leaf v q (.list xs) → noValue ∉ xs

/-- the value has no parts -/
def Atom (v : Val) : Prop := (∀ xs, v ≠ .list xs) ∧ ∀ kvs, v ≠ .dict kvs

/-- two values have the same JSON text, whatever the order of the keys: at each path both have the same atom, both a list or both an object -/
def SameText (v w : Val) : Prop :=
  ∀ p, (∀ a, Atom a → (At v p a ↔ At w p a)) ∧ ((∃ xs, At v p (.list xs)) ↔ ∃ xs, At w p (.list xs)) ∧
    ((∃ kvs, At v p (.dict kvs)) ↔ ∃ kvs, At w p (.dict kvs))

/-- the element at `i` repeats an earlier one -/
def Repeats (xs : List Val) (i : Nat) : Prop := ∃ j x y, j < i ∧ xs[j]? = some x ∧ xs[i]? = some y ∧ SameText x y

/-- an element that is the same under all truth values: neither an `Fn::If` nor removed nor a list -/
def Steady (v : Val) : Prop := ¬ IsIf v ∧ v ≠ noValue ∧ v ≠ .none ∧ ∀ xs, v ≠ .list xs

/-- the conditions of the `Fn::If`s that are the value or its branches -/
inductive Branches (c : String) : Val → Prop
  | here {a b} : Branches c (fnIf (.str c) a b)
  | left {d a b} : Branches c a → Branches c (fnIf (.str d) a b)
  | right {d a b} : Branches c b → Branches c (fnIf (.str d) a b)

/-- the lists a value may be have steady elements; the objects it may be have no key `Fn::If` -/
structure SteadyLists (v : Val) : Prop where
  proper : Proper v
  items : ∀ q xs, Leaf v q (.list xs) → ∀ x ∈ xs, Steady x
  noIf : ∀ q kvs, Leaf v q (.dict kvs) → Key.str "Fn::If" ∉ kvs.map Prod.fst

/-- the specification forbids equal elements -/
def ForbidsRepeats (d : ListRow) : Prop := d.type = some "List" ∧ d.duplicates = some false

/-- the specification allows equal elements of a simple type -/
def AllowsRepeats (d : ListRow) : Prop :=
  d.type = some "List" ∧ d.duplicates = some true ∧ (d.primItem = some "String" ∨ d.primItem = some "Integer")

/-- under the truth values the element at `i` is `y` -/
def Element (σ : String → Bool) (xs : List Val) (i : Nat) (y : Val) : Prop := ∃ x q, xs[i]? = some x ∧ Chosen σ x q y ∧ y ≠ noValue

/-- under the truth values the value is a list with two equal elements -/
def RepeatsUnder (σ : String → Bool) (v : Val) : Prop :=
  ∃ q xs j i x y, Chosen σ v q (.list xs) ∧ j < i ∧ Element σ xs j x ∧ Element σ xs i y ∧ SameText x y

end CfnLint.Spec
