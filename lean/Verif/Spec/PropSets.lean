import Verif.Spec.Scenario
import Verif.Spec.Conditions
import Verif.Model.Conditions
/-
Which properties an object has, depending on the truth values of the conditions.
-/
namespace CfnLint.Spec

/-- Under the truth values `σ` the value stands for nothing: choosing branches leads to `AWS::NoValue`. -/
inductive Removed (σ : String → Bool) : Val → Prop
  | here : Removed σ noValue
  | left {c a b} : σ c = true → Removed σ a → Removed σ (fnIf (.str c) a b)
  | right {c a b} : σ c = false → Removed σ b → Removed σ (fnIf (.str c) a b)

/-- Under the truth values `σ` the value is `w`, which stands at the path `q` and is not an `Fn::If`. -/
inductive Chosen (σ : String → Bool) : Val → Path → Val → Prop
  | here {v} : ¬ IsIf v → Chosen σ v [] v
  | left {c a b q w} : σ c = true → Chosen σ a q w →
      Chosen σ (fnIf (.str c) a b) (.str "Fn::If" :: .int 1 :: q) w
  | right {c a b q w} : σ c = false → Chosen σ b q w →
      Chosen σ (fnIf (.str c) a b) (.str "Fn::If" :: .int 2 :: q) w

/-- Under `σ` the object has the property. -/
def HasProp (σ : String → Bool) (kvs : List (Key × Val)) (name : String) : Prop :=
  ∃ v, (Key.str name, v) ∈ kvs ∧ ¬ Removed σ v

/-- Under `σ` the value is an object, standing at `q`, without the property. -/
def Lacks (σ : String → Bool) (v : Val) (q : Path) (name : String) : Prop :=
  ∃ kvs, Chosen σ v q (.dict kvs) ∧ .dict kvs ≠ noValue ∧ ¬ HasProp σ kvs name

/-- Under `σ` the object has exactly one of the properties. -/
def ExactlyOne (σ : String → Bool) (kvs : List (Key × Val)) (group : List String) : Prop :=
  ∃ n ∈ group, HasProp σ kvs n ∧ ∀ m ∈ group, HasProp σ kvs m → m = n

mutual
/-- Every `Fn::If` at the top, in branches and in lists has three arguments and its condition is named by a text;
there are no nulls. -/
def Proper : Val → Prop
  | .dict [(k, v)] => k = .str "Fn::If" → ProperIf v
  | .list xs => ProperItems xs
  | .none => False
  | _ => True
def ProperIf : Val → Prop
  | .list [.str _, a, b] => Proper a ∧ Proper b
  | _ => False
def ProperItems : List Val → Prop
  | [] => True
  | x :: xs => Proper x ∧ ProperItems xs
end

/-- the condition of an `Fn::If` at the top of the value, in a branch or in a list -/
inductive Asks (c : String) : Val → Prop
  | here {a b} : Asks c (fnIf (.str c) a b)
  | left {d a b} : Asks c a → Asks c (fnIf (.str d) a b)
  | right {d a b} : Asks c b → Asks c (fnIf (.str d) a b)
  | item {xs x} : x ∈ xs → Asks c x → Asks c (.list xs)

/-- an object that is not a function: it has neither a key `Fn::If` nor a key `Ref`; its values are proper -/
structure PlainObject (kvs : List (Key × Val)) : Prop where
  noIf : Key.str "Fn::If" ∉ kvs.map Prod.fst
  noRef : Key.str "Ref" ∉ kvs.map Prod.fst
  proper : ∀ kv ∈ kvs, Proper kv.2

/-- the conditions of the named properties of an object -/
def GroupCond (kvs : List (Key × Val)) (group : List String) (c : String) : Prop :=
  ∃ n ∈ group, ∃ v, (Key.str n, v) ∈ kvs ∧ Asks c v

/-- the conditions of the properties of an object -/
def ObjectCond (kvs : List (Key × Val)) (c : String) : Prop := ∃ kv ∈ kvs, Asks c kv.2

/-- the truth values agree with what the scenario says -/
def Agrees (sc : Option Scenario) (σ : String → Bool) : Prop :=
  ∀ s, sc = some s → ∀ c x, dlookup (Key.str c) s = some (some x) → σ c = x

/-- no condition is asked again inside a branch of its own `Fn::If` -/
inductive NoRepeat : List String → Val → Prop
  | leaf {seen v} : ¬ IsIf v → NoRepeat seen v
  | branch {seen c a b} : c ∉ seen → NoRepeat (c :: seen) a → NoRepeat (c :: seen) b →
      NoRepeat seen (fnIf (.str c) a b)

end CfnLint.Spec
