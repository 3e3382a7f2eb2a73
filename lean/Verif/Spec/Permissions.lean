import Verif.Model.Permissions
import Verif.Spec.IamPolicy
/-
Actions of policies: patterns over the actions of the services, whatever the case of their letters.
-/
namespace CfnLint.Spec

/-- a text matches a pattern: a star stands for any text, a question mark for one character -/
inductive Wild : List Char → List Char → Prop
  | nil : Wild [] []
  | star {p t} (s : List Char) : Wild p t → Wild ('*' :: p) (s ++ t)
  | any {c p t} : Wild p t → Wild ('?' :: p) (c :: t)
  | char {c p t} : c ≠ '*' → c ≠ '?' → Wild p t → Wild (c :: p) (c :: t)

/-- the service is in the table -/
def KnownService (raw : List (String × List String)) (s : String) : Prop := ∃ e ∈ raw, lower e.1 = lower s

/-- the service has the action, written in small letters -/
def HasAction (raw : List (String × List String)) (s : String) (x : String) : Prop := ∃ e ∈ raw, lower e.1 = lower s ∧ ∃ y ∈ e.2, lower y = x

/-- the service has an action of the pattern -/
def ServiceAction (raw : List (String × List String)) (s p : String) : Prop := ∃ x, HasAction raw s x ∧ Wild (lower p).toList x.toList

/-- `service:permission` -/
def ActionParts (a s p : String) : Prop := a = s ++ ":" ++ p ∧ ':' ∉ s.toList

/-- the faults of an action: its service is unknown, or there is no such action of its service -/
def PermitFault (raw : List (String × List String)) (a : String) (f : PermFault) : Prop :=
  ∃ s p, ActionParts a s p ∧
    (¬ KnownService raw s ∧ f = .service s ∨ KnownService raw s ∧ p ≠ "*" ∧ ¬ ServiceAction raw s p ∧ f = .permission p s)

/-- an action without wildcards, or one that stands for all of a service -/
def PermitPlain (a : String) : Prop := a = "*" ∨ ∃ s p, ActionParts a s p ∧ (p = "*" ∨ '*' ∉ p.toList ∧ '?' ∉ p.toList)

/-- an action without question marks, whose stars, if any, include its first or its last character -/
def SimpleAction (a : String) : Prop :=
  a = "*" ∨ ∃ s p, ActionParts a s p ∧ '?' ∉ p.toList ∧ ('*' ∉ p.toList ∨ p.toList.head? = some '*' ∨ p.toList.getLast? = some '*')

/-- the actions of a statement: a text or the texts of a list, under `Action` and under `NotAction` -/
def ActionIn (st : List (Key × Val)) (a : String) : Prop :=
  ∃ k, (k = "Action" ∨ k = "NotAction") ∧ ((Key.str k, Val.str a) ∈ st ∨ ∃ xs, (Key.str k, Val.list xs) ∈ st ∧ Val.str a ∈ xs)

/-- a statement of the value of `Statement`, with its place: an object, an element of a list, or an element of such an element -/
inductive StatementOf : Val → Nat → List (Key × Val) → Prop
  | one {st} : StatementOf (.dict st) 0 st
  | elem {xs i st} : xs[i]? = some (.dict st) → StatementOf (.list xs) i st
  | nested {xs i ys st} : xs[i]? = some (.list ys) → .dict st ∈ ys → StatementOf (.list xs) i st

/-- the actions of a document, with the paths of their statements -/
def DocAction (d : Val) (a : String) (p : Path) : Prop :=
  ∃ q kvs v i st, Leaf d q (.dict kvs) ∧ Kept kvs (.str "Statement") v ∧ StatementOf v i st ∧ ActionIn st a ∧ p = q ++ [.str "Statement", .int (i : Nat)]

/-- what a statement must be like to be checked: its actions are `*` or have a colon, and a list of excluded actions stands beside a list of actions -/
structure GoodStatement (st : List (Key × Val)) : Prop where
  texts : ∀ xs, (Key.str "Action", Val.list xs) ∈ st ∨ (Key.str "NotAction", Val.list xs) ∈ st → ∀ x ∈ xs, ∃ a, x = .str a
  colon : ∀ a, ActionIn st a → a = "*" ∨ ':' ∈ a.toList
  kind : ∀ v, (Key.str "NotAction", v) ∈ st → (∃ a, v = .str a) ∨ (∃ xs, v = .list xs) ∧ ∃ ys, (Key.str "Action", Val.list ys) ∈ st

/-- the value of `Statement` is such that it can be checked -/
structure GoodStatements (v : Val) : Prop where
  each : ∀ i st, StatementOf v i st → GoodStatement st
  objects : ∀ xs ys, v = .list xs → .list ys ∈ xs → ∀ y ∈ ys, ∃ st, y = .dict st

/-- all statements of the document can be checked -/
def GoodActions (d : Val) : Prop := ∀ q kvs v, Leaf d q (.dict kvs) → Kept kvs (.str "Statement") v → GoodStatements v

end CfnLint.Spec
