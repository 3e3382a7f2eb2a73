import Verif.Spec.Template
import Mathlib.Logic.Relation
/-
Specification of dependencies between resources, and of finding a cycle in a graph.
-/
namespace CfnLint.Spec

/-- `k` names a resource -/
def IsRes (t : Val) (k : Key) : Prop := ∃ v, At t [.str "Resources", k] v

/-- the object below which `key: v` stands is part of resource `a` -/
def ResourceUses (t : Val) (a : Key) (key : String) (v : Val) : Prop :=
  ∃ p, At t (.str "Resources" :: a :: (p ++ [.str key])) v

/-- `${n}` occurs in the text, and is not the literal `${!n}` -/
def Variable (s n : List Char) : Prop :=
  (∃ pre post, s = pre ++ '$' :: '{' :: n ++ '}' :: post) ∧ (∀ c ∈ n, c ≠ '$' ∧ c ≠ '{' ∧ c ≠ '}') ∧ n.head? ≠ some '!'

/-- the text before the first dot -/
def Owner (n b : List Char) : Prop := '.' ∉ b ∧ (n = b ∨ ∃ attr, n = b ++ '.' :: attr)

/-- `a` needs `b`: by `DependsOn`, `Ref`, `Fn::GetAtt` (list or dotted text), or a variable of `Fn::Sub` that the
call does not define itself. -/
inductive Needs (t : Val) (a : Key) : String → Prop
  | dependsOn {b} : At t [.str "Resources", a, .str "DependsOn"] (.str b) → Needs t a b
  | dependsOnOne {b xs} : At t [.str "Resources", a, .str "DependsOn"] (.list xs) → .str b ∈ xs → Needs t a b
  | ref {b} : ResourceUses t a "Ref" (.str b) → Needs t a b
  | getAtt {b x} : ResourceUses t a "Fn::GetAtt" (.list [.str b, x]) → Needs t a b
  | getAttText {b s attr} : ResourceUses t a "Fn::GetAtt" (.str s) → '.' ∉ b.toList → s.toList = b.toList ++ '.' :: attr → Needs t a b
  | sub {b s n} : ResourceUses t a "Fn::Sub" (.str s) → Variable s.toList n → Owner n b.toList → Needs t a b
  | subMap {b s m n} : ResourceUses t a "Fn::Sub" (.list [.str s, .dict m]) → Variable s.toList n →
      (∀ w, (.str (String.ofList n), w) ∉ m) → Owner n b.toList → Needs t a b

/-- The dependency relation between resources. -/
def Depends (t : Val) (a b : Key) : Prop := IsRes t a ∧ IsRes t b ∧ ∃ s, b = .str s ∧ Needs t a s

/-- Templates in which resources are objects with entries and the functions have the documented forms. -/
structure GraphShape (t : Val) : Prop where
  wf : t.WF
  top : ∃ kvs, t = .dict kvs
  resources : ∀ s, At t [.str "Resources"] s → ∃ kvs, s = .dict kvs ∧ ∀ kv ∈ kvs, ∃ e b, kv.2 = .dict (e :: b)
  refs : ∀ a v, ResourceUses t a "Ref" v → ∃ s, v = .str s
  getAtts : ∀ a x y, ResourceUses t a "Fn::GetAtt" (.list [x, y]) → ∃ s, x = .str s
  subs : ∀ a v, ResourceUses t a "Fn::Sub" v → (∃ s, v = .str s) ∨ ∃ s m, v = .list [.str s, .dict m]

/-- All variables of `Fn::Sub` in resources consist of letters, digits and dots. -/
def PlainVariables (t : Val) : Prop :=
  ∀ a s v, ResourceUses t a "Fn::Sub" v → (v = .str s ∨ ∃ m, v = .list [.str s, m]) → ∀ n, Variable s.toList n →
    ∀ c ∈ n, c.isAlphanum ∨ c = '.'

/-- `c` is a sequence of edges of `E` leading from `x` to `y` -/
inductive Trail (E : List (Key × Key)) : Key → List (Key × Key × Nat) → Key → Prop
  | one {x y i} : (x, y) ∈ E → Trail E x [(x, y, i)] y
  | cons {x y i c z} : (x, y) ∈ E → Trail E y c z → Trail E x ((x, y, i) :: c) z

/-- the relation given by the edges -/
def Rel (E : List (Key × Key)) (x y : Key) : Prop := (x, y) ∈ E

/-- The contract of `networkx.find_cycle(graph, source)`: what it returns is a cycle, and it returns one whenever a cycle
can be reached from the source. -/
structure FindsCycles (find : List (Key × Key) → Key → Option (List (Key × Key × Nat))) : Prop where
  sound : ∀ E s c, find E s = some c → ∃ x, Trail E x c x
  complete : ∀ E s, find E s = none → ¬ ∃ x, Relation.ReflTransGen (Rel E) s x ∧ Relation.TransGen (Rel E) x x

end CfnLint.Spec
