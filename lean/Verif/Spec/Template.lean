import Verif.Model.Node
/-
Specification for searching, locating and resolving template values. Uses the data types only.
-/
namespace CfnLint.Spec

/-- `At t p v`: following the path `p` from `t` leads to `v`. -/
inductive At : Val → Path → Val → Prop
  | here {v} : At v [] v
  | key {kvs k v p w} : (k, v) ∈ kvs → At v p w → At (.dict kvs) (k :: p) w
  | idx {xs} {i : Nat} {x p w} : xs[i]? = some x → At x p w → At (.list xs) (.int i :: p) w

/-! ### Marked values -/

/-- one step into a marked value -/
inductive Child : MVal → Key → MVal → Prop
  | key {m kvs mk v} : (mk, v) ∈ kvs → Child (.dict m kvs) mk.key v
  | idx {m xs} {i : Nat} {x} : xs[i]? = some x → Child (.list m xs) (.int i) x

/-- following a path through a marked value -/
inductive MAt : MVal → Path → MVal → Prop
  | here {v} : MAt v [] v
  | step {v k c p w} : Child v k c → MAt c p w → MAt v (k :: p) w

/-- the value itself carries a mark -/
inductive Marked : MVal → Span → Prop
  | dict {m kvs} : Marked (.dict m kvs) m
  | list {m xs} : Marked (.list m xs) m
  | str {m s} : Marked (.str (some m) s) m

/-- the element `k` of a dict carries a mark: its key does -/
inductive KeyMark : MVal → Key → Span → Prop
  | key {m kvs mk v s} : (mk, v) ∈ kvs → mk.mark = some s → KeyMark (.dict m kvs) mk.key s

/-- the element `k` of a list carries a mark: the item does -/
inductive ItemMark : MVal → Key → Span → Prop
  | item {m xs} {i : Nat} {x s} : xs[i]? = some x → Marked x s → ItemMark (.list m xs) (.int i) s

/-- the last element of the path carries the mark `s` -/
def Carries (t : MVal) (p : Path) (s : Span) : Prop :=
  ∃ q k c, p = q ++ [k] ∧ MAt t q c ∧ (KeyMark c k s ∨ ItemMark c k s)

/-- as `Carries`, but only object keys count -/
def CarriesKey (t : MVal) (p : Path) (s : Span) : Prop :=
  ∃ q k c, p = q ++ [k] ∧ MAt t q c ∧ KeyMark c k s

/-- the longest prefix of the path that carries a mark -/
def Deepest (carries : Path → Span → Prop) (p : Path) (s : Span) : Prop :=
  ∃ q, q <+: p ∧ carries q s ∧ ∀ q' s', q' <+: p → carries q' s' → q'.length ≤ q.length

/-- Wherever the path enters a list the next element is an index of it, and wherever it enters a string the
next element is not an index. (True of every existing path.) -/
def Follows (t : MVal) (p : Path) : Prop :=
  ∀ q k r c, p = q ++ k :: r → MAt t q c →
    match c with
    | .list _ xs => ∃ i : Nat, k = .int i ∧ i < xs.length
    | .str _ _ => ∃ s, k = .str s
    | _ => True

/-- every dictionary inside has distinct keys -/
def MWF (t : MVal) : Prop := t.erase.WF

/-! ### Fn::If -/

/-- a reference to `AWS::NoValue` -/
def noValue : Val := .dict [(.str "Ref", .str "AWS::NoValue")]

/-- an `Fn::If` with condition `c` and two branches -/
def fnIf (c a b : Val) : Val := .dict [(.str "Fn::If", .list [c, a, b])]

/-- an object whose only key is `Fn::If` -/
def IsIf (v : Val) : Prop := ∃ w, v = .dict [(.str "Fn::If", w)]

/-- `Leaf v p w`: choosing branches of the nested `Fn::If`s of `v` one arrives at `w`, standing at `p`;
`w` is neither an `Fn::If` nor a reference to `AWS::NoValue`. -/
inductive Leaf : Val → Path → Val → Prop
  | here {v} : ¬ IsIf v → v ≠ noValue → Leaf v [] v
  | left {c a b p w} : Leaf a p w → Leaf (fnIf c a b) (.str "Fn::If" :: .int 1 :: p) w
  | right {c a b p w} : Leaf b p w → Leaf (fnIf c a b) (.str "Fn::If" :: .int 2 :: p) w

/-- The values of a property: the leaves; where a leaf is a list, the leaves of its elements. -/
def PropValue (v : Val) (p : Path) (w : Val) : Prop :=
  ∃ q u, Leaf v q u ∧
    ((∀ xs, u ≠ .list xs) ∧ p = q ∧ w = u ∨
     ∃ xs i x r, u = .list xs ∧ xs[i]? = some x ∧ Leaf x r w ∧ p = q ++ .int (i : Nat) :: r)

/-- an object without the entries that refer to `AWS::NoValue`; other values as they are -/
def withoutNoValue : Val → Val
  | .dict kvs => .dict (kvs.filter (fun kv => decide (kv.2 ≠ noValue)))
  | v => v

end CfnLint.Spec
