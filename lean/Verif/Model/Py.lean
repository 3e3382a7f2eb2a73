/-
Python data as used by cfn-lint, and Python exceptions as values.
-/
namespace CfnLint

/-- A dictionary key or a path element: a Python `str` or `int`.
(YAML mappings may have other scalar keys - floats, dates - which are not modelled.) -/
inductive Key where
  | str (s : String)
  | int (i : Int)
deriving DecidableEq, Repr, Inhabited

/-- Paths as used in `RuleMatch.path`, `search_deep_keys` results etc. -/
abbrev Path := List Key

/-- Python values reachable in a decoded template or configuration.
`flt` carries the `repr` of the float and is opaque. Dictionaries are insertion ordered. -/
inductive Val where
  | none
  | bool (b : Bool)
  | int (i : Int)
  | flt (repr : String)
  | str (s : String)
  | list (xs : List Val)
  | dict (kvs : List (Key × Val))
deriving Repr, Inhabited

namespace Val

/-- Induction principle for `Val` in which list elements and dict values carry the hypothesis. -/
theorem ind {P : Val → Prop}
    (hnone : P .none) (hbool : ∀ b, P (.bool b)) (hint : ∀ i, P (.int i)) (hflt : ∀ r, P (.flt r))
    (hstr : ∀ s, P (.str s))
    (hlist : ∀ xs, (∀ x ∈ xs, P x) → P (.list xs))
    (hdict : ∀ kvs, (∀ kv ∈ kvs, P kv.2) → P (.dict kvs)) : ∀ v, P v := by
  intro v
  refine Val.rec (motive_1 := P) (motive_2 := fun xs => ∀ x ∈ xs, P x)
    (motive_3 := fun kvs => ∀ kv ∈ kvs, P kv.2) (motive_4 := fun kv => P kv.2)
    hnone hbool hint hflt hstr hlist hdict ?_ ?_ ?_ ?_ ?_ v
  · intro x hx; cases hx
  · intro x xs hx hxs y hy
    cases hy with
    | head => exact hx
    | tail _ h => exact hxs y h
  · intro x hx; cases hx
  · intro kv kvs h1 h2 y hy
    cases hy with
    | head => exact h1
    | tail _ h => exact h2 y h
  · intro k v h; exact h

mutual
/-- Structural (ordered) equality test; used only to obtain `DecidableEq`. -/
def beq : Val → Val → Bool
  | .none, .none => true
  | .bool a, .bool b => a == b
  | .int a, .int b => a == b
  | .flt a, .flt b => a == b
  | .str a, .str b => a == b
  | .list a, .list b => beqList a b
  | .dict a, .dict b => beqDict a b
  | _, _ => false
def beqList : List Val → List Val → Bool
  | [], [] => true
  | a :: as, b :: bs => beq a b && beqList as bs
  | _, _ => false
def beqDict : List (Key × Val) → List (Key × Val) → Bool
  | [], [] => true
  | (k, a) :: as, (l, b) :: bs => (k == l) && (beq a b && beqDict as bs)
  | _, _ => false
end

theorem beq_iff : ∀ a b : Val, beq a b = true ↔ a = b := by
  intro a
  induction a using Val.ind with
  | hnone => intro b; cases b <;> simp [beq]
  | hbool => intro b; cases b <;> simp [beq]
  | hint => intro b; cases b <;> simp [beq]
  | hflt => intro b; cases b <;> simp [beq]
  | hstr => intro b; cases b <;> simp [beq]
  | hlist xs ih =>
    intro b
    cases b with
    | list ys =>
      have key : ∀ xs : List Val, (∀ x ∈ xs, ∀ b, beq x b = true ↔ x = b) →
          ∀ ys, beqList xs ys = true ↔ xs = ys := by
        intro xs
        induction xs with
        | nil => intro _ ys; cases ys <;> simp [beqList]
        | cons x xs ih2 =>
          intro h ys
          cases ys with
          | nil => simp [beqList]
          | cons y ys =>
            simp only [beqList, Bool.and_eq_true, List.cons.injEq]
            rw [h x List.mem_cons_self y, ih2 (fun z hz => h z (List.mem_cons_of_mem _ hz)) ys]
      simp only [beq, Val.list.injEq]
      exact key xs ih ys
    | _ => simp [beq]
  | hdict xs ih =>
    intro b
    cases b with
    | dict ys =>
      have key : ∀ xs : List (Key × Val), (∀ x ∈ xs, ∀ b, beq x.2 b = true ↔ x.2 = b) →
          ∀ ys, beqDict xs ys = true ↔ xs = ys := by
        intro xs
        induction xs with
        | nil => intro _ ys; cases ys <;> simp [beqDict]
        | cons x xs ih2 =>
          intro h ys
          obtain ⟨k, v⟩ := x
          cases ys with
          | nil => simp [beqDict]
          | cons y ys =>
            obtain ⟨l, w⟩ := y
            simp only [beqDict, Bool.and_eq_true, List.cons.injEq, beq_iff_eq, Prod.mk.injEq]
            rw [h (k, v) List.mem_cons_self w, ih2 (fun z hz => h z (List.mem_cons_of_mem _ hz)) ys]
            simp [and_assoc]
      simp only [beq, Val.dict.injEq]
      exact key xs ih ys
    | _ => simp [beq]

instance : DecidableEq Val := fun a b => decidable_of_iff _ (beq_iff a b)

/-- `isinstance(v, dict)` -/
def isDict : Val → Bool
  | .dict _ => true
  | _ => false

/-- `isinstance(v, list)` -/
def isList : Val → Bool
  | .list _ => true
  | _ => false

/-- `isinstance(v, six.string_types)` -/
def isStr : Val → Bool
  | .str _ => true
  | _ => false

/-- `isinstance(v, bool)` -/
def isBool : Val → Bool
  | .bool _ => true
  | _ => false

mutual
/-- Every dictionary inside the value has distinct keys (true of every Python value). -/
def WF : Val → Prop
  | .list xs => WFList xs
  | .dict kvs => (kvs.map Prod.fst).Nodup ∧ WFDict kvs
  | _ => True
def WFList : List Val → Prop
  | [] => True
  | x :: xs => x.WF ∧ WFList xs
def WFDict : List (Key × Val) → Prop
  | [] => True
  | kv :: rest => kv.2.WF ∧ WFDict rest
end

/-- Python truthiness. A float is falsy iff its repr is `0.0` or `-0.0`. -/
def truthy : Val → Bool
  | .none => false
  | .bool b => b
  | .int i => i != 0
  | .flt r => !(r == "0.0" || r == "-0.0")
  | .str s => s != ""
  | .list xs => !xs.isEmpty
  | .dict kvs => !kvs.isEmpty

end Val

/-- a key as a value -/
def Key.toVal : Key → Val
  | .str s => .str s
  | .int i => .int i

/-- Association-list lookup in a Python dict (first hit; keys are unique in well-formed dicts). -/
def dlookup {α β : Type} [DecidableEq α] (k : α) : List (α × β) → Option β
  | [] => none
  | (k', v) :: rest => if k' = k then some v else dlookup k rest

/-- `d[k] = v`: overwrite in place when present, otherwise append. -/
def dset {α β : Type} [DecidableEq α] (k : α) (v : β) : List (α × β) → List (α × β)
  | [] => [(k, v)]
  | (k', v') :: rest => if k' = k then (k', v) :: rest else (k', v') :: dset k v rest

/-- `del d[k]` -/
def ddel {α β : Type} [DecidableEq α] (k : α) : List (α × β) → List (α × β)
  | [] => []
  | (k', v') :: rest => if k' = k then rest else (k', v') :: ddel k rest

/-- `k in d` -/
def dhas {α β : Type} [DecidableEq α] (k : α) (d : List (α × β)) : Bool :=
  (dlookup k d).isSome

/-- The Python exceptions the modelled code distinguishes.
`TemplateAttributeError` (decode/node.py:13) is the subclass of `AttributeError` raised by attribute
access on template nodes. -/
inductive PyErr where
  | templateAttributeError (msg : String)
  | attributeError (msg : String)
  | typeError (msg : String)
  | keyError (msg : String)
  | indexError (msg : String)
  | valueError (msg : String)
  | recursionError
  | other (msg : String)
deriving DecidableEq, Repr, Inhabited

abbrev PyM := Except PyErr

deriving instance DecidableEq for Except

/-- `s.startswith(pre)` -/
def startsWith (s pre : String) : Bool := pre.toList.isPrefixOf s.toList

/-- `s.endswith(suf)` -/
def endsWith (s suf : String) : Bool := suf.toList.isSuffixOf s.toList

/-- `s.lower()` (ASCII letters only: other letters are left alone). -/
def lower (s : String) : String := String.ofList (s.toList.map Char.toLower)

/-- Decimal digits of a numeral; `seen` is the value so far (none before the first digit). An
underscore is allowed between two digits, as in Python 3.6+. -/
def pyDigits : Option Nat → List Char → Option Nat
  | acc, [] => acc
  | acc, '_' :: c :: cs =>
    match acc with
    | none => none
    | some n => if c.isDigit then pyDigits (some (10 * n + (c.toNat - 48))) cs else none
  | acc, c :: cs =>
    if c.isDigit then pyDigits (some (10 * acc.getD 0 + (c.toNat - 48))) cs else none

/-- drop leading ASCII blanks -/
def lstripL : List Char → List Char
  | [] => []
  | c :: cs => if c.isWhitespace then lstripL cs else c :: cs

/-- `int(s)` for a string: optional blanks around an optional sign and decimal digits (non-ASCII digits
are not modelled: they are rejected). -/
def pyIntStr (s : String) : Option Int :=
  match (lstripL (lstripL s.toList).reverse).reverse with
  | '-' :: cs => (pyDigits none cs).map (fun n => -(n : Int))
  | '+' :: cs => (pyDigits none cs).map (fun n => (n : Int))
  | cs => (pyDigits none cs).map (fun n => (n : Int))

/-- attribute access `v.get` / `v.items` on a non-dict: template nodes (str, list) raise
`TemplateAttributeError` (decode/node.py:46-47, 219-220); plain scalars (int, bool, float, None) raise
`AttributeError`. -/
def attrErr (v : Val) (name : String) : PyErr :=
  match v with
  | .str _ => .templateAttributeError ("str_node." ++ name ++ " is invalid")
  | .list _ => .templateAttributeError ("list_node." ++ name ++ " is invalid")
  | .dict _ => .templateAttributeError ("dict_node." ++ name ++ " is invalid")
  | _ => .attributeError name

namespace Val

/-- `v.get(key, default)` on a template value: works for dicts, raises otherwise. -/
def getD (v : Val) (key : String) (dflt : Val) : PyM Val :=
  match v with
  | .dict kvs => .ok ((dlookup (Key.str key) kvs).getD dflt)
  | v => .error (attrErr v "get")

/-- lookup of a string key in a value, `none` if the value is not a dict or has no such key -/
def get? (v : Val) (key : String) : Option Val :=
  match v with
  | .dict kvs => dlookup (Key.str key) kvs
  | _ => Option.none

end Val

end CfnLint
