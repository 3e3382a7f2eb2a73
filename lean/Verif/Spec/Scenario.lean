import Verif.Spec.Template
/-
Specification of conditions on a path and of the projection of a value under a scenario.
-/
namespace CfnLint.Spec

/-- `Requires t p c b`: whatever stands at the path `p` of the template `t` exists only when the condition
`c` has the value `b`: the path runs through the corresponding branch of an `Fn::If` on `c`, or the resource or
output it belongs to has the condition `c`. -/
inductive Requires (t : Val) (p : Path) : String → Bool → Prop
  | yes {q r c a b} : p = q ++ .str "Fn::If" :: .int 1 :: r →
      At t (q ++ [.str "Fn::If"]) (.list [.str c, a, b]) → Requires t p c true
  | no {q r c a b} : p = q ++ .str "Fn::If" :: .int 2 :: r →
      At t (q ++ [.str "Fn::If"]) (.list [.str c, a, b]) → Requires t p c false
  | entry {sec name r c} : p = .str sec :: name :: r → sec = "Resources" ∨ sec = "Outputs" →
      At t [.str sec, name, .str "Condition"] (.str c) → c ≠ "" → Requires t p c true

/-- The resource `r` has the condition `c`. -/
def ResourceCondition (t : Val) (r : Key) (c : String) : Prop :=
  At t [.str "Resources", r, .str "Condition"] (.str c) ∧ c ≠ ""

/-- The section is an object, the entry is an object in it, and its condition, if any, is named by a string. -/
def EntryOk (t : Val) (sec : String) (name : Key) : Prop :=
  ∃ s kvs, At t [.str sec] (.dict s) ∧ (name, .dict kvs) ∈ s ∧
    ∀ c, (.str "Condition", c) ∈ kvs → ∃ n, c = .str n

/-- A usable path: all but the last element lead somewhere, conditions met on the way are named by
strings, and the last element is not itself an `Fn::If`. Section entries on the path are objects. -/
structure GoodPath (t : Val) (p : Path) : Prop where
  ne : p ≠ []
  exists_ : ∃ u, At t p.dropLast u
  last : p.getLast? ≠ some (.str "Fn::If")
  names : ∀ q c a b, q ++ [.str "Fn::If"] <+: p → At t (q ++ [.str "Fn::If"]) (.list [c, a, b]) →
    ∃ s, c = .str s
  entry : ∀ sec name r, p = .str sec :: name :: r → sec = "Resources" ∨ sec = "Outputs" →
    EntryOk t sec name

/-! ### Values under a scenario -/

mutual
/-- The value under the scenario `σ` (condition name ↦ truth value): every `Fn::If` whose condition `σ`
knows is replaced by the branch chosen, deep inside; a reference to `AWS::NoValue` (`none`) removes the entry or
item it stands in. -/
def project (σ : String → Option Bool) : Val → Option Val
  | .dict [(k, v)] =>
    if k = .str "Fn::If" then projectIf σ v
    else if (k, v) = (.str "Ref", .str "AWS::NoValue") then none
    else some (.dict ((project σ v).elim [] (fun w => [(k, w)])))
  | .dict kvs => some (.dict (projectEntries σ kvs))
  | .list xs => some (.list (projectItems σ xs))
  | v => some v
def projectIf (σ : String → Option Bool) : Val → Option Val
  | .list [.str c, a, b] =>
    match σ c with
    | some true => project σ a
    | some false => project σ b
    | none => some (fnIf (.str c) a b)
  | v => some (.dict [(.str "Fn::If", v)])
def projectEntries (σ : String → Option Bool) : List (Key × Val) → List (Key × Val)
  | [] => []
  | (k, v) :: rest => (project σ v).elim [] (fun w => [(k, w)]) ++ projectEntries σ rest
def projectItems (σ : String → Option Bool) : List Val → List Val
  | [] => []
  | x :: xs => (project σ x).toList ++ projectItems σ xs
end

mutual
/-- Every `Fn::If` inside has three arguments and a condition the scenario knows; there are no nulls. -/
def Closed (σ : String → Option Bool) : Val → Prop
  | .dict [(k, v)] => if k = .str "Fn::If" then ClosedIf σ v else Closed σ v
  | .dict kvs => ClosedEntries σ kvs
  | .list xs => ClosedItems σ xs
  | .none => False
  | _ => True
def ClosedIf (σ : String → Option Bool) : Val → Prop
  | .list [.str c, a, b] => (∃ x, σ c = some x) ∧ Closed σ a ∧ Closed σ b
  | _ => False
def ClosedEntries (σ : String → Option Bool) : List (Key × Val) → Prop
  | [] => True
  | kv :: rest => Closed σ kv.2 ∧ ClosedEntries σ rest
def ClosedItems (σ : String → Option Bool) : List Val → Prop
  | [] => True
  | x :: xs => Closed σ x ∧ ClosedItems σ xs
end

mutual
/-- no object with the single key `Fn::If` and no reference to `AWS::NoValue` anywhere inside -/
def NoIf : Val → Prop
  | .dict [(k, v)] => k ≠ .str "Fn::If" ∧ (k, v) ≠ (.str "Ref", .str "AWS::NoValue") ∧ NoIf v
  | .dict kvs => NoIfEntries kvs
  | .list xs => NoIfItems xs
  | _ => True
def NoIfEntries : List (Key × Val) → Prop
  | [] => True
  | kv :: rest => NoIf kv.2 ∧ NoIfEntries rest
def NoIfItems : List Val → Prop
  | [] => True
  | x :: xs => NoIf x ∧ NoIfItems xs
end

mutual
/-- `Fn::If`s and references to `AWS::NoValue` occur only at the top, in branches and in lists: objects
other than those contain none. -/
def Flat : Val → Prop
  | .dict [(k, v)] => if k = .str "Fn::If" then FlatIf v
      else (k, v) = (.str "Ref", .str "AWS::NoValue") ∨ NoIf v
  | .dict kvs => NoIfEntries kvs
  | .list xs => FlatItems xs
  | _ => True
def FlatIf : Val → Prop
  | .list [_, a, b] => Flat a ∧ Flat b
  | _ => True
def FlatItems : List Val → Prop
  | [] => True
  | x :: xs => Flat x ∧ FlatItems xs
end

mutual
/-- null entries dropped from every object -/
def dropNull : Val → Val
  | .dict kvs => .dict (dropNullEntries kvs)
  | .list xs => .list (dropNullItems xs)
  | v => v
def dropNullEntries : List (Key × Val) → List (Key × Val)
  | [] => []
  | (k, v) :: rest => if v = .none then dropNullEntries rest else (k, dropNull v) :: dropNullEntries rest
def dropNullItems : List Val → List Val
  | [] => []
  | x :: xs => dropNull x :: dropNullItems xs
end

mutual
/-- An object with a key `Fn::If` or `Ref` has no other key, and a reference is a string. -/
def Tidy : Val → Prop
  | .dict kvs => ((.str "Fn::If" : Key) ∈ kvs.map Prod.fst → kvs.length = 1) ∧
      ((.str "Ref" : Key) ∈ kvs.map Prod.fst → ∃ s, kvs = [(.str "Ref", .str s)]) ∧ TidyEntries kvs
  | .list xs => TidyItems xs
  | _ => True
def TidyEntries : List (Key × Val) → Prop
  | [] => True
  | kv :: rest => Tidy kv.2 ∧ TidyEntries rest
def TidyItems : List Val → Prop
  | [] => True
  | x :: xs => Tidy x ∧ TidyItems xs
end

/-- the properties of an object with its `Fn::If`s and references to `AWS::NoValue` at the places the
linter looks at: the object is itself an `Fn::If` with flat branches, or its values are flat -/
def FlatObject : List (Key × Val) → Prop
  | [(k, v)] => if k = .str "Fn::If" then FlatIf v else (k, v) ≠ (.str "Ref", .str "AWS::NoValue") ∧ Flat v
  | kvs => ∀ kv ∈ kvs, Flat kv.2

mutual
/-- the names of the conditions of all `Fn::If`s inside a value -/
def ifNames : Val → List String
  | .dict [(k, v)] => if k = .str "Fn::If" then ifNamesIf v else ifNames v
  | .dict kvs => ifNamesEntries kvs
  | .list xs => ifNamesItems xs
  | _ => []
def ifNamesIf : Val → List String
  | .list [.str c, a, b] => c :: (ifNames a ++ ifNames b)
  | _ => []
def ifNamesEntries : List (Key × Val) → List String
  | [] => []
  | kv :: rest => ifNames kv.2 ++ ifNamesEntries rest
def ifNamesItems : List Val → List String
  | [] => []
  | x :: xs => ifNames x ++ ifNamesItems xs
end

end CfnLint.Spec
