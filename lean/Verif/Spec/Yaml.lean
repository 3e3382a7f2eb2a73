import Verif.Model.Yaml
/-
What C36 says about YAML node trees, independently of the constructor. Only the types of trees and values and the
four standard tags are shared with the model.
-/
namespace CfnLint.Spec

/-- `x` is `t` or a node somewhere inside `t`. -/
inductive SubNode : YNode → YNode → Prop
  | here (t) : SubNode t t
  | item {x y tag xs} : y ∈ xs → SubNode x y → SubNode x (.seq tag xs)
  | key {x k v tag kvs} : (k, v) ∈ kvs → SubNode x k → SubNode x (.map tag kvs)
  | value {x k v tag kvs} : (k, v) ∈ kvs → SubNode x v → SubNode x (.map tag kvs)

/-- The same, without going into the items of a `!GetAtt` sequence. -/
inductive Reached : YNode → YNode → Prop
  | here (t) : Reached t t
  | item {x y tag xs} : tag ≠ "!GetAtt" → y ∈ xs → Reached x y → Reached x (.seq tag xs)
  | key {x k v tag kvs} : (k, v) ∈ kvs → Reached x k → Reached x (.map tag kvs)
  | value {x k v tag kvs} : (k, v) ∈ kvs → Reached x v → Reached x (.map tag kvs)

/-- Two entries of the mapping are written with the same key. -/
def DupEntries (kvs : List (YNode × YNode)) : Prop :=
  ∃ a b c k v w, kvs = a ++ (k, v) :: b ++ (k, w) :: c

/-- Some entry of the mapping has the value null. -/
def NullEntry (kvs : List (YNode × YNode)) : Prop :=
  ∃ k s, (k, YNode.scalar nullTag s) ∈ kvs

/-- The name after the exclamation mark. -/
def shortName (tag : String) : Option String :=
  if tag.toList.head? = some '!' then some (String.ofList tag.toList.tail) else none

/-- The name of the function in its long form. -/
def longName (n : String) : String := if n ∈ ["Ref", "Condition"] then n else "Fn::" ++ n

/-- `Resource.Attribute`: split at the first dot. -/
def getAttParts (s : String) : List String :=
  let i := s.toList.findIdx (· == '.')
  if i < s.toList.length then [String.ofList (s.toList.take i), String.ofList (s.toList.drop (i + 1))]
  else [s]

/-- the long form of a function call -/
def longCall (n : String) (arg : YNode) : YNode := .map mapTag [(.scalar strTag (longName n), arg)]

mutual
/-- Rewrite all short forms `!Name arg` into `Fn::Name: arg`. `resolve` gives the tag YAML assigns to an untagged
scalar. -/
def longForm (resolve : String → String) : YNode → YNode
  | .scalar tag v =>
    match shortName tag with
    | none => .scalar tag v
    | some n =>
      if n = "GetAtt" then longCall n (.seq seqTag ((getAttParts v).map (fun p => .scalar strTag p)))
      else longCall n (.scalar (resolve v) v)
  | .seq tag xs =>
    match shortName tag with
    | none => .seq tag (longForms resolve xs)
    | some n => longCall n (.seq seqTag (longForms resolve xs))
  | .map tag kvs =>
    match shortName tag with
    | none => .map tag (longPairs resolve kvs)
    | some n => longCall n (.map mapTag (longPairs resolve kvs))
def longForms (resolve : String → String) : List YNode → List YNode
  | [] => []
  | x :: xs => longForm resolve x :: longForms resolve xs
def longPairs (resolve : String → String) : List (YNode × YNode) → List (YNode × YNode)
  | [] => []
  | (k, v) :: kvs => (longForm resolve k, longForm resolve v) :: longPairs resolve kvs
end

/-- Where the short form can be relied on: a scalar argument is text; a `!GetAtt` list holds only text; a mapping
argument has distinct text keys and is not given to `!GetAtt`. -/
def PlainCall (resolve : String → String) : YNode → Prop
  | .scalar tag v => ∀ n, shortName tag = some n → n ≠ "GetAtt" → resolve v = strTag
  | .seq tag xs => shortName tag = some "GetAtt" → ∀ x ∈ xs, ∃ s, x = YNode.scalar strTag s
  | .map tag kvs => ∀ n, shortName tag = some n →
      n ≠ "GetAtt" ∧ ∃ ks : List String, ks.Nodup ∧ kvs.map Prod.fst = ks.map (YNode.scalar strTag)

/-- The values are one key of a Python dictionary: `True` is 1 and `False` is 0. -/
inductive SameKey : Val → Val → Prop
  | str (s) : SameKey (.str s) (.str s)
  | int (i) : SameKey (.int i) (.int i)
  | bool (b) : SameKey (.bool b) (.bool b)
  | trueOne : SameKey (.bool true) (.int 1)
  | oneTrue : SameKey (.int 1) (.bool true)
  | falseZero : SameKey (.bool false) (.int 0)
  | zeroFalse : SameKey (.int 0) (.bool false)

end CfnLint.Spec
