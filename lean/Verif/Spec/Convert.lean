import Verif.Model.Convert
/-
What a value is without its marks, and when it is annotated.
-/
namespace CfnLint.Spec

mutual
/-- the value without its marks -/
def plain : PVal → Val
  | .none => .none
  | .bool b => .bool b
  | .int i => .int i
  | .flt r => .flt r
  | .str _ s => .str s
  | .list _ xs => .list (plainList xs)
  | .dict _ kvs => .dict (plainPairs kvs)
def plainList : List PVal → List Val
  | [] => []
  | x :: xs => plain x :: plainList xs
def plainPairs : List (MKey × PVal) → List (Key × Val)
  | [] => []
  | (k, v) :: rest => (k.key, plain v) :: plainPairs rest
end

/-- `Part v w`: `w` is `v` or stands somewhere inside it. -/
inductive Part : PVal → PVal → Prop
  | self (v) : Part v v
  | item {mk xs x w} : x ∈ xs → Part x w → Part (.list mk xs) w
  | entry {mk kvs k x w} : (k, x) ∈ kvs → Part x w → Part (.dict mk kvs) w

/-- Every object and list in the value carries marks. -/
def FullyAnnotated (v : PVal) : Prop :=
  (∀ mk kvs, Part v (.dict mk kvs) → mk.isSome) ∧ (∀ mk xs, Part v (.list mk xs) → mk.isSome)

/-- Every key in the value is an annotated text. -/
def KeysAnnotated (v : PVal) : Prop :=
  ∀ mk kvs, Part v (.dict mk kvs) → ∀ kx ∈ kvs, kx.1.mark.isSome ∧ ∃ s, kx.1.key = .str s

/-- All object keys are text, as in JSON. -/
def TextKeys (v : PVal) : Prop := ∀ mk kvs, Part v (.dict mk kvs) → ∀ kx ∈ kvs, ∃ s, kx.1.key = .str s

/-- No object holds a key twice, as for every Python dictionary. -/
def NoTwice (v : PVal) : Prop := ∀ mk kvs, Part v (.dict mk kvs) → (kvs.map (fun kx => kx.1.key)).Nodup

end CfnLint.Spec
