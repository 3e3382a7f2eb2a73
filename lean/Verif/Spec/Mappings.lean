import Verif.Spec.Template
/- Specification of mappings and of `Fn::FindInMap`. -/
namespace CfnLint.Spec

/-- what a mapping may hold: texts, numbers, Booleans and lists -/
def MapValue : Val → Prop
  | .str _ | .int _ | .flt _ | .bool _ | .list _ => True
  | _ => False

/-- The places where the mappings are not maps of maps of values. -/
inductive BadMapping (t : Val) : Path → Prop
  | map {m v} : At t [.str "Mappings", m] v → (∀ kvs, v ≠ .dict kvs) → BadMapping t [.str "Mappings", m]
  | first {m k v} {kvs} : At t [.str "Mappings", m] (.dict kvs) → At t [.str "Mappings", m, k] v → (∀ l, v ≠ .dict l) →
      BadMapping t [.str "Mappings", m, k]
  | value {m k k' v} {kvs l} : At t [.str "Mappings", m] (.dict kvs) → At t [.str "Mappings", m, k] (.dict l) →
      At t [.str "Mappings", m, k, k'] v → ¬ MapValue v → BadMapping t [.str "Mappings", m, k, k']

/-- the value is the key `k` written out -/
inductive KeyValue : Val → Key → Prop
  | str {s} : KeyValue (.str s) (.str s)
  | int {i} : KeyValue (.int i) (.int i)
  | true : KeyValue (.bool true) (.int 1)
  | false : KeyValue (.bool false) (.int 0)

/-- the functions allowed inside `Fn::FindInMap` -/
def innerFunctions : List String := ["Fn::FindInMap", "Ref"]

/-- The places where a call of `Fn::FindInMap` is not a list of the name of a map and two keys, each written out or computed by
one of the allowed functions. -/
inductive BadFind (t : Val) : Path → Prop
  | form {q v} : At t (q ++ [.str "Fn::FindInMap"]) v → (∀ xs, v ≠ .list xs) → BadFind t (q ++ [.str "Fn::FindInMap"])
  | size {q xs} : At t (q ++ [.str "Fn::FindInMap"]) (.list xs) → xs.length ≠ 3 → BadFind t (q ++ [.str "Fn::FindInMap", .int 1])
  | unknown {q m b c} : At t (q ++ [.str "Fn::FindInMap"]) (.list [.str m, b, c]) → (∀ v, ¬ At t [.str "Mappings", .str m] v) →
      BadFind t (q ++ [.str "Fn::FindInMap", .int 0])
  | name {q a b c} : At t (q ++ [.str "Fn::FindInMap"]) (.list [a, b, c]) → (∀ s, a ≠ .str s) → (∀ kvs, a ≠ .dict kvs) →
      BadFind t (q ++ [.str "Fn::FindInMap", .int 0])
  | key {q a b c} {i : Nat} {v} : At t (q ++ [.str "Fn::FindInMap"]) (.list [a, b, c]) → [a, b, c][i + 1]? = some v →
      (∀ k, ¬ KeyValue v k) → (∀ kvs, v ≠ .dict kvs) → BadFind t (q ++ [.str "Fn::FindInMap", .int (i + 1 : Nat)])
  | several {q a b c} {i : Nat} {kvs} : At t (q ++ [.str "Fn::FindInMap"]) (.list [a, b, c]) → [a, b, c][i]? = some (.dict kvs) →
      kvs.length ≠ 1 → BadFind t (q ++ [.str "Fn::FindInMap", .int i])
  | function {q a b c} {i : Nat} {k w} : At t (q ++ [.str "Fn::FindInMap"]) (.list [a, b, c]) →
      [a, b, c][i]? = some (.dict [(k, w)]) → (∀ f ∈ innerFunctions, k ≠ .str f) →
      BadFind t (q ++ [.str "Fn::FindInMap", .int i, k])

/-- The places where a key of `Fn::FindInMap` is missing in the map: the first key, the second key below the first, or, when the
first key is computed, the second key below any first key. -/
inductive MissingKey (t : Val) : Path → Prop
  | first {q m a b v} {k1 k2 : Key} : At t (q ++ [.str "Fn::FindInMap"]) (.list [.str m, a, b]) → KeyValue a k1 → KeyValue b k2 →
      At t [.str "Mappings", .str m] v → (∀ w, ¬ At t [.str "Mappings", .str m, k1] w) →
      MissingKey t (q ++ [.str "Fn::FindInMap", .int 1])
  | second {q m a b v} {k1 k2 : Key} : At t (q ++ [.str "Fn::FindInMap"]) (.list [.str m, a, b]) → KeyValue a k1 → KeyValue b k2 →
      At t [.str "Mappings", .str m, k1] v → (∀ w, ¬ At t [.str "Mappings", .str m, k1, k2] w) →
      MissingKey t (q ++ [.str "Fn::FindInMap", .int 2])
  | any {q m a b v} {k1 k2 : Key} : At t (q ++ [.str "Fn::FindInMap"]) (.list [.str m, a, b]) → (∀ k, ¬ KeyValue a k) → KeyValue b k2 →
      At t [.str "Mappings", .str m, k1] v → (∀ w, ¬ At t [.str "Mappings", .str m, k1, k2] w) →
      MissingKey t (q ++ [.str "Fn::FindInMap", .int 2])

/-- the mappings, if any, are an object -/
def MappingsObject (t : Val) : Prop := ∀ v, At t [.str "Mappings"] v → ∃ kvs, v = .dict kvs

/-- the mappings are maps of maps of values -/
structure MapsOk (t : Val) : Prop where
  section_ : MappingsObject t
  maps : ∀ m v, At t [.str "Mappings", m] v → ∃ kvs, v = .dict kvs
  firsts : ∀ m k v, At t [.str "Mappings", m, k] v → ∃ kvs, v = .dict kvs
  values : ∀ m k k' v, At t [.str "Mappings", m, k, k'] v → MapValue v

/-- no map and no first key of a map is empty -/
structure MapsFilled (t : Val) : Prop where
  maps : ∀ m, ¬ At t [.str "Mappings", m] (.dict [])
  firsts : ∀ m k, ¬ At t [.str "Mappings", m, k] (.dict [])

end CfnLint.Spec
