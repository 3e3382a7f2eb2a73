import Verif.Model.PropSets
/-
Model of rule E3039 (rules/resources/dynamodb/AttributeMismatch.py). Sets of names are lists; a finding carries its path and the two lists of the
message. `logger.info` is left out.
-/
namespace CfnLint

/-- the loop over the definitions, AttributeMismatch.py:57-63: nothing if some name is not a text -/
def attributeNames : List Val → PyM (Option (List String))
  | [] => .ok (some [])
  | a :: rest =>
    match a.getD "AttributeName" .none with
    | .error e => .error e
    | .ok (.str n) =>
      match attributeNames rest with
      | .error e => .error e
      | .ok ns => .ok (ns.map (n :: ·))
    | .ok _ => .ok none

/-- the body of the inner loop, AttributeMismatch.py:30-32 -/
def keyName (k : Val) : PyM (List String) :=
  match k with
  | .dict kvs =>
    match getSafe kvs (.str "AttributeName") .none [] [.str] with
    | .error e => .error e
    | .ok [] => .ok []
    | .ok _ =>
      match (dlookup (Key.str "AttributeName") kvs).getD .none with
      | .str n => .ok [n]
      | _ => .error (.typeError "unhashable type")
  | v => .error (attrErr v "get_safe")

/-- `_get_key_schema_attributes`, AttributeMismatch.py:24-33 -/
def keySchemaNames (sets : List (Val × Path)) : PyM (List String) :=
  collectM (fun r : Val × Path =>
    match iterOf r.1 with
    | .error e => .error e
    | .ok ks => collectM keyName ks) sets

/-- the keys of one index, AttributeMismatch.py:41-45 -/
def indexNames (ix : Val) : PyM (List String) :=
  match ix with
  | .dict kvs =>
    match getSafe kvs (.str "KeySchema") (.list []) [] [.list] with
    | .error e => .error e
    | .ok sets => keySchemaNames sets
  | v => .error (attrErr v "get_safe")

/-- `_get_attribute_secondary`, AttributeMismatch.py:35-47 -/
def secondaryNames (sets : List (Val × Path)) : PyM (List String) :=
  collectM (fun r : Val × Path =>
    match iterOf r.1 with
    | .error e => .error e
    | .ok ixs => collectM indexNames ixs) sets

/-- `sorted(list(names))` of a set -/
def sortedSet (l : List String) : List String := l.eraseDups.mergeSort (fun a b => decide (a ≤ b))

structure TableReport where
  path : Path
  attributes : List String
  keys : List String
deriving DecidableEq

/-- `attributes != keys` of sets -/
def sameNames (as ks : List String) : Bool := as.all (fun a => ks.contains a) && ks.all (fun k => as.contains k)

/-- the keys of a table, AttributeMismatch.py:64-74 -/
def tableKeys (kvs : List (Key × Val)) (path : Path) : PyM (List String) :=
  match getSafe kvs (.str "KeySchema") (.list []) [] [.list] with
  | .error e => .error e
  | .ok s1 =>
    match keySchemaNames s1 with
    | .error e => .error e
    | .ok k1 =>
      match getSafe kvs (.str "GlobalSecondaryIndexes") (.list []) path [.list] with
      | .error e => .error e
      | .ok s2 =>
        match secondaryNames s2 with
        | .error e => .error e
        | .ok k2 =>
          match getSafe kvs (.str "LocalSecondaryIndexes") (.list []) path [.list] with
          | .error e => .error e
          | .ok s3 =>
            match secondaryNames s3 with
            | .error e => .error e
            | .ok k3 => .ok (k1 ++ k2 ++ k3)

/-- `check_property_set`, AttributeMismatch.py:49-84 -/
def tableSet (path : Path) (set : Option Scenario × Val) : PyM (List TableReport) :=
  match set.2 with
  | .dict kvs =>
    match iterOf ((dlookup (Key.str "AttributeDefinitions") kvs).getD (.list [])) with
    | .error e => .error e
    | .ok ds =>
      match attributeNames ds with
      | .error e => .error e
      | .ok none => .ok []
      | .ok (some as) =>
        match tableKeys kvs path with
        | .error e => .error e
        | .ok ks => .ok (if sameNames as ks then [] else [⟨path, sortedSet as, sortedSet ks⟩])
  | v => .error (attrErr v "get")

/-- the properties that are looked at, AttributeMismatch.py:91 -/
def tableProps : List String := ["AttributeDefinitions", "KeySchema", "GlobalSecondaryIndexes", "LocalSecondaryIndexes"]

/-- `check` and `match_resource_properties`, AttributeMismatch.py:86-100 -/
def tableCheck (enum : String → List String → List String) (order : List String → List String) (tb : CondTable) (props : Val) (path : Path) :
    PyM (List TableReport) :=
  match objectWithoutNamed enum order tb props tableProps with
  | .error e => .error e
  | .ok sets => collectM (tableSet path) sets

end CfnLint
