import Verif.Model.ValueSpecs
import Verif.Model.PropSets
/-
Model of the rules about the lists that are values of properties: E3032 (rules/resources/properties/ListSize.py), E3037 (ListDuplicates.py)
and I3037 (ListDuplicatesAllowed.py). A finding is its path and the scenario named in the message.
-/
namespace CfnLint

/-- the declaration of a property; `listMin` and `listMax` are those of the entry of `ValueTypes` that the `ListValueType` of its `Value`
names; `duplicates` is `DuplicatesAllowed` -/
structure ListRow extends PropRow where
  listMin : Option Int := none
  listMax : Option Int := none
  duplicates : Option Bool := none

structure ListReport where
  path : Path
  scenario : Option Scenario
deriving DecidableEq

/-! ### E3032 -/

/-- the body of the loop over the property sets, ListSize.py:35-58 -/
def sizeIn (lo hi : Int) (prop : String) (path : Path) (s : Option Scenario × Val) : PyM (List ListReport) :=
  match s.2 with
  | .dict m =>
    match dlookup (Key.str prop) m with
    | some (.list xs) => .ok (if lo ≤ xs.length ∧ xs.length ≤ hi then [] else [⟨path ++ [.str prop], s.1⟩])
    | _ => .ok []
  | v => .error (attrErr v "get")

/-- ListSize.py:30-32 and 68-72: the bounds that are checked -/
def listBounds (d : ListRow) : Option (Int × Int) :=
  match d.listMin, d.listMax with
  | some lo, some hi => if d.type = some "List" then some (lo, hi) else none
  | _, _ => none

/-- `check_value`, ListSize.py:26-60 -/
def sizeValue (enum : String → List String → List String) (order : List String → List String) (tb : CondTable) (prop : String)
    (d : ListRow) (obj : Val) (path : Path) : PyM (List ListReport) :=
  match listBounds d with
  | none => .ok []
  | some (lo, hi) =>
    match objectWithoutConditions enum order tb obj with
    | .error e => .error e
    | .ok sets => collectM (sizeIn lo hi prop path) sets

/-- `check`, ListSize.py:62-80 -/
def sizeRule (enum : String → List String → List String) (order : List String → List String) (tb : CondTable)
    (rows : List (String × ListRow)) (obj : Val) (path : Path) : PyM (List ListReport) :=
  eachDeclared rows (sizeValue enum order tb) obj path

/-! ### E3037 and I3037 -/

/-- the order of `sort_keys`; a number that is a key comes before the texts (Python raises if both kinds occur) -/
def keyLe : Key → Key → Bool
  | .int i, .int j => decide (i ≤ j)
  | .int _, .str _ => true
  | .str _, .int _ => false
  | .str a, .str b => decide (a ≤ b)

/-- inserting an entry before the first one with a greater key -/
def insertKey (kv : Key × Val) : List (Key × Val) → List (Key × Val)
  | [] => [kv]
  | x :: xs => if keyLe kv.1 x.1 then kv :: x :: xs else x :: insertKey kv xs

mutual
/-- what `hashlib.sha1(json.dumps(value, sort_keys=True))` stands for, ListDuplicates.py:35-36: the value with its keys sorted.
Simplification: no two such values have the same hash. -/
def sortedKeys : Val → Val
  | .list xs => .list (sortedItems xs)
  | .dict kvs => .dict (sortedEntries kvs)
  | v => v
def sortedItems : List Val → List Val
  | [] => []
  | x :: xs => sortedKeys x :: sortedItems xs
def sortedEntries : List (Key × Val) → List (Key × Val)
  | [] => []
  | (k, v) :: rest => insertKey (k, sortedKeys v) (sortedEntries rest)
end

/-- the loop over the elements, ListDuplicates.py:34-48; `seen` is `list_items`. With a scenario the path is that of the list. -/
def dupLoop (path : Path) (sc : Option Scenario) : Nat → List Val → List Val → List ListReport
  | _, _, [] => []
  | i, seen, x :: xs =>
    (if sortedKeys x ∈ seen then
      (if (sc.getD []).isEmpty then [⟨path ++ [.int i], none⟩] else [⟨path, sc⟩])
    else []) ++ dupLoop path sc (i + 1) (seen ++ [sortedKeys x]) xs

/-- `_check_duplicates`, ListDuplicates.py:29-52 -/
def dupsIn (path : Path) (s : Option Scenario × Val) : List ListReport :=
  match s.2 with
  | .list xs => dupLoop path s.1 0 [] xs
  | _ => []

/-- `check_duplicates`, ListDuplicates.py:54-66 -/
def dupValue (enum : String → List String → List String) (order : List String → List String) (tb : CondTable) (v : Val) (path : Path) :
    PyM (List ListReport) :=
  match v with
  | .list xs => .ok (dupsIn path (none, .list xs))
  | .dict kvs =>
    match objectWithoutConditions enum order tb (.dict kvs) with
    | .error e => .error e
    | .ok sets => .ok (sets.flatMap (dupsIn path))
  | _ => .ok []

/-- the test of E3037, ListDuplicates.py:74-76 -/
def noDuplicates (d : ListRow) : Bool := d.type == some "List" && !(d.duplicates.getD true)

/-- the test of I3037, ListDuplicatesAllowed.py:75-78 -/
def oddDuplicates (d : ListRow) : Bool :=
  d.type == some "List" && d.duplicates.getD false && (d.primItem == some "String" || d.primItem == some "Integer")

/-- `check`, ListDuplicates.py:68-83 and ListDuplicatesAllowed.py:68-84 -/
def dupRule (enum : String → List String → List String) (order : List String → List String) (tb : CondTable) (test : ListRow → Bool)
    (rows : List (String × ListRow)) (obj : Val) (path : Path) : PyM (List ListReport) :=
  eachDeclared rows (fun prop d o p =>
    if test d then
      match o.subscript (.str prop) with
      | .error e => .error e
      | .ok v => dupValue enum order tb v (p ++ [.str prop])
    else .ok []) obj path

/-- E3037 -/
def duplicatesRule (enum : String → List String → List String) (order : List String → List String) (tb : CondTable)
    (rows : List (String × ListRow)) (obj : Val) (path : Path) : PyM (List ListReport) :=
  dupRule enum order tb noDuplicates rows obj path

/-- I3037 -/
def oddDuplicatesRule (enum : String → List String → List String) (order : List String → List String) (tb : CondTable)
    (rows : List (String × ListRow)) (obj : Val) (path : Path) : PyM (List ListReport) :=
  dupRule enum order tb oddDuplicates rows obj path

end CfnLint
