import Verif.Model.Refs
import Verif.Model.Graph
/-
Model of the rules on mappings: E1011 (rules/functions/FindInMap.py), W1011 (rules/functions/FindInMapKeys.py), E7001
(rules/mappings/Configuration.py) and `get_mappings` (template.py:106-112). A finding is the path it is reported at; the
messages are not modelled.
-/
namespace CfnLint

/-- `get_mappings`, template.py:106-112 -/
def mappingsOf (t : Val) : PyM Val :=
  match t.getD "Mappings" (.dict []) with
  | .error e => .error e
  | .ok m => .ok (if m.truthy then m else .dict [])

/-! ### E1011 -/

/-- FindInMap.py:18-21 -/
def findInMapFunctions : List Key := [.str "Fn::FindInMap", .str "Ref"]

/-- `check_dict` on an object, FindInMap.py:23-46 -/
def findInMapDict (kvs : List (Key × Val)) (path : Path) : List Path :=
  if kvs.length = 1 then (kvs.filter (fun kv => decide (kv.1 ∉ findInMapFunctions))).map (fun kv => path ++ [kv.1])
  else [path]

/-- `map_name`, FindInMap.py:48-69 -/
def findInMapName (name mappings : Val) (path : Path) : PyM (List Path) :=
  match name with
  | .dict kvs => .ok (findInMapDict kvs (path ++ [.int 0]))
  | .str s =>
    match pyIn s mappings with
    | .error e => .error e
    | .ok b => .ok (if b then [] else [path ++ [.int 0]])
  | _ => .ok [path ++ [.int 0]]

/-- `first_key` and `second_key`, FindInMap.py:71-104, with the index of the key -/
def findInMapKey (key : Val) (i : Int) (path : Path) : List Path :=
  match key with
  | .str _ | .int _ | .bool _ => []
  | .dict kvs => findInMapDict kvs (path ++ [.int i])
  | _ => [path ++ [.int i]]

/-- whether an element of a path is a text -/
def isTextKey : Key → Bool
  | .str _ => true
  | .int _ => false

/-- the body of the loop, FindInMap.py:112-131. The message for a value that is no list joins the path, which raises if there
is an index in it. -/
def findInMapOne (mappings : Val) (f : Path × Val) : PyM (List Path) :=
  match f.2 with
  | .list [name, first, second] =>
    match findInMapName name mappings f.1 with
    | .error e => .error e
    | .ok l => .ok (l ++ findInMapKey first 1 f.1 ++ findInMapKey second 2 f.1)
  | .list _ => .ok [f.1 ++ [.int 1]]
  | _ =>
    if f.1.all isTextKey then .ok [f.1]
    else .error (.typeError "sequence item: expected str instance, int found")

/-- rule E1011, FindInMap.py:106-133 -/
def findInMapRule (t globals : Val) : PyM (List Path) :=
  match mappingsOf t with
  | .error e => .error e
  | .ok m => collectM (findInMapOne m) (searchDeepKeys "Fn::FindInMap" t globals)

/-! ### W1011 -/

/-- `v.get(key)` -/
def dictGet (v : Val) (k : Key) : PyM Val :=
  match v with
  | .dict kvs => .ok ((dlookup k kvs).getD .none)
  | v => .error (attrErr v "get")

/-- whether the second key is missing, FindInMapKeys.py:37 and 44 -/
def secondMissing (v : Val) (k : Key) (path : Path) : PyM (List Path) :=
  match dictGet v k with
  | .error e => .error e
  | .ok w => .ok (if w = .none then [path ++ [.int 2]] else [])

/-- `check_keys`, FindInMapKeys.py:19-50. Texts, integers and Booleans are the keys looked up. -/
def findInMapKeys (name first second mappings : Val) (path : Path) : PyM (List Path) :=
  match toKey second, name with
  | some k2, .str m =>
    match dictGet mappings (.str m) with
    | .error e => .error e
    | .ok mapping =>
      if mapping.truthy then
        match toKey first with
        | some k1 =>
          match dictGet mapping k1 with
          | .error e => .error e
          | .ok v =>
            if v.truthy then secondMissing v k2 path
            else .ok (if v = .none then [path ++ [.int 1]] else [])
        | none =>
          match itemsOf mapping with
          | .error e => .error e
          | .ok items => collectM (fun kv => secondMissing kv.2 k2 path) items
      else .ok []
  | _, _ => .ok []

/-- the body of the loop, FindInMapKeys.py:58-62: a text of three letters is taken for a list, an object of three entries cannot be
indexed, numbers have no length -/
def findInMapKeysOne (mappings : Val) (f : Path × Val) : PyM (List Path) :=
  match f.2 with
  | .list [name, first, second] => findInMapKeys name first second mappings f.1
  | .list _ => .ok []
  | .str s =>
    match s.toList with
    | [a, b, c] => findInMapKeys (.str (String.ofList [a])) (.str (String.ofList [b])) (.str (String.ofList [c])) mappings f.1
    | _ => .ok []
  | .dict kvs =>
    if kvs.length = 3 then
      if dhas (.int 0) kvs then .error (.typeError "unhashable type: 'slice'") else .error (.keyError "0")
    else .ok []
  | _ => .error (.typeError "object has no len()")

/-- rule W1011, FindInMapKeys.py:52-64 -/
def findInMapKeysRule (t globals : Val) : PyM (List Path) :=
  match mappingsOf t with
  | .error e => .error e
  | .ok m => collectM (findInMapKeysOne m) (searchDeepKeys "Fn::FindInMap" t globals)

/-! ### E7001 -/

/-- the values a mapping may hold, Configuration.py:19 -/
def mapValueOk : Val → Bool
  | .str _ | .list _ | .int _ | .bool _ | .flt _ => true
  | _ => false

/-- the loop over the second keys, Configuration.py:41-48 -/
def mapSecond (path : Path) (kv : Key × Val) : List Path := if mapValueOk kv.2 then [] else [path ++ [kv.1]]

/-- the loop over the first keys, Configuration.py:31-48 -/
def mapFirst (path : Path) (kv : Key × Val) : List Path :=
  match kv.2 with
  | .dict kvs => kvs.flatMap (mapSecond (path ++ [kv.1]))
  | _ => [path ++ [kv.1]]

/-- rule E7001, Configuration.py:16-50 -/
def mappingsRule (t : Val) : PyM (List Path) :=
  match sectionItems t "Mappings" with
  | .error e => .error e
  | .ok ms => .ok (ms.flatMap (fun kv =>
      match kv.2 with
      | .dict kvs => kvs.flatMap (mapFirst [.str "Mappings", kv.1])
      | _ => [[.str "Mappings", kv.1]]))

end CfnLint
