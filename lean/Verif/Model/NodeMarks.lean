import Verif.Model.NodeOps
/-
Model of the marks of the nodes that `src/cfnlint/decode/node.py` makes anew: copies (`__deepcopy__`), cleaned objects
(`clean`), defaults (`get`), and what `items_safe` and `get_safe` return. The values alone are in Model/NodeOps.

Assignment to a key that an object has already keeps the old key, with its marks, as in Python. A value that is copied
holds no value twice (values shared through YAML anchors are treated as separate values).
-/
namespace CfnLint

namespace MVal

/-- `result[k] = v` -/
def put (k : MKey) (v : MVal) : List (MKey × MVal) → List (MKey × MVal)
  | [] => [(k, v)]
  | (k', w) :: rest => if k'.key = k.key then (k', v) :: rest else (k', w) :: put k v rest

mutual
/-- `deepcopy`: decode/node.py:45-48 (texts), 73-79 (objects), 205-211 (lists); other values are not copied. An object
is first filled with the old values, which are then replaced one by one. -/
def deepCopy : MVal → MVal
  | .list m xs => .list m (copyList xs)
  | .dict m kvs => .dict m (copyInto kvs kvs)
  | .str m s => .str m s
  | .none => .none
  | .bool b => .bool b
  | .int i => .int i
  | .flt r => .flt r
/-- decode/node.py:208-209 -/
def copyList : List MVal → List MVal
  | [] => []
  | x :: xs => x.deepCopy :: copyList xs
/-- decode/node.py:76-77; the second argument is the result so far -/
def copyInto : List (MKey × MVal) → List (MKey × MVal) → List (MKey × MVal)
  | [], r => r
  | (k, v) :: rest, r => copyInto rest (put k v.deepCopy r)
end

/-- `dict_node.get`, decode/node.py:108-112: a default that is an object gets the marks of the object itself -/
def getDefault (m : Span) (kvs : List (MKey × MVal)) (key : Key) (dflt : MVal) : MVal :=
  match find key kvs with
  | some v => v
  | Option.none =>
    match dflt with
    | .dict _ d => .dict m d
    | d => d

/-- the loop of `clean`, decode/node.py:146-150 -/
def cleanMarked : List (MKey × MVal) → List (MKey × MVal) → List (MKey × MVal)
  | [], acc => acc
  | (k, v) :: rest, acc => if isNoValueRef v.erase then cleanMarked rest acc else cleanMarked rest (put k v acc)

mutual
/-- `dict_node.items_safe`, decode/node.py:154-178, on the object with the marks `m` -/
def itemsMarked (types : List Ty) (m : Span) : List (MKey × MVal) → Path → List (MVal × Path)
  | [(k, v)], path =>
    if k.key = .str "Fn::If" then branchesMarked types v (path ++ [k.key])
    else if k.key = .str "Ref" ∧ v.erase = .str "AWS::NoValue" then []
    else if okType types (.dict [(k.key, v.erase)]) then [(.dict m (cleanMarked [(k, v)] []), path)] else []
  | kvs, path => if okType types (.dict (eraseDict kvs)) then [(.dict m (cleanMarked kvs []), path)] else []
/-- decode/node.py:160-173 -/
def branchesMarked (types : List Ty) : MVal → Path → List (MVal × Path)
  | .list _ [_, a, b], path =>
    branchMarked types a (path ++ [.int 1]) ++ branchMarked types b (path ++ [.int 2])
  | _, _ => []
/-- decode/node.py:162-173 -/
def branchMarked (types : List Ty) : MVal → Path → List (MVal × Path)
  | .dict m kvs, path => (itemsMarked [] m kvs path).filter (fun r => okType types r.1.erase)
  | v, path => if okType types v.erase then [(v, path)] else []
end

/-- the loop of `list_node.items_safe`, decode/node.py:216-226 -/
def listItemsMarked (types : List Ty) : List MVal → Nat → Path → List (MVal × Path)
  | [], _, _ => []
  | x :: xs, i, path => branchMarked types x (path ++ [.int i]) ++ listItemsMarked types xs (i + 1) path

/-- `get_safe`, decode/node.py:114-141, on the object with the marks `m` -/
def getSafeMarked (m : Span) (kvs : List (MKey × MVal)) (key : Key) (dflt : MVal) (path : Path) (types : List Ty) :
    PyM (List (MVal × Path)) :=
  let value := getDefault m kvs key dflt
  if value.erase = .none ∧ dflt.erase = .none then .ok []
  else if !types.isEmpty && value.erase = dflt.erase && !types.any dflt.erase.isInst then
    .error (.valueError "\"default\" type should be of \"type_t\"")
  else .ok (branchMarked types value (path ++ [key]))

end MVal

end CfnLint
