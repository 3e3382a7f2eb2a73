import Verif.Model.Template
/-
Model of the safe accessors of `src/cfnlint/decode/node.py`. The marks the results carry are those of the
nodes they come from and are not modelled here.
-/
namespace CfnLint

/-- The Python types used as `type_t`. -/
inductive Ty where
  | dict | list | str | int | bool | float
deriving DecidableEq, Repr, Inhabited

/-- `isinstance(v, t)`; `bool` is a subclass of `int`. -/
def Val.isInst (v : Val) : Ty → Bool
  | .dict => v.isDict
  | .list => v.isList
  | .str => v.isStr
  | .int => match v with | .int _ => true | .bool _ => true | _ => false
  | .bool => v.isBool
  | .float => match v with | .flt _ => true | _ => false

/-- `isinstance(v, type_t) or not type_t` -/
def okType (types : List Ty) (v : Val) : Bool := types.any v.isInst || types.isEmpty

/-- `isinstance(v, dict) and len(v) == 1 and v.get('Ref') == 'AWS::NoValue'`, decode/node.py:146-148 -/
def isNoValueRef : Val → Bool
  | .dict [(k, v)] => k = .str "Ref" && v = .str "AWS::NoValue"
  | _ => false

/-- the loop of `clean`, decode/node.py:146-150 -/
def cleanLoop : List (Key × Val) → List (Key × Val) → List (Key × Val)
  | [], acc => acc
  | (k, v) :: rest, acc => if isNoValueRef v then cleanLoop rest acc else cleanLoop rest (dset k v acc)

/-- `clean`, decode/node.py:143-151 -/
def clean (kvs : List (Key × Val)) : Val := .dict (cleanLoop kvs [])

mutual
/-- `dict_node.items_safe`, decode/node.py:154-178. The recursive call passes no `type_t`; its results
are filtered by the caller. -/
def itemsSafe (types : List Ty) : List (Key × Val) → Path → List (Val × Path)
  | [(k, v)], path =>
    if k = .str "Fn::If" then ifBranches types v (path ++ [k])
    else if k = .str "Ref" ∧ v = .str "AWS::NoValue" then []
    else if okType types (.dict [(k, v)]) then [(clean [(k, v)], path)] else []
  | kvs, path => if okType types (.dict kvs) then [(clean kvs, path)] else []
/-- decode/node.py:160-173 -/
def ifBranches (types : List Ty) : Val → Path → List (Val × Path)
  | .list [_, a, b], path =>
    ifBranch types a (path ++ [.int 1]) ++ ifBranch types b (path ++ [.int 2])
  | _, _ => []
/-- decode/node.py:162-173 -/
def ifBranch (types : List Ty) : Val → Path → List (Val × Path)
  | .dict kvs, path => (itemsSafe [] kvs path).filter (fun r => okType types r.1)
  | v, path => if okType types v then [(v, path)] else []
end

/-- the loop of `list_node.items_safe`, decode/node.py:216-226 -/
def listItemsSafe (types : List Ty) : List Val → Nat → Path → List (Val × Path)
  | [], _, _ => []
  | x :: xs, i, path =>
    (match x with
      | .dict kvs => (itemsSafe [] kvs (path ++ [.int i])).filter (fun r => okType types r.1)
      | v => if okType types v then [(v, path ++ [.int i])] else []) ++ listItemsSafe types xs (i + 1) path

/-- `get_safe`, decode/node.py:114-141. `value == default` is taken as structural equality (Python ignores
the order of dictionary entries and identifies `True` with 1). -/
def getSafe (kvs : List (Key × Val)) (key : Key) (dflt : Val) (path : Path) (types : List Ty) :
    PyM (List (Val × Path)) :=
  let value := (dlookup key kvs).getD dflt
  if value = .none ∧ dflt = .none then .ok []
  else if !types.isEmpty && value = dflt && !types.any dflt.isInst then
    .error (.valueError "\"default\" type should be of \"type_t\"")
  else
    match value with
    | .dict sub => .ok ((itemsSafe [] sub (path ++ [key])).filter (fun r => okType types r.1))
    | v => .ok (if okType types v then [(v, path ++ [key])] else [])

end CfnLint
