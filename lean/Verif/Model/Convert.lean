import Verif.Model.Node
/-
Model of `convert_dict` (helpers.py:489-509): plain data, or data that is already partly annotated, is turned into
annotated nodes. Objects, lists and strings may or may not carry marks.
-/
namespace CfnLint

/-- Python data in which every object, list, string and key may or may not be an annotated node. -/
inductive PVal where
  | none
  | bool (b : Bool)
  | int (i : Int)
  | flt (repr : String)
  | str (mark : Option Span) (s : String)
  | list (mark : Option Span) (xs : List PVal)
  | dict (mark : Option Span) (kvs : List (MKey × PVal))
deriving Repr, Inhabited

/-- `del template[k]`: keys are compared by value, not by marks -/
def pdel (k : Key) : List (MKey × PVal) → List (MKey × PVal)
  | [] => []
  | (k', v') :: rest => if k'.key = k then rest else (k', v') :: pdel k rest

/-- `template[new_k] = value`: an equal key that is already there stays as the key object -/
def pset (k : MKey) (v : PVal) : List (MKey × PVal) → List (MKey × PVal)
  | [] => [(k, v)]
  | (k', v') :: rest => if k'.key = k.key then (k', v) :: rest else (k', v') :: pset k v rest

/-- the text of `str_node(k, ...)`, decode/node.py:33-40 -/
def strOfKey : Key → String
  | .str s => s
  | .int i => toString i

/-- the marks used below a key: those of a `str_node`, otherwise the inherited ones (helpers.py:495-499) -/
def keyMark (m : Span) (k : MKey) : Span := k.mark.getD m

/-- one turn of the loop, helpers.py:494-502 -/
def rekeyStep (d : List (MKey × PVal)) (e : MKey × MKey × PVal) : List (MKey × PVal) := pset e.2.1 e.2.2 (pdel e.1.key d)

mutual
/-- `convert_dict(template, start_mark, end_mark)`, helpers.py:489-509 -/
def convertDict (m : Span) : PVal → PVal
  | .dict mk kvs => .dict (some (mk.getD m)) ((convertPairs m kvs).foldl rekeyStep kvs)
  | .list mk xs => .list (some (mk.getD m)) (convertList m xs)
  | .none => .none
  | .bool b => .bool b
  | .int i => .int i
  | .flt r => .flt r
  | .str mk s => .str mk s
/-- the elements of a list, converted with the inherited marks -/
def convertList (m : Span) : List PVal → List PVal
  | [] => []
  | x :: xs => convertDict m x :: convertList m xs
/-- the items of the copied dictionary: old key, new key, converted value -/
def convertPairs (m : Span) : List (MKey × PVal) → List (MKey × MKey × PVal)
  | [] => []
  | (k, v) :: rest =>
    (k, ⟨.str (strOfKey k.key), some (keyMark m k)⟩, convertDict (keyMark m k) v) :: convertPairs m rest
end

end CfnLint
