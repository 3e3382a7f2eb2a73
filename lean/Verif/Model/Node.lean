import Verif.Model.Py
/-
Model of the marked template nodes of `src/cfnlint/decode/node.py`.

`dict_node` and `list_node` always carry a start and an end mark; a string carries marks when it is a
`str_node` (every YAML string, every JSON key) and none when it is a plain `str` (JSON string values).
Numbers, Booleans and null carry none.
-/
namespace CfnLint

/-- start/end marks: 0-based lines and columns (decode/node.py:24-30, cfn_json.py:74-81). -/
structure Span where
  sl : Int
  sc : Int
  el : Int
  ec : Int
deriving DecidableEq, Repr, Inhabited

/-- A dictionary key together with its marks (a plain `str` or an `int` has none). -/
structure MKey where
  key : Key
  mark : Option Span
deriving DecidableEq, Repr, Inhabited

/-- Marked template values. -/
inductive MVal where
  | none
  | bool (b : Bool)
  | int (i : Int)
  | flt (repr : String)
  | str (mark : Option Span) (s : String)
  | list (mark : Span) (xs : List MVal)
  | dict (mark : Span) (kvs : List (MKey × MVal))
deriving Repr, Inhabited

namespace MVal

mutual
/-- The plain value, forgetting the marks. -/
def erase : MVal → Val
  | .none => .none
  | .bool b => .bool b
  | .int i => .int i
  | .flt r => .flt r
  | .str _ s => .str s
  | .list _ xs => .list (eraseList xs)
  | .dict _ kvs => .dict (eraseDict kvs)
def eraseList : List MVal → List Val
  | [] => []
  | x :: xs => x.erase :: eraseList xs
def eraseDict : List (MKey × MVal) → List (Key × Val)
  | [] => []
  | (k, v) :: rest => (k.key, v.erase) :: eraseDict rest
end

/-- Lookup of a key in the entries of a marked dict. -/
def find (k : Key) : List (MKey × MVal) → Option MVal
  | [] => Option.none
  | (k', v) :: rest => if k'.key = k then some v else find k rest

/-- `v.get(key, default)`: works on dicts; a `str_node` or `list_node` raises `TemplateAttributeError`
(decode/node.py:42, 231), anything without marks a plain `AttributeError`. -/
def get (v : MVal) (key : String) (dflt : MVal) : PyM MVal :=
  match v with
  | .dict _ kvs => .ok ((find (Key.str key) kvs).getD dflt)
  | .str (some _) _ => .error (.templateAttributeError "str_node.get is invalid")
  | .list _ _ => .error (.templateAttributeError "list_node.get is invalid")
  | _ => .error (.attributeError "get")

/-- `_loc(obj)`, template.py:448-451. -/
def loc : MVal → PyM Span
  | .dict m _ => .ok m
  | .list m _ => .ok m
  | .str (some m) _ => .ok m
  | _ => .error (.attributeError "start_mark")

end MVal

/-- `_loc` of a dictionary key. -/
def MKey.loc (k : MKey) : PyM Span :=
  match k.mark with
  | some m => .ok m
  | none => .error (.attributeError "start_mark")

end CfnLint
