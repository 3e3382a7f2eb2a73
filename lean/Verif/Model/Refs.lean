import Verif.Model.Template
import Verif.Model.Rules
/-
Model of the reference checks: `get_valid_refs` and `get_valid_getatts` (template.py:134-200), `get_modules`
(template.py:91-104), `RegexDict` (helpers.py:204-225), rule E1012 (rules/functions/RefExist.py) and rule E1010
(rules/functions/GetAtt.py).

`re.match(pattern, string)` is a parameter `rx`: whether it matches, or the exception of a bad pattern.
-/
namespace CfnLint

/-- `'Type' in value` -/
def pyIn (s : String) : Val → PyM Bool
  | .dict kvs => .ok (dhas (Key.str s) kvs)
  | .list xs => .ok (decide (Val.str s ∈ xs))
  | .str t => .ok (decide (s.toList <:+: t.toList))
  | _ => .error (.typeError "argument is not iterable")

/-- an element of the table of valid references: its type and where it comes from -/
abbrev RefTable := List (Key × (Val × String))

/-- the loop over the parameters, template.py:139-144 -/
def paramRefs : List (Key × Val) → RefTable → PyM RefTable
  | [], acc => .ok acc
  | (name, value) :: rest, acc =>
    match pyIn "Type" value with
    | .error e => .error e
    | .ok false => paramRefs rest acc
    | .ok true =>
      match value.subscript (.str "Type") with
      | .error e => .error e
      | .ok ty => paramRefs rest (dset name (ty, "Parameters") acc)

/-- a key as text -/
def keyText : Key → String
  | .str s => s
  | .int i => pyStr (.int i)

/-- the loop over the resources, template.py:147-158 -/
def resourceRefs : List (Key × Val) → RefTable → PyM RefTable
  | [], acc => .ok acc
  | (name, value) :: rest, acc =>
    match value.getD "Type" (.str "") with
    | .error e => .error e
    | .ok (.str ty) =>
      if endsWith ty "::MODULE" then
        resourceRefs rest (dset (.str (keyText name ++ ".*")) (.str "MODULE", "Resources") acc)
      else if ty ≠ "" then resourceRefs rest (dset name (.str ty, "Resources") acc)
      else resourceRefs rest acc
    | .ok v => .error (attrErr v "endswith")

/-- `x.items()` on a section; other values have no such method -/
def itemsOf : Val → PyM (List (Key × Val))
  | .dict kvs => .ok kvs
  | v => .error (attrErr v "items")

/-- the pseudo parameters, template.py:160-164 -/
def pseudoRefs (acc : RefTable) : RefTable :=
  pseudoParams.foldl (fun a p => dset (.str p) (.str "Pseudo", "Pseduo") a) acc

/-- `if section: for name, value in section.items()` -/
def sectionItems (t : Val) (name : String) : PyM (List (Key × Val)) :=
  match t.getD name (.dict []) with
  | .error e => .error e
  | .ok s => if s.truthy then itemsOf s else .ok []

/-- `get_valid_refs`, template.py:134-165 -/
def validRefs (t : Val) : PyM RefTable :=
  match sectionItems t "Parameters" with
  | .error e => .error e
  | .ok ps =>
    match paramRefs ps [] with
    | .error e => .error e
    | .ok a =>
      match sectionItems t "Resources" with
      | .error e => .error e
      | .ok rs =>
        match resourceRefs rs a with
        | .error e => .error e
        | .ok b => .ok (pseudoRefs b)

/-- `RegexDict.__contains__`, helpers.py:213-217. A key or an item that is not a string raises. -/
def regexContains (rx : String → String → PyM Bool) : List Key → Val → PyM Bool
  | [], _ => .ok false
  | k :: ks, item =>
    match k, item with
    | .str p, .str s =>
      match rx p s with
      | .error e => .error e
      | .ok true => .ok true
      | .ok false => regexContains rx ks item
    | _, _ => .error (.typeError "expected string or bytes-like object")

/-- `isinstance(ref, (str, int))`; Booleans are integers -/
def isRefName : Val → Bool
  | .str _ => true
  | .int _ => true
  | .bool _ => true
  | _ => false

/-- the loop of RefExist.py:36-42: the findings are the path of the object `{"Ref": ...}` and the message -/
def refLoop (rx : String → String → PyM Bool) (keys : List Key) : List (Path × Val) → PyM (List (Path × String))
  | [] => .ok []
  | (p, ref) :: rest =>
    if isRefName ref then
      match regexContains rx keys ref with
      | .error e => .error e
      | .ok found =>
        match refLoop rx keys rest with
        | .error e => .error e
        | .ok l => .ok (if found then l
            else (p.dropLast, "Ref " ++ pyStr ref ++ " not found as a resource or parameter") :: l)
    else refLoop rx keys rest

/-- `RefExist.match`, RefExist.py:23-44 -/
def refExist (rx : String → String → PyM Bool) (t globals : Val) : PyM (List (Path × String)) :=
  match validRefs t with
  | .error e => .error e
  | .ok tab => refLoop rx (tab.map Prod.fst) (searchDeepKeys "Ref" t globals)

end CfnLint
