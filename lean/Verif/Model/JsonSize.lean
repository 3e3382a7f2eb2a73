import Verif.Model.Format
import Verif.Model.Scenario
import Verif.Model.ValueSpecs
import Verif.Model.Elb
/-
Model of E3502 (rules/resources/properties/JsonSize.py). The texts of floats are those of `repr`; dates do not occur. The rows of a property hold what `check` reads:
`limit` is the value of `JsonMax` for properties of the type `Json` whose entry has a `Value`; it is `none` where the value type has no such limit. `below` stands for
`get_condition_scenarios_below_path`.
-/
namespace CfnLint

/-! ### The text of a value -/

/-- a key in `json.dumps` -/
def memberText : Key → List Char
  | .str s => encodeText (codes s)
  | .int i => '"' :: (intText i ++ ['"'])

mutual
/-- `json.dumps(v, separators=(',', ':'))`, JsonSize.py:69 -/
def compact : Val → List Char
  | .none => ['n', 'u', 'l', 'l']
  | .bool true => ['t', 'r', 'u', 'e']
  | .bool false => ['f', 'a', 'l', 's', 'e']
  | .int i => intText i
  | .flt r => r.toList
  | .str s => encodeText (codes s)
  | .list xs => '[' :: (compactItems xs ++ [']'])
  | .dict kvs => '{' :: (compactMembers kvs ++ ['}'])
/-- the items of a list -/
def compactItems : List Val → List Char
  | [] => []
  | [v] => compact v
  | v :: w :: vs => compact v ++ ',' :: compactItems (w :: vs)
/-- the members of an object -/
def compactMembers : List (Key × Val) → List Char
  | [] => []
  | [(k, v)] => memberText k ++ ':' :: compact v
  | (k, v) :: kv :: kvs => memberText k ++ ':' :: (compact v ++ ',' :: compactMembers (kv :: kvs))
end

/-! ### The functions -/

/-- how far the last `}` of the line is -/
def lastBrace : List Char → Option Nat
  | [] => none
  | c :: r =>
    if c = '\n' then none
    else
      match lastBrace r with
      | some n => some (n + 1)
      | none => if c = '}' then some 1 else none

/-- `re.sub(r'\${.*}', '', v)`, JsonSize.py:48 and 50; the number is that of the characters still to be left out -/
def dropSubs : Nat → List Char → List Char
  | _, [] => []
  | n + 1, _ :: r => dropSubs n r
  | 0, '$' :: r =>
    match r with
    | '{' :: q =>
      match lastBrace q with
      | some n => dropSubs (n + 1) r
      | none => '$' :: dropSubs 0 r
    | _ => '$' :: dropSubs 0 r
  | 0, c :: r => c :: dropSubs 0 r

/-- the text of a `Fn::Sub`, JsonSize.py:46-50 -/
def subValue (obj v : Val) : PyM Val :=
  match v with
  | .str s => .ok (.str (String.ofList (dropSubs 0 s.toList)))
  | .list [] => .error (.indexError "list index out of range")
  | .list (.str s :: _) => .ok (.str (String.ofList (dropSubs 0 s.toList)))
  | .list _ => .error (.typeError "expected string or bytes-like object")
  | _ => .ok obj

mutual
/-- `remove_functions`, JsonSize.py:39-64 -/
def removeFns : Val → PyM Val
  | .dict [(k, v)] =>
    if k ∈ functionNames.map Key.str then
      if k = .str "Fn::Sub" then subValue (.dict [(k, v)]) v else .ok (.dict [(k, v)])
    else
      match removeFns v with
      | .error e => .error e
      | .ok w => .ok (.dict [(k, w)])
  | .dict kvs =>
    match removeFnsMembers kvs with
    | .error e => .error e
    | .ok l => .ok (.dict l)
  | .list xs =>
    match removeFnsItems xs with
    | .error e => .error e
    | .ok l => .ok (.list l)
  | v => .ok v
/-- JsonSize.py:54-57 -/
def removeFnsMembers : List (Key × Val) → PyM (List (Key × Val))
  | [] => .ok []
  | (k, v) :: kvs =>
    match removeFns v with
    | .error e => .error e
    | .ok w =>
      match removeFnsMembers kvs with
      | .error e => .error e
      | .ok l => .ok ((k, w) :: l)
/-- JsonSize.py:58-62 -/
def removeFnsItems : List Val → PyM (List Val)
  | [] => .ok []
  | v :: vs =>
    match removeFns v with
    | .error e => .error e
    | .ok w =>
      match removeFnsItems vs with
      | .error e => .error e
      | .ok l => .ok (w :: l)
end

/-! ### The rule -/

/-- the test of a scenario, JsonSize.py:69 -/
def sizeOver (limit : Option Nat) (prop : String) (obj : Val) : PyM Bool :=
  match obj with
  | .dict kvs =>
    match dlookup (Key.str prop) kvs with
    | none => .error (.keyError prop)
    | some doc =>
      match removeFns doc with
      | .error e => .error e
      | .ok w =>
        match limit with
        | none => .error (.typeError "'>' not supported between instances of 'int' and 'NoneType'")
        | some n => .ok (decide (n < (compact w).length))
  | _ => .error (.typeError "list indices must be integers or slices, not str")

/-- `check_value`, JsonSize.py:35-85: the scenarios with a finding; a scenario that is empty is not named -/
def sizeCheck (scenarios : List Scenario) (limit : Option Nat) (prop : String) (obj : Val) : PyM (List (Option Scenario)) :=
  match objectsDeep scenarios obj with
  | .error e => .error e
  | .ok sets => collectM (fun s =>
      match sizeOver limit prop s.2 with
      | .error e => .error e
      | .ok true => .ok [if namesScenario s.1 then s.1 else none]
      | .ok false => .ok []) sets

/-- `check`, JsonSize.py:87-105 -/
def jsonSizeRule (below : Path → List Scenario) (rows : List (String × Option Nat)) (obj : Val) (path : Path) : PyM (List Path) :=
  eachDeclared rows (fun prop limit v p =>
    match sizeCheck (below p) limit prop v with
    | .error e => .error e
    | .ok l => .ok (l.map (fun _ => p ++ [.str prop]))) obj path

end CfnLint
