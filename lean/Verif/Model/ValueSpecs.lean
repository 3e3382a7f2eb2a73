import Verif.Model.PrimType
/-
Model of the rules that compare the values of properties with what the specification says of the type of a value: E3030
(rules/resources/properties/AllowedValue.py), E3031 (AllowedPattern.py), E3033 (StringSize.py) and E3034 (NumberSize.py). A finding is its
path; the messages are not modelled. `fuel` is the recursion limit of `get_values`.
-/
namespace CfnLint

/-- an entry of `ValueTypes`; an absent or empty list of allowed values and an absent or empty pattern are not told apart -/
structure ValueType where
  allowed : List String := []
  pattern : String := ""
  stringMin : Option Int := none
  stringMax : Option Int := none
  numberMin : Option Val := none
  numberMax : Option Val := none

/-- the declaration of a property; `valueType` is the entry of `ValueTypes` that its `Value` names, `none` if it names none. A name without
entry is not told apart from no name; no entry has the empty name. -/
structure ValueRow extends PropRow where
  valueType : Option ValueType := none

/-- what is not known of Python: the text of a list or an object, `re.match`, `float` of a text and `<=` of numbers -/
structure PyText where
  shown : Val → String
  matches_ : String → String → Bool
  toFloat : String → Option Val
  le : Val → Val → Bool

/-- `str(value)` -/
def strOf (E : PyText) : Val → String
  | .list xs => E.shown (.list xs)
  | .dict kvs => E.shown (.dict kvs)
  | v => pyStr v

/-- `'{{resolve:' in s` -/
def isDynamic (s : String) : Bool := decide ("{{resolve:".toList <:+: s.toList)

/-- `check_value`, AllowedValue.py:27-45 -/
def allowedCheck (E : PyText) (vt : ValueType) (v : Val) (p : Path) : List Path :=
  if vt.allowed.isEmpty then []
  else if isDynamic (strOf E v) then []
  else if strOf E v ∈ vt.allowed then []
  else [p]

/-- `check_value`, AllowedPattern.py:28-55 -/
def patternCheck (E : PyText) (vt : ValueType) (v : Val) (p : Path) : List Path :=
  match v with
  | .list _ => []
  | .dict _ => []
  | .none => []
  | v =>
    if vt.pattern = "" then []
    else if isDynamic (pyStr v) then []
    else if E.matches_ vt.pattern (pyStr v) then []
    else [p]

/-- `_check_string_length`, StringSize.py:27-43 -/
def lengthCheck (lo hi : Int) (v : Val) (p : Path) : List Path :=
  match v with
  | .str s => if lo ≤ s.length ∧ s.length ≤ hi then [] else [p]
  | _ => []

/-- NumberSize.py:52-60 -/
def rangeCheck (E : PyText) (lo hi v : Val) (p : Path) : List Path := if E.le lo v && E.le v hi then [] else [p]

/-- `_check_number_value`, NumberSize.py:28-62 -/
def numberCheck (E : PyText) (lo hi : Val) (v : Val) (p : Path) : List Path :=
  match v with
  | .str s =>
    match E.toFloat s with
    | none => [p]
    | some x => rangeCheck E lo hi x p
  | .int i => rangeCheck E lo hi (.int i) p
  | .flt r => rangeCheck E lo hi (.flt r) p
  | .bool b => rangeCheck E lo hi (.bool b) p
  | _ => []

/-- the loops `for p_value, p_path in properties.items_safe(path[:])` and `for prop in p_value: if prop in specs`, AllowedValue.py:50-52 -/
def eachDeclared {ρ α : Type} (rows : List (String × ρ)) (f : String → ρ → Val → Path → PyM (List α)) (obj : Val) (path : Path) :
    PyM (List α) :=
  match itemsSafeOf obj path with
  | .error e => .error e
  | .ok rs => collectM (fun r => declaredIn rows (fun prop d => f prop d r.1 r.2) r.1) rs

/-- `check`, AllowedValue.py:47-67 -/
def allowedRule (E : PyText) (fuel : Nat) (rows : List (String × ValueRow)) (obj : Val) (path : Path) : PyM (List Path) :=
  eachDeclared rows (fun prop d v p =>
    match d.valueType with
    | none => .ok []
    | some vt => checkValue fuel { value := some (fun u q => .ok (allowedCheck E vt u q)) } v prop p) obj path

/-- `check`, AllowedPattern.py:57-76 -/
def patternRule (E : PyText) (fuel : Nat) (rows : List (String × ValueRow)) (obj : Val) (path : Path) : PyM (List Path) :=
  eachDeclared rows (fun prop d v p =>
    match d.valueType with
    | none => .ok []
    | some vt => checkValue fuel { value := some (fun u q => .ok (patternCheck E vt u q)) } v prop p) obj path

/-- the type whose values have a length, StringSize.py:53-56 and 61-62: both bounds are given and not 0 -/
def lengthBounds (d : ValueRow) : Option (Int × Int) :=
  match d.valueType with
  | none => none
  | some vt =>
    match vt.stringMin, vt.stringMax with
    | some lo, some hi =>
      if lo ≠ 0 ∧ hi ≠ 0 ∧ (if d.type = some "List" then d.primItem else d.prim) = some "String" then some (lo, hi) else none
    | _, _ => none

/-- `check`, StringSize.py:45-71; the value is looked up in the properties, not in the branch -/
def lengthRule (fuel : Nat) (rows : List (String × ValueRow)) (obj : Val) (path : Path) : PyM (List Path) :=
  eachDeclared rows (fun prop d _ p =>
    match lengthBounds d with
    | none => .ok []
    | some (lo, hi) => checkValue fuel { value := some (fun u q => .ok (lengthCheck lo hi u q)) } obj prop p) obj path

/-- NumberSize.py:75-76 -/
def numberBounds (d : ValueRow) : Option (Val × Val) :=
  match d.valueType with
  | none => none
  | some vt =>
    match vt.numberMin, vt.numberMax with
    | some lo, some hi =>
      if d.prim = some "Integer" ∨ d.prim = some "Double" ∨ d.prim = some "Long" ∨ d.prim = some "String" then some (lo, hi) else none
    | _, _ => none

/-- `check`, NumberSize.py:64-85; the value is looked up in the properties, not in the branch -/
def numberRule (E : PyText) (fuel : Nat) (rows : List (String × ValueRow)) (obj : Val) (path : Path) : PyM (List Path) :=
  eachDeclared rows (fun prop d _ p =>
    match numberBounds d with
    | none => .ok []
    | some (lo, hi) => checkValue fuel { value := some (fun u q => .ok (numberCheck E lo hi u q)) } obj prop p) obj path

end CfnLint
