import Verif.Model.PrimType
import Verif.Model.Sub
import Verif.Model.Rules
/-
Model of rule E2015 (rules/parameters/Default.py). A finding is the name of the parameter and the constraint; its path is
`Parameters/<name>/Default`. The texts of the messages are not modelled.
-/
namespace CfnLint

/-- which constraint does not allow the default -/
inductive DefaultKind where
  | pattern | minValue | maxValue | allowedValues | minLength | maxLength
deriving DecidableEq, Repr

/-- what is not known of Python: the text of a list or an object, `re.match` (`none` if `re` does not know the pattern) and `==` -/
structure DefaultEnv where
  shown : Val → String
  rx : String → String → Option Bool
  eq : Val → Val → Bool

/-- `str(value)`, Default.py:25, 74 and 87 -/
def DefaultEnv.text (E : DefaultEnv) : Val → String
  | .list xs => E.shown (.list xs)
  | .dict kvs => E.shown (.dict kvs)
  | v => pyStr v

/-- `isinstance(v, six.integer_types)` and the number; truth values are numbers -/
def wholeOf : Val → Option Int
  | .int i => some i
  | .bool b => some (if b then 1 else 0)
  | _ => none

/-- `check_allowed_pattern`, Default.py:19-31 -/
def defaultPattern (E : DefaultEnv) (v pat : Val) : PyM (List DefaultKind) :=
  match pat with
  | .str p => .ok (if E.rx p (E.text v) = some false then [.pattern] else [])
  | _ => .error (.typeError "first argument must be string or compiled pattern")

/-- `check_min_value`, Default.py:33-43 -/
def defaultMin (v m : Val) : List DefaultKind :=
  match wholeOf v, wholeOf m with
  | some i, some j => if i < j then [.minValue] else []
  | _, _ => []

/-- `check_max_value`, Default.py:45-55 -/
def defaultMax (v m : Val) : List DefaultKind :=
  match wholeOf v, wholeOf m with
  | some i, some j => if j < i then [.maxValue] else []
  | _, _ => []

/-- `allowed_value not in allowed_values`, Default.py:63 -/
def defaultIn (E : DefaultEnv) (v vs : Val) : PyM Bool :=
  match vs with
  | .list xs => .ok (xs.any (E.eq v))
  | .dict kvs =>
    match v with
    | .list _ => .error (.typeError "unhashable type")
    | .dict _ => .error (.typeError "unhashable type")
    | v =>
      match toKey v with
      | some k => .ok (dhas k kvs)
      | none => .ok false
  | .str t =>
    match v with
    | .str s => .ok (decide (s.toList <:+: t.toList))
    | _ => .error (.typeError "'in <string>' requires string as left operand")
  | _ => .error (.typeError "argument is not iterable")

/-- `check_allowed_values`, Default.py:57-66 -/
def defaultAllowed (E : DefaultEnv) (v vs : Val) : PyM (List DefaultKind) :=
  match defaultIn E v vs with
  | .error e => .error e
  | .ok b => .ok (if b then [] else [.allowedValues])

/-- `check_min_length`, Default.py:68-79 -/
def defaultMinLength (E : DefaultEnv) (v m : Val) : List DefaultKind :=
  match wholeOf m with
  | some n => if ((E.text v).toList.length : Int) < n then [.minLength] else []
  | none => []

/-- `check_max_length`, Default.py:81-92 -/
def defaultMaxLength (E : DefaultEnv) (v m : Val) : List DefaultKind :=
  match wholeOf m with
  | some n => if n < ((E.text v).toList.length : Int) then [.maxLength] else []
  | none => []

/-- `paramvalue.get(name)` of a parameter that is an object -/
def entryOf (p : List (Key × Val)) (name : String) : Val := (dlookup (Key.str name) p).getD .none

/-- the checks of a default that is given, Default.py:102-142 -/
def defaultChecks (E : DefaultEnv) (p : List (Key × Val)) (v : Val) : PyM (List DefaultKind) :=
  match (if (entryOf p "AllowedPattern").truthy then defaultPattern E v (entryOf p "AllowedPattern") else .ok []) with
  | .error e => .error e
  | .ok a =>
    match (if (entryOf p "AllowedValues").truthy then defaultAllowed E v (entryOf p "AllowedValues") else .ok []) with
    | .error e => .error e
    | .ok b =>
      .ok (a ++ (if (entryOf p "MinValue").truthy then defaultMin v (entryOf p "MinValue") else []) ++
        (if entryOf p "MaxValue" = .none then [] else defaultMax v (entryOf p "MaxValue")) ++ b ++
        (if entryOf p "MinLength" = .none then [] else defaultMinLength E v (entryOf p "MinLength")) ++
        (if entryOf p "MaxLength" = .none then [] else defaultMaxLength E v (entryOf p "MaxLength")))

/-- the body of the loop, Default.py:99-142 -/
def defaultOne (E : DefaultEnv) (kv : Key × Val) : PyM (List (Key × DefaultKind)) :=
  match kv.2 with
  | .dict p =>
    if entryOf p "Default" = .none then .ok []
    else
      match defaultChecks E p (entryOf p "Default") with
      | .error e => .error e
      | .ok ks => .ok (ks.map (fun k => (kv.1, k)))
  | v => .error (attrErr v "get")

/-- `match`, Default.py:94-144 -/
def defaultRule (E : DefaultEnv) (t : Val) : PyM (List (Key × DefaultKind)) :=
  match parameterItems t with
  | .error e => .error e
  | .ok ps => collectM (defaultOne E) ps

end CfnLint
