import Verif.Model.Template
/-
Model of the rest of `Conditions.__init__` (conditions.py:203-222): the table `Equals` of `_get_condition_equals` (conditions.py:224-285), which is computed first, and whose
failure leaves the template without any conditions. `get_hash` (conditions.py:21-23) is `json.dumps` with `sort_keys`, which cannot sort the keys of an object that
has both texts and numbers as keys. Apart from such objects it is `H`, as in Model/Conditions.
-/
namespace CfnLint

mutual
/-- whether sorting the keys fails somewhere in a value -/
def mixedKeys : Val → Bool
  | .dict kvs => (kvs.any (fun kv => match kv.1 with | .str _ => true | .int _ => false) && kvs.any (fun kv => match kv.1 with | .str _ => false | .int _ => true))
      || mixedKeysDict kvs
  | .list xs => mixedKeysList xs
  | _ => false
/-- the values of an object -/
def mixedKeysDict : List (Key × Val) → Bool
  | [] => false
  | (_, v) :: rest => mixedKeys v || mixedKeysDict rest
/-- the elements of a list -/
def mixedKeysList : List Val → Bool
  | [] => false
  | v :: rest => mixedKeys v || mixedKeysList rest
end

/-- `get_hash`, conditions.py:21-23 -/
def getHash (H : Val → String) (v : Val) : PyM String :=
  if mixedKeys v then .error (.typeError "'<' not supported between instances of 'str' and 'int'") else .ok (H v)

/-- one side of a comparison as `_get_condition_equals` sees it: a hash, a text, or nothing -/
inductive EqSide where
  | hash (h : String)
  | text (s : String)
  | nothing
deriving DecidableEq, Repr

/-- `dict_hash_1`, `value_1` (conditions.py:238-251) -/
def eqSide (H : Val → String) (v : Val) : PyM EqSide :=
  match v with
  | .dict kvs =>
    match getHash H (.dict kvs) with
    | .error e => .error e
    | .ok h => .ok (.hash h)
  | .str s => .ok (.text s)
  | .int i => .ok (.text (pyStr (.int i)))
  | .bool b => .ok (.text (pyStr (.bool b)))
  | _ => .ok .nothing

/-- the table: for a hash the conditions that compare it, each with the other side -/
abbrev EqTable := List (String × List (Key × EqSide))

/-- conditions.py:255-269 and 270-284: an entry for a side that is a hash -/
def eqEntry (c : Key) (side other : EqSide) (acc : EqTable) : EqTable :=
  match side with
  | .hash h => dset h ((dlookup h acc).getD [] ++ [(c, other)]) acc
  | _ => acc

/-- the loop of `_get_condition_equals`, conditions.py:232-285 -/
def conditionEquals (H : Val → String) : List (Path × Val) → EqTable → PyM EqTable
  | [], acc => .ok acc
  | (.str "Conditions" :: c :: _, .list [a, b]) :: rest, acc =>
    match eqSide H a with
    | .error e => .error e
    | .ok s1 =>
      match eqSide H b with
      | .error e => .error e
      | .ok s2 => conditionEquals H rest (eqEntry c s2 s1 (eqEntry c s1 s2 acc))
  | _ :: rest, acc => conditionEquals H rest acc

/-- `Conditions.__init__`, conditions.py:203-222: the table first, then the conditions and parameters. There are no `Globals` yet when a template is made. -/
def Conditions.load (H : Val → String) (fuel : Nat) (tmpl : Val) : CondTable × EqTable × Option PyErr :=
  match conditionEquals H (searchDeepKeys "Fn::Equals" tmpl (.dict [])) [] with
  | .error e => ({}, [], some e)
  | .ok table => ((Conditions.init H fuel tmpl).1, table, (Conditions.init H fuel tmpl).2)

end CfnLint
