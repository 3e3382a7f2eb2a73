import Verif.Model.Rules
/-
Model of `src/cfnlint/conditions.py`.

`H : Val → String` stands for `get_hash` (conditions.py:21-23): the SHA-1 of the canonical JSON text. A
digest is never the empty string, so the truthiness tests on `Function` are `is not None` tests. Values
that `json.dumps` refuses are dealt with in Model/CondEquals (mixed key types) or not modelled (dates).
Sets are duplicate-free lists; the order in which Python enumerates a set is a parameter (`enum`).
The recursion limit is the parameter `fuel`.
-/
namespace CfnLint

/-- `EqualsValue`, conditions.py:26-48 -/
structure EqV where
  fn : Option String := none
  str : Option String := none
deriving DecidableEq, Repr, Inhabited

/-- `EqualsValue.__eq__`, conditions.py:47-48 (`str == EqualsValue` falls back to it). -/
def EqV.eqv (e : EqV) (other : String) : Bool := e.fn == some other || e.str == some other

/-- What can go wrong while a condition is parsed: `ConditionParseError` or another exception. -/
inductive CErr where
  | parse
  | py (e : PyErr)
deriving DecidableEq, Repr, Inhabited

/-- `EqualsValue.__init__`, conditions.py:31-44. `bool` is a subclass of `int`. -/
def mkEqV (H : Val → String) (value : Val) : Except CErr EqV :=
  match value with
  | .dict kvs => if kvs.length = 1 then .ok { fn := some (H (.dict kvs)) } else .error .parse
  | .str s => .ok { str := some s }
  | .int i => .ok { str := some (pyStr (.int i)) }
  | .bool b => .ok { str := some (pyStr (.bool b)) }
  | _ => .error .parse

/-- `Equals`, conditions.py:51-66 -/
structure CEquals where
  left : EqV
  right : EqV
deriving DecidableEq, Repr, Inhabited

/-- `Equals.__init__`, conditions.py:56-66 -/
def mkEquals (H : Val → String) (equals : Val) : Except CErr CEquals :=
  match equals with
  | .list [a, b] =>
    match mkEqV H a with
    | .error e => .error e
    | .ok l =>
      match mkEqV H b with
      | .error e => .error e
      | .ok r => .ok { left := l, right := r }
  | _ => .error .parse

/-- A set of (expression hash, value) pairs under construction: `{hash: value}`. -/
abbrev EqScenario := List (String × String)

/-- `Equals.test`, conditions.py:68-76 -/
def CEquals.test (e : CEquals) : EqScenario → Option Bool
  | [] => none
  | (k, v) :: rest =>
    if e.left.eqv k then some (e.right.eqv v)
    else if e.right.eqv k then some (e.left.eqv v)
    else e.test rest

/-- An element of `And`/`Or`/`Not`: an `Equals` or a `Condition` (conditions.py:79-85). -/
inductive CObj where
  | equals (e : CEquals)
  | cond (and or not : List CObj) (eq : Option CEquals)
deriving Repr, Inhabited

mutual
/-- `Condition.test`, conditions.py:106-121, and `Equals.test`. A condition that was not understood has
`Equals = None`, and `None.test` raises. -/
def CObj.test (sc : EqScenario) : CObj → PyM (Option Bool)
  | .equals e => .ok (e.test sc)
  | .cond (a :: as) _ _ _ => CObj.testAnd sc (a :: as)
  | .cond [] (o :: os) _ _ => CObj.testOr sc (o :: os)
  | .cond [] [] (n :: _) _ =>
    match CObj.test sc n with
    | .error e => .error e
    | .ok r => .ok (some (!(r == some true)))
  | .cond [] [] [] (some e) => .ok (e.test sc)
  | .cond [] [] [] none => .error (.attributeError "'NoneType' object has no attribute 'test'")
/-- the loop of conditions.py:109-112 -/
def CObj.testAnd (sc : EqScenario) : List CObj → PyM (Option Bool)
  | [] => .ok (some true)
  | a :: as =>
    match CObj.test sc a with
    | .error e => .error e
    | .ok r => if r == some true then CObj.testAnd sc as else .ok (some false)
/-- the loop of conditions.py:114-117 -/
def CObj.testOr (sc : EqScenario) : List CObj → PyM (Option Bool)
  | [] => .ok (some false)
  | o :: os =>
    match CObj.test sc o with
    | .error e => .error e
    | .ok r => if r == some true then .ok (some true) else CObj.testOr sc os
end

/-- `Influenced_Equals`: hash ↦ set of the other sides. -/
abbrev Infl := List (String × List String)

/-- `set.add` -/
def setAdd (x : String) (s : List String) : List String := if x ∈ s then s else s ++ [x]

/-- `if not d.get(k): d[k] = set()` followed by adding the given elements -/
def inflAdd (k : String) (xs : List String) (infl : Infl) : Infl :=
  dset k (xs.foldl (fun s x => setAdd x s) ((dlookup k infl).getD [])) infl

/-- the value added for the other side, conditions.py:128-131,135-138 -/
def EqV.other (e : EqV) : List String :=
  match e.fn with
  | some f => [f]
  | none =>
    match e.str with
    | some s => [s]
    | none => []

/-- `process_influenced_equal`, conditions.py:123-138 -/
def inflEqual (e : CEquals) (infl : Infl) : Infl :=
  let infl := match e.left.fn with
    | some l => inflAdd l e.right.other infl
    | none => infl
  match e.right.fn with
  | some r => inflAdd r e.left.other infl
  | none => infl

/-- merging the influences of a sub condition, conditions.py:181-185,189-193 -/
def inflMerge (child : Infl) (infl : Infl) : Infl :=
  child.foldl (fun acc kv => inflAdd kv.1 kv.2 acc) infl

/-- The attributes a parse sets on a `Condition`. -/
structure Parts where
  and : List CObj := []
  or : List CObj := []
  not : List CObj := []
  eq : Option CEquals := none
deriving Repr, Inhabited

/-- `template.get('Conditions', {}).get(name, {})`. Unhashable names raise; a Boolean is the integer it
equals; floats and null are never keys. -/
def lookupCondition (tmpl : Val) (name : Val) : PyM Val :=
  match tmpl.getD "Conditions" (.dict []) with
  | .error e => .error e
  | .ok (.dict kvs) =>
    match name with
    | .str s => .ok ((dlookup (Key.str s) kvs).getD (.dict []))
    | .int i => .ok ((dlookup (Key.int i) kvs).getD (.dict []))
    | .bool b => .ok ((dlookup (Key.int (if b then 1 else 0)) kvs).getD (.dict []))
    | .list _ => .error (.typeError "unhashable type: 'list'")
    | .dict _ => .error (.typeError "unhashable type: 'dict'")
    | _ => .ok (.dict [])
  | .ok v => .error (attrErr v "get")

/-- The outcome of parsing one condition value: influences collected (also when an exception ends the
parse) and the parts or the exception. -/
abbrev ParseOut := Infl × Except CErr Parts

/-- The end of `Condition.__init__`, conditions.py:95-104: a parse error leaves an empty condition. -/
def finishCondition : ParseOut → PyM (CObj × Infl)
  | (i, .ok p) => .ok (.cond p.and p.or p.not p.eq, i)
  | (i, .error .parse) => .ok (.cond [] [] [] none, i)
  | (_, .error (.py e)) => .error e

/-- `Condition(template, name)`, conditions.py:87-98. A `None` name leaves the condition empty. -/
def condByName (rec : Val → ParseOut) (tmpl : Val) (name : Val) : PyM (CObj × Infl) :=
  match name with
  | .none => .ok (.cond [] [] [] none, [])
  | name =>
    match lookupCondition tmpl name with
    | .error e => .error e
    | .ok value => finishCondition (rec value)

/-- what `for value in values` enumerates -/
def pyIterVal : Val → PyM (List Val)
  | .list xs => .ok xs
  | .dict kvs => .ok (kvs.map (fun kv => kv.1.toVal))
  | .str s => .ok (s.toList.map (fun c => .str (String.ofList [c])))
  | _ => .error (.typeError "object is not iterable")

/-- `process_function`, conditions.py:167-194: the loop. Items that are not one-key objects are skipped. -/
def processItems (H : Val → String) (tmpl : Val) (rec : Val → ParseOut) :
    List Val → Infl → List CObj → Infl × Except CErr (List CObj)
  | [], infl, acc => (infl, .ok acc)
  | .dict [(k, v)] :: rest, infl, acc =>
    if k = .str "Fn::Equals" then
      match mkEquals H v with
      | .error e => (infl, .error e)
      | .ok e => processItems H tmpl rec rest (inflEqual e infl) (acc ++ [.equals e])
    else if k = .str "Condition" then
      match condByName rec tmpl v with
      | .error e => (infl, .error (.py e))
      | .ok (c, ci) => processItems H tmpl rec rest (inflMerge ci infl) (acc ++ [c])
    else
      match finishCondition (rec (.dict [(k, v)])) with
      | .error e => (infl, .error (.py e))
      | .ok (c, ci) => processItems H tmpl rec rest (inflMerge ci infl) (acc ++ [c])
  | _ :: rest, infl, acc => processItems H tmpl rec rest infl acc

/-- `process_function`, conditions.py:167-194 -/
def processFunction (H : Val → String) (tmpl : Val) (rec : Val → ParseOut) (values : Val) :
    Infl × Except CErr (List CObj) :=
  match pyIterVal values with
  | .error e => ([], .error (.py e))
  | .ok xs => processItems H tmpl rec xs [] []

/-- `process_condition`, conditions.py:140-165 -/
def processCondition (H : Val → String) (tmpl : Val) : Nat → Val → ParseOut
  | 0, _ => ([], .error (.py .recursionError))
  | n + 1, .dict [(k, fv)] =>
    if k = .str "Fn::And" then
      let r := processFunction H tmpl (processCondition H tmpl n) fv
      (r.1, r.2.map (fun l => { and := l }))
    else if k = .str "Fn::Or" then
      let r := processFunction H tmpl (processCondition H tmpl n) fv
      (r.1, r.2.map (fun l => { or := l }))
    else if k = .str "Fn::Not" then
      let r := processFunction H tmpl (processCondition H tmpl n) fv
      (r.1, r.2.map (fun l => { not := l }))
    else if k = .str "Fn::Equals" then
      match mkEquals H fv with
      | .error e => ([], .error e)
      | .ok e => (inflEqual e [], .ok { eq := some e })
    else if k = .str "Condition" then
      match lookupCondition tmpl fv with
      | .error e => ([], .error (.py e))
      | .ok v =>
        match processCondition H tmpl n v with
        | (i, .error .parse) => (i, .ok {})
        | r => r
    else ([], .ok {})
  | _ + 1, _ => ([], .error .parse)

/-- The attributes of `Conditions` used to build scenarios (conditions.py:197-208). The `Equals`
attribute is not used anywhere else; it, and the exceptions of computing it (conditions.py:208-209,224-285), are in
Model/CondEquals. -/
structure CondTable where
  conds : List (Key × (CObj × Infl)) := []
  params : List (String × List Val) := []
deriving Repr, Inhabited

/-- the loop of conditions.py:211-212 over the names -/
def loadConds (H : Val → String) (tmpl : Val) (fuel : Nat) :
    List Val → List (Key × (CObj × Infl)) → List (Key × (CObj × Infl)) × Option PyErr
  | [], acc => (acc, none)
  | name :: rest, acc =>
    match condByName (processCondition H tmpl fuel) tmpl name with
    | .error e => (acc, some e)
    | .ok c =>
      match name with
      | .str s => loadConds H tmpl fuel rest (dset (.str s) c acc)
      | .int i => loadConds H tmpl fuel rest (dset (.int i) c acc)
      | _ => loadConds H tmpl fuel rest acc

/-- the loop of conditions.py:214-222 -/
def loadParams (H : Val → String) : List (Key × Val) → List (String × List Val) →
    List (String × List Val) × Option PyErr
  | [], acc => (acc, none)
  | (p, body) :: rest, acc =>
    match body.getD "AllowedValues" .none with
    | .error e => (acc, some e)
    | .ok (.list vals) =>
      let ref : Val := .dict [(.str "Ref", p.toVal)]
      loadParams H rest (dset (H ref) vals acc)
    | .ok _ => loadParams H rest acc

/-- `Conditions.__init__`, conditions.py:203-225. Every exception is caught; the second component is the
exception that was logged, if any. -/
def Conditions.init (H : Val → String) (fuel : Nat) (tmpl : Val) : CondTable × Option PyErr :=
  match tmpl.getD "Conditions" (.dict []) with
  | .error e => ({}, some e)
  | .ok cs =>
    match pyIterVal cs with
    | .error e => ({}, some e)
    | .ok names =>
      match loadConds H tmpl fuel names [] with
      | (conds, some e) => ({ conds := conds }, some e)
      | (conds, none) =>
        match tmpl.getD "Parameters" (.dict []) with
        | .error e => ({ conds := conds }, some e)
        | .ok (.dict ps) =>
          let r := loadParams H ps []
          ({ conds := conds, params := r.1 }, r.2)
        | .ok v => ({ conds := conds }, some (attrErr v "items"))

/-! ### Scenarios -/

/-- A scenario: condition name ↦ truth value (`None` when a test gave no answer). -/
abbrev Scenario := List (Key × Option Bool)

/-- `multiply_conditions`, conditions.py:287-301 -/
def multiplyConditions (currents : List Scenario) (condition : Key) (values : List Bool) :
    List Scenario :=
  (if currents.isEmpty then values.map (fun v => [(condition, some v)]) else []) ++
  currents.flatMap (fun c => values.map (fun v => dset condition (some v) c))

/-- the inner loop of conditions.py:318-325 for one condition -/
def matchInfl : Infl → Infl → Bool → Infl × Bool
  | [], m, hit => (m, hit)
  | (k, vs) :: rest, m, hit =>
    let hit := if ((dlookup k m).getD []).isEmpty then hit else true
    matchInfl rest (inflAdd k vs m) hit

/-- the loop of conditions.py:315-325: `none` when a condition is unknown. The second component tells
whether `matched_conditions` is non-empty. -/
def matchLoop (t : CondTable) : List Key → Infl → Bool → Option (Infl × Bool)
  | [], m, hit => some (m, hit)
  | c :: rest, m, hit =>
    match dlookup c t.conds with
    | none => none
    | some (_, infl) =>
      let r := matchInfl infl m hit
      matchLoop t rest r.1 r.2

/-- the texts of the usable allowed values, conditions.py:334-342 -/
def allowedTexts (vals : List Val) : List String :=
  vals.filterMap (fun v => match v with
    | .str s => some s
    | .int i => some (pyStr (.int i))
    | .bool b => some (pyStr (.bool b))
    | _ => none)

/-- the values tried for one hash: the allowed values if there are any, else the values it is compared
with (enumerated as `sets`) and one that differs from them (`falseCase` accumulates over the scenarios).
conditions.py:332-350,351-369; the result is the list of values and the new `false_case`. -/
def tryValues (sets : List String) (params : Option (List Val)) (falseCase : String) :
    List String × String :=
  match params with
  | some (p :: ps) => (allowedTexts (p :: ps), falseCase)
  | _ =>
    let fc := sets.foldl (· ++ ·) falseCase
    (sets ++ [fc ++ ".bad"], fc)

/-- the second loop of `multiply_equals`, conditions.py:351-369 -/
def multiplyLoop (h : String) (sets : List String) (params : Option (List Val)) :
    List EqScenario → String → List EqScenario
  | [], _ => []
  | cur :: rest, fc =>
    let r := tryValues sets params fc
    r.1.map (fun v => dset h v cur) ++ multiplyLoop h sets params rest r.2

/-- `multiply_equals`, conditions.py:327-372 -/
def multiplyEquals (currents : List EqScenario) (h : String) (sets : List String)
    (params : Option (List Val)) : List EqScenario :=
  match currents with
  | [] => (tryValues sets params "").1.map (fun v => [(h, v)])
  | cs => multiplyLoop h sets params cs ""

/-- the loop of conditions.py:393-396; `enum` is the order in which Python enumerates each set -/
def buildScenarios (enum : String → List String → List String) (params : List (String × List Val)) :
    Infl → List EqScenario → List EqScenario
  | [], acc => acc
  | (h, sets) :: rest, acc =>
    buildScenarios enum params rest (multiplyEquals acc h (enum h sets) (dlookup h params))

/-- the inner loop of conditions.py:399-401 -/
def testAll (t : CondTable) (sc : EqScenario) : List Key → Scenario → PyM Scenario
  | [], acc => .ok acc
  | c :: rest, acc =>
    match dlookup c t.conds with
    | none => .error (.attributeError "'NoneType' object has no attribute 'test'")
    | some (o, _) =>
      match o.test sc with
      | .error e => .error e
      | .ok r => testAll t sc rest (dset c r acc)

/-- the loop of conditions.py:399-405 -/
def collect (t : CondTable) (conditions : List Key) : List EqScenario → List Scenario → PyM (List Scenario)
  | [], results => .ok results
  | sc :: rest, results =>
    match testAll t sc conditions [] with
    | .error e => .error e
    | .ok r => collect t conditions rest (if r ∈ results then results else results ++ [r])

/-- `get_scenarios`, conditions.py:303-407 -/
def getScenarios (enum : String → List String → List String) (t : CondTable)
    (conditions : List Key) : PyM (List Scenario) :=
  if t.conds.isEmpty then .ok []
  else
    match matchLoop t conditions [] false with
    | none => .ok []
    | some (matched, hit) =>
      if !hit then
        if conditions.length > 4 then
          .ok (conditions.foldl (fun rs c => multiplyConditions rs c [true]) [] ++
            conditions.foldl (fun rs c => multiplyConditions rs c [false]) [])
        else .ok (conditions.foldl (fun rs c => multiplyConditions rs c [true, false]) [])
      else collect t conditions (buildScenarios enum t.params matched []) []

end CfnLint
