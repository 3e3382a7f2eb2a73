import Verif.Model.PropSets
/-
Model of E3017 and E3018 (rules/resources/properties/BasedOnValue.py, RequiredBasedOnValue.py, UnwantedBasedOnValue.py). The regular expressions of the
specification are predicates: `re.match` of a text.
-/
namespace CfnLint

/-- an element of the lists in BasedOnValue.json: when it applies, and the names the rule takes from it -/
structure BasedOn where
  regex : Option (String → Bool)
  refs : List String
  getAtts : List (String × String)
  names : List String

/-- `cfn.template.get('Resources').get(v, …).get('Type')`, BasedOnValue.py:49,55; `dflt` is what is taken for a resource that does not exist -/
def typeOfResource (t : Val) (k : Option Key) (dflt : Val) : PyM Val :=
  match t.getD "Resources" .none with
  | .error e => .error e
  | .ok rs =>
    match rs with
    | .dict kvs => ((k.bind (fun k => dlookup k kvs)).getD dflt).getD "Type" .none
    | v => .error (attrErr v "get")

/-- the value of `Fn::GetAtt`, BasedOnValue.py:54-57 -/
def basedOnGetAtt (t : Val) (getAtts : List (String × String)) (xs : List Val) : PyM Bool :=
  match xs with
  | [] => .error (.indexError "list index out of range")
  | .list _ :: _ => .error (.typeError "unhashable type")
  | .dict _ :: _ => .error (.typeError "unhashable type")
  | x :: rest =>
    match typeOfResource t (toKey x) .none with
    | .error e => .error e
    | .ok (.list _) => .error (.typeError "unhashable type")
    | .ok (.dict _) => .error (.typeError "unhashable type")
    | .ok (.str ty) =>
      match dlookup ty getAtts with
      | none => .ok false
      | some a =>
        match rest with
        | [] => .error (.indexError "list index out of range")
        | y :: _ => .ok (decide (y = .str a))
    | .ok _ => .ok false

/-- `_check_value`, BasedOnValue.py:35-59 -/
def basedOnValue (t : Val) (s : BasedOn) (v : Val) : PyM Bool :=
  match v with
  | .str x => .ok (match s.regex with | some r => r x | none => false)
  | .dict [(k, w)] =>
    if k = .str "Ref" ∧ s.refs ≠ [] then
      match w with
      | .str x =>
        match typeOfResource t (some (.str x)) (.dict []) with
        | .error e => .error e
        | .ok ty => .ok (s.refs.any (fun r => decide (ty = .str r)))
      | _ => .ok false
    else if k = .str "Fn::GetAtt" ∧ s.getAtts ≠ [] then
      match w with
      | .list xs => basedOnGetAtt t s.getAtts xs
      | _ => .ok false
    else .ok false
  | _ => .ok false

/-- what a finding says: the path, the two properties and the scenario -/
structure BasedReport where
  path : Path
  prop : String
  other : String
  scenario : Option Scenario
deriving DecidableEq

/-- the loop over the names, BasedOnValue.py:76-91; `present` says which names are reported, RequiredBasedOnValue.py:18-19 and
UnwantedBasedOnValue.py:18-19 -/
def basedNames (present : Bool) (path : Path) (k : String) (names : List String) (sc : Option Scenario) (obj : Val) : PyM (List BasedReport) :=
  collectM (fun n =>
    match pyIn n obj with
    | .error e => .error e
    | .ok b => .ok (if b = present then [⟨path, k, n, sc⟩] else [])) names

/-- the loop over the scenarios, BasedOnValue.py:74-91 -/
def basedSet (t : Val) (present : Bool) (path : Path) (k : String) (s : BasedOn) (set : Option Scenario × Val) : PyM (List BasedReport) :=
  match set.2.getD k .none with
  | .error e => .error e
  | .ok v =>
    match basedOnValue t s v with
    | .error e => .error e
    | .ok false => .ok []
    | .ok true => basedNames present path k s.names set.1 set.2

/-- an element of the specification, BasedOnValue.py:68-91 -/
def basedRow (enum : String → List String → List String) (order : List String → List String) (tb : CondTable) (t : Val) (present : Bool) (props : Val)
    (path : Path) (k : String) (s : BasedOn) : PyM (List BasedReport) :=
  if s.names = [] then .ok []
  else
    match objectWithoutNamed enum order tb props (k :: s.names) with
    | .error e => .error e
    | .ok sets => collectM (basedSet t present path k s) sets

/-- `_check_obj`, BasedOnValue.py:65-93, with the test for null of its two callers, BasedOnValue.py:95-110 and 112-127 -/
def basedCheck (enum : String → List String → List String) (order : List String → List String) (tb : CondTable) (t : Val) (present : Bool)
    (specs : List (String × List BasedOn)) (props : Val) (path : Path) : PyM (List BasedReport) :=
  if props = .none then .ok []
  else collectM (fun kv : String × List BasedOn => collectM (basedRow enum order tb t present props path kv.1) kv.2) specs

end CfnLint
