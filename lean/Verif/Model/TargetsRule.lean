import Verif.Model.Targets
/-
E3021 (rules/resources/events/RuleTargetsLimit.py) as a function of the template, the properties and their place. The rule object keeps its counts
between the calls; they are those of the calls before, on the resources of the type in the order of the template (rules/__init__.py:391-400), and
`initialize` (RuleTargetsLimit.py:24-25) empties them before the first. Simplified: a call that fails leaves the counts as they were, where
the rule would keep those of the values before the failure.
-/
namespace CfnLint

/-- the properties of one resource the rule is called on, rules/__init__.py:391-395 -/
def eventRule (kv : Key × Val) : List (Key × Val) :=
  match kv.2 with
  | .dict kvs =>
    match dlookup (.str "Type") kvs, dlookup (.str "Properties") kvs with
    | some (.str ty), some (.dict props) => if ty = "AWS::Events::Rule" then [(kv.1, .dict props)] else []
    | _, _ => []
  | _ => []

/-- the names and properties of the resources the rule is called on in order, rules/__init__.py:391-395 and RuleTargetsLimit.py:21 -/
def eventRules (t : Val) : List (Key × Val) :=
  match t with
  | .dict top =>
    match dlookup (.str "Resources") top with
    | some (.dict rs) => rs.flatMap eventRule
    | _ => []
  | _ => []

/-- the counts before the call on the resource with the name, RuleTargetsLimit.py:36-42 -/
def countsBefore (fuel : Nat) : TargetCounts → List (Key × Val) → Key → TargetCounts
  | c, [], _ => c
  | c, (k, props) :: rest, name =>
    if k = name then c
    else
      match targetsStep fuel c props [.str "Resources", k, .str "Properties"] with
      | .error _ => countsBefore fuel c rest name
      | .ok (c', _) => countsBefore fuel c' rest name

/-- the findings of the call on the properties, RuleTargetsLimit.py:45-60 -/
def targetsFrom (fuel : Nat) (c : TargetCounts) (rs : List (Key × Val)) (props : Val) (path : Path) : PyM (List Path) :=
  match path with
  | [_, name, _] =>
    match targetsStep fuel (countsBefore fuel c rs name) props path with
    | .error e => .error e
    | .ok (_, fs) => .ok fs
  | _ => .ok []

/-- the call on the properties of a resource of the template, RuleTargetsLimit.py:45-60 -/
def targetsIn (fuel : Nat) (t : Val) (kvs : List (Key × Val)) (_ : String) (path : Path) : PyM (List Path) :=
  targetsFrom fuel [] (eventRules t) (.dict kvs) path

end CfnLint
