import Verif.Model.CheckValue
/-
Model of E3021 (rules/resources/events/RuleTargetsLimit.py). A finding is its path. The counts are kept in the rule object between the resources;
`initialize` (RuleTargetsLimit.py:24-25) empties them for each template.
-/
namespace CfnLint

/-- `self.limits`: the name, the count and the path without its last element -/
abbrev TargetCounts := List (Key × Nat × Path)

/-- `'%s' % key` -/
def textOfKey : Key → String
  | .str s => s
  | .int i => toString i

/-- the name under which a target is counted, RuleTargetsLimit.py:31-34 -/
def targetName (p : Path) : PyM Key :=
  match p with
  | _ :: name :: _ :: _ :: k :: rest =>
    if k = .str "Fn::If" then
      match rest with
      | b :: _ => .ok (.str (textOfKey name ++ "." ++ textOfKey b))
      | [] => .error (.indexError "list index out of range")
    else .ok name
  | _ :: name :: _ => .ok name
  | _ => .error (.indexError "list index out of range")

/-- `check_value`, RuleTargetsLimit.py:28-43 -/
def countTarget (c : TargetCounts) (p : Path) : PyM TargetCounts :=
  match targetName p with
  | .error e => .error e
  | .ok k =>
    match dlookup k c with
    | none => .ok (c ++ [(k, 1, p.dropLast)])
    | some _ => .ok (c.map (fun e => if e.1 = k then (e.1, e.2.1 + 1, e.2.2) else e))

/-- the calls of `check_value` in order -/
def countTargets : TargetCounts → List Path → PyM TargetCounts
  | c, [] => .ok c
  | c, p :: ps =>
    match countTarget c p with
    | .error e => .error e
    | .ok c' => countTargets c' ps

/-- the values for which `check_value` is called, RuleTargetsLimit.py:48-53 -/
def targetPlaces (fuel : Nat) (props : Val) (path : Path) : PyM (List Path) :=
  checkValue fuel { value := some (fun _ p => .ok [p]) } props "Targets" path

/-- the counts above the limit, RuleTargetsLimit.py:55-58 -/
def overLimit (c : TargetCounts) : List Path := c.flatMap (fun e => if 5 < e.2.1 then [e.2.2] else [])

/-- `match_resource_properties`, RuleTargetsLimit.py:45-60: the counts afterwards and the findings -/
def targetsStep (fuel : Nat) (c : TargetCounts) (props : Val) (path : Path) : PyM (TargetCounts × List Path) :=
  match targetPlaces fuel props path with
  | .error e => .error e
  | .ok ps =>
    match countTargets c ps with
    | .error e => .error e
    | .ok c' => .ok (c', overLimit c')

/-- the rule on the resources of a template, one after the other -/
def targetsRun (fuel : Nat) : TargetCounts → List (Key × Val) → PyM (List Path)
  | _, [] => .ok []
  | c, (name, props) :: rest =>
    match targetsStep fuel c props [.str "Resources", name, .str "Properties"] with
    | .error e => .error e
    | .ok (c', fs) =>
      match targetsRun fuel c' rest with
      | .error e => .error e
      | .ok gs => .ok (fs ++ gs)

end CfnLint
