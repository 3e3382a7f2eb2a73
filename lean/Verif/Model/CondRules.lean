import Verif.Model.CheckValue
import Verif.Model.Graph
/-
Model of the rules about the use of conditions: W8001 (rules/conditions/Used.py:20-58) and E8002
(rules/conditions/Exists.py:18-63). A finding is the path it is reported at and the name of the condition.
-/
namespace CfnLint

/-- Used.py:31-36: what an `Fn::If` contributes; `iftree[-1][0]` of an empty list raises. -/
def ifUse (f : Path × Val) : PyM (List Val) :=
  match f.2 with
  | .list [] => .error (.indexError "list index out of range")
  | .list (x :: _) => .ok [x]
  | v => .ok [v]

/-- `condtree[0] == 'Conditions'` -/
def inConditions (p : Path) : Bool := p.head? == some (.str "Conditions")

/-- Used.py:39-43: the conditions named by a `Condition` key inside the `Conditions` section -/
def conditionRefs (t globals : Val) : List Val :=
  ((searchDeepKeys "Condition" t globals).filter (fun f => inConditions f.1)).filterMap (fun f =>
    match f.2 with
    | .str s => some (.str s)
    | _ => none)

/-- Used.py:46-48: the conditions of the resources -/
def resourceConditions (t : Val) : List Val :=
  (resourcesOfType [] t).filterMap (fun r => dlookup (Key.str "Condition") r.2)

/-- Used.py:52-53: `if 'Condition' in output_values: ... output_values['Condition']` -/
def outputUse (o : Key × Val) : PyM (List Val) :=
  match pyIn "Condition" o.2 with
  | .error e => .error e
  | .ok false => .ok []
  | .ok true =>
    match o.2.subscript (.str "Condition") with
    | .error e => .error e
    | .ok v => .ok [v]

/-- `cfn.template.get('Outputs', {}).items()` -/
def outputsOf (t : Val) : PyM (List (Key × Val)) :=
  match t.getD "Outputs" (.dict []) with
  | .error e => .error e
  | .ok s => itemsOf s

/-- all of `ref_conditions`, Used.py:29-53 -/
def usedConditions (t globals : Val) : PyM (List Val) := do
  let ifs ← collectM ifUse (searchDeepKeys "Fn::If" t globals)
  let os ← outputsOf t
  let outs ← collectM outputUse os
  .ok (ifs ++ conditionRefs t globals ++ resourceConditions t ++ outs)

/-- Rule W8001, Used.py:20-58. `condname not in ref_conditions` compares by value; `True` and `1` are
equal, floats are not identified with integers here. -/
def unusedConditions (t globals : Val) : PyM (List (Path × Key)) :=
  match t.getD "Conditions" (.dict []) with
  | .error e => .error e
  | .ok conditions =>
    if conditions.truthy then
      match usedConditions t globals with
      | .error e => .error e
      | .ok uses =>
        match itemsOf conditions with
        | .error e => .error e
        | .ok cs => .ok ((cs.filter (fun c => uses.all (fun u => toKey u != some c.1))).map
            (fun c => ([.str "Conditions", c.1], c.1)))
    else .ok []

/-! ### E8002 -/

/-- Exists.py:26-30: an `Fn::If` whose first element is a string. The recorded path carries the value as a
last element, which does not change the location (template.py:464-502); it is left out here. -/
def ifDemand (f : Path × Val) : PyM (List (Key × Path)) :=
  match f.2 with
  | .list [] => .error (.indexError "list index out of range")
  | .list (.str c :: _) => .ok [(.str c, f.1)]
  | _ => .ok []

/-- Exists.py:33-37 -/
def resourceDemand (t : Val) : List (Key × Path) :=
  (resourcesOfType [] t).filterMap (fun r =>
    match dlookup (Key.str "Condition") r.2 with
    | some (Val.str c) => some (Key.str c, [.str "Resources", r.1, .str "Condition"])
    | _ => none)

/-- Exists.py:40-46 -/
def conditionDemand (t globals : Val) : List (Key × Path) :=
  ((searchDeepKeys "Condition" t globals).filter (fun f => inConditions f.1)).filterMap (fun f =>
    match f.2 with
    | .str s => some (Key.str s, [.str "Conditions", .str s])
    | _ => none)

/-- Exists.py:49-52; a value that cannot be a key of a dictionary raises, `None` and floats as names are not
modelled (an error here). -/
def outputDemand (o : Key × Val) : PyM (List (Key × Path)) :=
  match pyIn "Condition" o.2 with
  | .error e => .error e
  | .ok false => .ok []
  | .ok true =>
    match o.2.subscript (.str "Condition") with
    | .error e => .error e
    | .ok v =>
      match toKey v with
      | none => .error (.typeError "unhashable type")
      | some k => .ok [(k, [.str "Outputs", k])]

/-- `ref_conditions[name] = path` for all of them, Exists.py:26-52: a later path replaces an earlier one -/
def demandedConditions (t globals : Val) : PyM (List (Key × Path)) := do
  let ifs ← collectM ifDemand (searchDeepKeys "Fn::If" t globals)
  let os ← outputsOf t
  let outs ← collectM outputDemand os
  .ok ((ifs ++ resourceDemand t ++ conditionDemand t globals ++ outs).foldl
    (fun d kp => dset kp.1 kp.2 d) [])

/-- `ref_condition not in conditions` -/
def memKey (k : Key) (v : Val) : PyM Bool :=
  match v with
  | .dict kvs => .ok (dhas k kvs)
  | .list xs => .ok (xs.any (fun x => toKey x == some k))
  | .str s =>
    match k with
    | .str c => .ok (decide (c.toList <:+: s.toList))
    | .int _ => .error (.typeError "'in <string>' requires string as left operand")
  | _ => .error (.typeError "argument is not iterable")

/-- Rule E8002, Exists.py:18-63 -/
def undefinedConditions (t globals : Val) : PyM (List (Path × Key)) :=
  match t.getD "Conditions" (.dict []) with
  | .error e => .error e
  | .ok conditions =>
    match demandedConditions t globals with
    | .error e => .error e
    | .ok ds => collectM (fun d => (memKey d.1 conditions).map (fun b => if b then [] else [(d.2, d.1)])) ds

end CfnLint
