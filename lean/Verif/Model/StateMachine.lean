import Verif.Model.CheckValue
import Verif.Model.Refs
import Verif.Model.Graph
/-
Model of rule E2532 (rules/resources/stepfunctions/StateMachine.py). What `json.loads` makes of a value is a parameter: `none` says that it
raises, which the rule catches. A finding is its path and what was found; the words of the message are not modelled. The document that
was read is a plain one, not of template nodes, so that only the kinds of the errors are those of the code.
-/
namespace CfnLint

/-- what is found in a definition -/
inductive SmFault where
  /-- the value is no JSON -/
  | noJson
  /-- a key that a definition cannot have -/
  | topKey (k : Key)
  /-- a key that a definition must have -/
  | topMissing (k : String)
  /-- a state with a key that it cannot have -/
  | stateKey (name k : Key)
  /-- a state without a key that it must have -/
  | stateMissing (name : Key) (k : String)
  /-- a state of an unknown type -/
  | stateType (name : Key)
deriving DecidableEq

/-- `common_state_keys`, StateMachine.py:30-37 -/
def smCommon : List String := ["Next", "End", "Type", "Comment", "InputPath", "OutputPath"]

/-- `state_key_types`, StateMachine.py:41-52 -/
def smKeys : List (String × List String) :=
  [("Pass", ["Result", "ResultPath", "Parameters"]),
   ("Task", ["Resource", "ResultPath", "Retry", "Catch", "TimeoutSeconds", "Parameters", "HeartbeatSeconds"]),
   ("Map", ["MaxConcurrency", "Iterator", "ItemsPath", "ResultPath", "Retry", "Catch", "Parameters"]),
   ("Choice", ["Choices", "Default"]),
   ("Wait", ["Seconds", "Timestamp", "SecondsPath", "TimestampPath"]),
   ("Succeed", []),
   ("Fail", ["Cause", "Error"]),
   ("Parallel", ["Branches", "ResultPath", "Retry", "Catch"])]

/-- `state_required_types`, StateMachine.py:53-61 -/
def smRequired : List (String × List String) :=
  [("Pass", []), ("Task", ["Resource"]), ("Choice", ["Choices"]), ("Wait", []), ("Succeed", []), ("Fail", []), ("Parallel", ["Branches"])]

/-- a key is in a list of strings -/
def smKeyIn (k : Key) (l : List String) : Bool := l.any (fun s => k == Key.str s)

/-- the loop over the required keys, StateMachine.py:78-83: it ends at the first that is missing -/
def smFirst (name : Key) (kvs : List (Key × Val)) : List String → List SmFault
  | [] => []
  | r :: rest => if dhas (Key.str r) kvs then smFirst name kvs rest else [.stateMissing name r]

/-- `_check_state_json`, StateMachine.py:25-88. A state that is no object but has the word `Type` in it has no method `get`; a type that is
a list or an object cannot be looked up in a table. -/
def smState (name : Key) (v : Val) : PyM (List SmFault) :=
  match pyIn "Type" v with
  | .error e => .error e
  | .ok false => .ok [.stateMissing name "Type"]
  | .ok true =>
    match v with
    | .dict kvs =>
      match (dlookup (Key.str "Type") kvs).getD .none with
      | .list _ => .error (.typeError "unhashable type: 'list'")
      | .dict _ => .error (.typeError "unhashable type: 'dict'")
      | .str ty =>
        match dlookup ty smKeys with
        | some keys =>
          .ok ((kvs.filter (fun kv => !smKeyIn kv.1 (smCommon ++ keys))).map (fun kv => .stateKey name kv.1) ++
            smFirst name kvs ("Type" :: (dlookup ty smRequired).getD []))
        | none => .ok [.stateType name]
      | _ => .ok [.stateType name]
    | v => .error (attrErr v "get")

/-- `top_level_keys`, StateMachine.py:94-100 -/
def smTop : List String := ["Comment", "StartAt", "TimeoutSeconds", "Version", "States"]

/-- `_check_definition_json`, StateMachine.py:90-117 -/
def smDefinition (d : Val) : PyM (List SmFault) :=
  match itemsOf d with
  | .error e => .error e
  | .ok kvs =>
    match itemsOf ((dlookup (Key.str "States") kvs).getD (.dict [])) with
    | .error e => .error e
    | .ok states =>
      match collectM (fun kv => smState kv.1 kv.2) states with
      | .error e => .error e
      | .ok l => .ok ((kvs.filter (fun kv => !smKeyIn kv.1 smTop)).map (fun kv => .topKey kv.1) ++
          (["StartAt", "States"].filter (fun r => !dhas (Key.str r) kvs)).map .topMissing ++ l)

/-- `check_value`, StateMachine.py:119-135; `fail` is `fail_on_loads` -/
def smValue (loads : Val → Option Val) (fail : Bool) (v : Val) (p : Path) : PyM (List (Path × SmFault)) :=
  match loads v with
  | none => .ok (if fail then [(p, .noJson)] else [])
  | some d =>
    match smDefinition d with
    | .error e => .error e
    | .ok l => .ok (l.map (fun f => (p, f)))

/-- `check_sub`, StateMachine.py:137-145 -/
def smSub (loads : Val → Option Val) (v : Val) (p : Path) : PyM (List (Path × SmFault)) :=
  match v with
  | .list [] => .error (.indexError "list index out of range")
  | .list (x :: _) => smValue loads false x p
  | .str s => smValue loads false (.str s) p
  | _ => .ok []

/-- `match_resource_properties`, StateMachine.py:147-159 -/
def stateMachineRule (loads : Val → Option Val) (fuel : Nat) (props : Val) (path : Path) : PyM (List (Path × SmFault)) :=
  checkValue fuel { value := some (smValue loads true), sub := some (smSub loads) } props "DefinitionString" path

end CfnLint
