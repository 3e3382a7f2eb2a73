import Verif.Model.CheckValue
import Verif.Model.Graph
/-
Model of the rules on the runtimes of functions, W2531 and E2531: rules/resources/lmbd/DeprecatedRuntime.py, DeprecatedRuntimeEol.py and
DeprecatedRuntimeEnd.py. The table LmbdRuntimeLifecycle.json is a parameter; its dates are read already (`strptime`) and are numbers, as is the
time of the run. A finding is its path; the message is not modelled. The parameters of the template are an object.
-/
namespace CfnLint

/-- the dates of a runtime: from the first it is not supported, from the second it cannot be used -/
structure Lifecycle where
  eol : Int
  deprecated : Int
deriving DecidableEq

/-- `check_runtime` of DeprecatedRuntimeEnd.py:18-33 -/
def runtimeEnded (now : Int) (r : Lifecycle) : Bool := decide (r.deprecated < now)

/-- `check_runtime` of DeprecatedRuntimeEol.py:18-34 -/
def runtimeEol (now : Int) (r : Lifecycle) : Bool := decide (r.eol < now) && decide (r.deprecated > now)

/-- `check_runtime`: the table is asked for the value, which lists and objects cannot be -/
def runtimeCheck (rows : List (String × Lifecycle)) (test : Lifecycle → Bool) (v : Val) (p : Path) : PyM (List Path) :=
  match v with
  | .list _ => .error (.typeError "unhashable type: 'list_node'")
  | .dict _ => .error (.typeError "unhashable type: 'dict_node'")
  | .str s =>
    match dlookup s rows with
    | some r => .ok (if test r then [p] else [])
    | none => .ok []
  | _ => .ok []

/-- the values that a parameter allows, DeprecatedRuntime.py:44-49 -/
def runtimeAllowed (rows : List (String × Lifecycle)) (test : Lifecycle → Bool) (k : Key) : Val → PyM (List Path)
  | .list xs => collectM (fun xi : Val × Nat => runtimeCheck rows test xi.1 [.str "Parameters", k, .str "AllowedValues", .int xi.2]) xs.zipIdx
  | _ => .ok []

/-- `check_ref`, DeprecatedRuntime.py:33-51 -/
def runtimeRef (rows : List (String × Lifecycle)) (test : Lifecycle → Bool) (params : List (Key × Val)) (v : Val) (_ : Path) : PyM (List Path) :=
  match v with
  | .list _ => .error (.typeError "unhashable type: 'list_node'")
  | .dict _ => .error (.typeError "unhashable type: 'dict_node'")
  | v =>
    match toKey v with
    | none => .ok []
    | some k =>
      match dlookup k params with
      | none => .ok []
      | some par =>
        match par.getD "Default" (.str "") with
        | .error e => .error e
        | .ok d =>
          match runtimeCheck rows test d [.str "Parameters", k, .str "Default"] with
          | .error e => .error e
          | .ok l =>
            match par.getD "AllowedValues" .none with
            | .error e => .error e
            | .ok a =>
              match runtimeAllowed rows test k a with
              | .error e => .error e
              | .ok l' => .ok (l ++ l')

/-- `match_resource_properties`, DeprecatedRuntime.py:53-65 -/
def runtimeRule (rows : List (String × Lifecycle)) (test : Lifecycle → Bool) (params : List (Key × Val)) (fuel : Nat) (props : Val) (path : Path) :
    PyM (List Path) :=
  checkValue fuel { value := some (runtimeCheck rows test), ref := some (runtimeRef rows test params) } props "Runtime" path

end CfnLint
