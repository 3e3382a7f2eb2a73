import Verif.Model.Sub
import Verif.Model.Rules
/-
Model of rule W4002 (rules/resources/NoEcho.py). A finding is its path and the name of the parameter; the texts of the messages are
not modelled.
-/
namespace CfnLint

/-- the body of the loop of `_get_no_echo_params`, NoEcho.py:22-24 -/
def noEchoOne (kv : Key × Val) : PyM (List Key) :=
  match kv.2.getD "NoEcho" (.bool false) with
  | .error e => .error e
  | .ok v => .ok (if boolCompareTrue v then [kv.1] else [])

/-- `_get_no_echo_params`, NoEcho.py:18-26 -/
def noEchoParams (t : Val) : PyM (List Key) :=
  match parameterItems t with
  | .error e => .error e
  | .ok ps => collectM noEchoOne ps

/-- a result of `search_deep_keys` as a list: the path and then the value -/
def fullPath (f : Path × Val) : List Val := f.1.map Key.toVal ++ [f.2]

/-- `ref[0] == 'Resources' and ref[2] == 'Metadata'`, NoEcho.py:35 and 54 -/
def inMetadata (full : List Val) : Bool :=
  full[0]? == some (.str "Resources") && full[2]? == some (.str "Metadata")

/-- the body of the loop of `_check_ref`, NoEcho.py:33-40 -/
def noEchoRef (ps : List Key) (f : Path × Val) : List (List Val × Key) :=
  match toKey f.2 with
  | none => []
  | some k => if k ∈ ps then if 3 < (fullPath f).length then if inMetadata (fullPath f) then [(fullPath f, k)] else [] else [] else []

/-- the body of the loop over the variables, NoEcho.py:52-60 -/
def noEchoVar (ps : List Key) (f : Path × Val) (x : String) : List (List Val × Key) :=
  if Key.str x ∈ ps then
    if 2 < (fullPath f).length then if inMetadata (fullPath f) then [(f.1.map Key.toVal, .str x)] else [] else []
  else []

/-- the body of the loop of `_check_sub`, NoEcho.py:49-60 -/
def noEchoSub (ps : List Key) (f : Path × Val) : List (List Val × Key) :=
  match f.2 with
  | .str s => (subParams s).flatMap (noEchoVar ps f)
  | _ => []

/-- `match`, NoEcho.py:64-72 -/
def noEchoRule (t globals : Val) : PyM (List (List Val × Key)) :=
  match noEchoParams t with
  | .error e => .error e
  | .ok [] => .ok []
  | .ok ps =>
    .ok ((searchDeepKeys "Ref" t globals).flatMap (noEchoRef ps) ++ (searchDeepKeys "Fn::Sub" t globals).flatMap (noEchoSub ps))

end CfnLint
