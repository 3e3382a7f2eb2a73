import Verif.Model.FnShape
import Verif.Model.Regex
/-
Model of E1024 (rules/functions/Cidr.py:21-163). A finding is its path. `fltOk` stands for the comparison of a float with the bounds
of a parameter. The order in which the collected parameters are looked at (a Python set) is taken to be that of the calls, with
repetitions; only which findings there are is compared.
-/
namespace CfnLint

/-- `supported_functions`, Cidr.py:78-85 -/
def cidrFunctions : List String := ["Fn::FindInMap", "Fn::Select", "Ref", "Fn::GetAtt", "Fn::Sub", "Fn::ImportValue"]

/-- whether the block passes, Cidr.py:102-117; objects with several keys pass -/
def cidrBlock : Val → Bool
  | .dict [(k, _)] => isKeyIn k cidrFunctions
  | .dict _ => true
  | .str s => regexCidr.matchesAll s
  | _ => false

/-- whether the count or the mask passes, Cidr.py:119-147; Booleans are integers -/
def cidrNumber : Val → Bool
  | .dict [(k, _)] => isKeyIn k cidrFunctions
  | .dict _ => true
  | .int _ => true
  | .bool _ => true
  | _ => false

/-- Cidr.py:91-156; a missing mask is `None` and reported -/
def cidrShape (p : Path) : Val → PyM (List Path)
  | .list [b, c] => .ok ((if cidrBlock b then [] else [p ++ [.int 0]]) ++ (if cidrNumber c then [] else [p ++ [.int 1]]) ++ [p ++ [.int 2]])
  | .list [b, c, m] =>
    .ok ((if cidrBlock b then [] else [p ++ [.int 0]]) ++ (if cidrNumber c then [] else [p ++ [.int 1]]) ++
      (if cidrNumber m then [] else [p ++ [.int 2]]))
  | _ => .ok [p]

/-- the argument of a `Ref` -/
def refArgument : Val → List Val
  | .dict [(.str "Ref", r)] => [r]
  | _ => []

/-- what is added to `count_parameters`, Cidr.py:126-127 -/
def cidrCounts : Val → List Val
  | .list [_, c] => refArgument c
  | .list [_, c, _] => refArgument c
  | _ => []

/-- what is added to `size_mask_parameters`, Cidr.py:141-142 -/
def cidrMasks : Val → List Val
  | .list [_, _, m] => refArgument m
  | _ => []

/-- `not (not v or v < 1 or v > 256)`, Cidr.py:31-35 and 56-61 -/
def cidrBound (fltOk : String → Bool) (v : Val) : PyM Bool :=
  if v.truthy then
    match v with
    | .int n => .ok (decide (1 ≤ n) && decide (n ≤ 256))
    | .bool _ => .ok true
    | .flt r => .ok (fltOk r)
    | _ => .error (.typeError "'<' not supported")
  else .ok false

/-- `check_parameter_count` and `check_parameter_size_mask`, Cidr.py:21-71: they differ in their messages only -/
def cidrParameter (fltOk : String → Bool) (t : Val) (v : Val) : PyM (List Path) :=
  match v with
  | .list _ => .error (.typeError "unhashable type")
  | .dict _ => .error (.typeError "unhashable type")
  | v =>
    match t.getD "Parameters" (.dict []) with
    | .error e => .error e
    | .ok s =>
      match itemsOf (if s.truthy then s else .dict []) with
      | .error e => .error e
      | .ok ps =>
        match (toKey v).bind (fun k => (dlookup k ps).map (fun o => (k, o))) with
        | none => .ok []
        | some (k, o) =>
          if o.truthy then
            match o.getD "Type" .none with
            | .error e => .error e
            | .ok ty =>
              if ty = .str "Number" then
                match o.getD "MaxValue" .none, o.getD "MinValue" .none with
                | .ok hi, .ok lo =>
                  match cidrBound fltOk lo with
                  | .error e => .error e
                  | .ok a =>
                    match cidrBound fltOk hi with
                    | .error e => .error e
                    | .ok b => .ok ((if a then [] else [[.str "Parameters", k, .str "MinValue"]]) ++
                        (if b then [] else [[.str "Parameters", k, .str "MaxValue"]]))
                | .error e, _ => .error e
                | _, .error e => .error e
              else .ok [[.str "Parameters", k]]
          else .ok []

/-- `match`, Cidr.py:73-163 -/
def cidrRule (fltOk : String → Bool) (t globals : Val) : PyM (List Path) :=
  match callRule "Fn::Cidr" cidrShape t globals with
  | .error e => .error e
  | .ok a =>
    match collectM (cidrParameter fltOk t) ((searchDeepKeys "Fn::Cidr" t globals).flatMap (fun f => cidrCounts f.2)) with
    | .error e => .error e
    | .ok b =>
      match collectM (cidrParameter fltOk t) ((searchDeepKeys "Fn::Cidr" t globals).flatMap (fun f => cidrMasks f.2)) with
      | .error e => .error e
      | .ok c => .ok (a ++ b ++ c)

end CfnLint
