import Verif.Model.CondGrammar
import Verif.Model.Sub
/-
Model of the rules on the form of calls: E1028 (rules/functions/If.py), E1017 (Select.py), E1018 (Split.py), E1016
(ImportValue.py), E1021 (Base64.py), E1015 (GetAz.py) and E1023 (Not.py), all in rules/functions. A finding is its path; E1023
appends the value itself to the path, which is left out here. Messages are not modelled.
-/
namespace CfnLint

/-- the loop all these rules share: the results of the search are checked one by one -/
def callRule (fn : String) (check : Path → Val → PyM (List Path)) (t globals : Val) : PyM (List Path) :=
  collectM (fun f => check f.1 f.2) (searchDeepKeys fn t globals)

/-- whether a value is a text -/
def isText : Val → Bool
  | .str _ => true
  | _ => false

/-- If.py:26-43 -/
def ifShape (p : Path) : Val → PyM (List Path)
  | .list [] => .error (.indexError "list index out of range")
  | .list (c :: xs) => .ok ((if xs.length ≠ 2 then [p] else []) ++ (if isText c then [] else [p ++ [.int 0]]))
  | _ => .ok [p]

/-- `int(s)` for a text does not raise; digits outside ASCII are not modelled -/
def isIntText (s : String) : Bool :=
  match pyStrip s.toList with
  | '-' :: cs => (pyDigits none cs).isSome
  | '+' :: cs => (pyDigits none cs).isSome
  | cs => (pyDigits none cs).isSome

/-- whether the index passes, Select.py:40-53; objects with several keys pass -/
def selectIndex : Val → PyM Bool
  | .dict [(k, _)] => .ok (isKeyIn k ["Ref", "Fn::FindInMap"])
  | .dict _ => .ok true
  | .int _ => .ok true
  | .bool _ => .ok true
  | .str s => .ok (isIntText s)
  | .flt r => if r = "nan" then .ok false else if r = "inf" ∨ r = "-inf" then .error (.other "OverflowError") else .ok true
  | _ => .error (.typeError "int() argument must be a string, a bytes-like object or a number")

/-- `supported_functions`, Select.py:23-31 -/
def selectFunctions : List String := ["Fn::FindInMap", "Fn::GetAtt", "Fn::GetAZs", "Fn::If", "Fn::Split", "Fn::Cidr", "Ref"]

/-- whether the list passes, Select.py:54-68 -/
def selectList : Val → Bool
  | .dict [(k, _)] => isKeyIn k selectFunctions
  | .list _ => true
  | _ => false

/-- Select.py:34-76 -/
def selectShape (p : Path) : Val → PyM (List Path)
  | .list [i, l] =>
    match selectIndex i with
    | .error e => .error e
    | .ok b => .ok ((if b then [] else [p]) ++ (if selectList l then [] else [p]))
  | _ => .ok [p]

/-- `supported_functions`, Split.py:23-34 -/
def splitFunctions : List String :=
  ["Fn::Base64", "Fn::FindInMap", "Fn::GetAZs", "Fn::GetAtt", "Fn::If", "Fn::ImportValue", "Fn::Join", "Fn::Select", "Fn::Sub", "Ref"]

/-- Split.py:47-61 -/
def splitSource (p : Path) : Val → List Path
  | .dict [(k, _)] => if isKeyIn k splitFunctions then [] else [p ++ [k]]
  | .str _ => []
  | _ => [p]

/-- Split.py:37-69 -/
def splitShape (p : Path) : Val → PyM (List Path)
  | .list [d, s] => .ok ((if isText d then [] else [p ++ [.int 0]]) ++ splitSource p s)
  | _ => .ok [p]

/-- `supported_functions`, ImportValue.py:23-32 -/
def importFunctions : List String :=
  ["Fn::Base64", "Fn::FindInMap", "Fn::If", "Fn::Join", "Fn::Select", "Fn::Split", "Fn::Sub", "Ref"]

/-- ImportValue.py:39-59 -/
def importShape (p : Path) (v : Val) : PyM (List Path) :=
  .ok ((if p.head? = some (.str "Conditions") then [p] else []) ++
    (match v with
    | .dict [(k, _)] => if isKeyIn k importFunctions then [] else [p]
    | .str _ => []
    | _ => [p]))

/-- Base64.py:23-39 -/
def base64Shape (p : Path) : Val → PyM (List Path)
  | .dict [(k, _)] => .ok (if k = .str "Fn::Split" then [p] else [])
  | .str _ => .ok []
  | _ => .ok [p]

/-- GetAz.py:24-45; `regions` are the regions of the run -/
def getAzShape (regions : List String) (p : Path) : Val → PyM (List Path)
  | .str s => .ok (if s ≠ "" ∧ s ∉ regions then [p] else [])
  | .dict [(k, v)] => .ok (if k ≠ .str "Ref" ∨ v ≠ .str "AWS::Region" then [p] else [])
  | .dict _ => .ok [p]
  | _ => .ok []

/-- Not.py:22-24 -/
def notShape (p : Path) : Val → PyM (List Path)
  | .list _ => .ok []
  | _ => .ok [p]

/-- rule E1028, If.py:18-45 -/
def ifRule : Val → Val → PyM (List Path) := callRule "Fn::If" ifShape
/-- rule E1017, Select.py:18-77 -/
def selectRule : Val → Val → PyM (List Path) := callRule "Fn::Select" selectShape
/-- rule E1018, Split.py:18-70 -/
def splitRule : Val → Val → PyM (List Path) := callRule "Fn::Split" splitShape
/-- rule E1016, ImportValue.py:18-60 -/
def importRule : Val → Val → PyM (List Path) := callRule "Fn::ImportValue" importShape
/-- rule E1021, Base64.py:18-41 -/
def base64Rule : Val → Val → PyM (List Path) := callRule "Fn::Base64" base64Shape
/-- rule E1015, GetAz.py:18-46 -/
def getAzRule (regions : List String) : Val → Val → PyM (List Path) := callRule "Fn::GetAZs" (getAzShape regions)
/-- rule E1023, Not.py:17-26 -/
def notRule : Val → Val → PyM (List Path) := callRule "Fn::Not" notShape

end CfnLint
