import Verif.Model.SubRule
import Verif.Model.Regex
import Verif.Model.Limits
import Verif.Model.Graph
/-
Model of E1020 (rules/functions/Ref.py), I1022 (rules/functions/SubNotJoin.py), E1026 (rules/functions/RefInCondition.py), E2014
(rules/parameters/DefaultRef.py), E7003 (rules/mappings/KeyName.py) and E1001 (rules/templates/Base.py). A finding is its path; the messages are not modelled.
-/
namespace CfnLint

/-- `match`, Ref.py:18-29 -/
def refTextRule (t globals : Val) : List Path :=
  (searchDeepKeys "Ref" t globals).flatMap (fun pw => match pw.2 with | .str _ => [] | _ => [pw.1])

/-- one `Fn::Join`, SubNotJoin.py:22-29 -/
def emptyJoin (pw : Path × Val) : PyM (List Path) :=
  match pw.2 with
  | .list [] => .error (.indexError "list index out of range")
  | .list (x :: _) => .ok (if x == .str "" then [pw.1] else [])
  | _ => .ok []

/-- `match`, SubNotJoin.py:17-29 -/
def subNotJoinRule (t globals : Val) : PyM (List Path) := collectM emptyJoin (searchDeepKeys "Fn::Join" t globals)

/-- `value in resource_names` for texts and integers, RefInCondition.py:26-27; booleans are integers. -/
def namedBy (names : List Key) (v : Val) : Bool :=
  match toKey v with
  | some k => decide (k ∈ names)
  | none => false

/-- `match`, RefInCondition.py:18-33 -/
def refInConditionRule (t globals : Val) : PyM (List Path) :=
  match resourceNamesOf t with
  | .error e => .error e
  | .ok names => .ok ((searchDeepKeys "Ref" t globals).flatMap (fun pw =>
      if pw.1.head? = some (.str "Conditions") ∧ namedBy names pw.2 = true then [pw.1] else []))

/-- `match`, DefaultRef.py:17-29: the path that is reported ends with the value. -/
def defaultRefRule (t globals : Val) : List (Path × Val) :=
  (searchDeepKeys "Ref" t globals).filter (fun pw => pw.1.head? == some (.str "Parameters"))

/-- `check_key`, KeyName.py:20-30 -/
def mapKeyCheck (alphanumeric : Bool) (key : Key) (path : Path) : List Path :=
  match key with
  | .int _ => [path]
  | .str s => if !regexAlphanumeric.matchesAll s && alphanumeric then [path] else []

/-- one mapping, KeyName.py:37-45 -/
def mapKeys (kv : Key × Val) : List Path :=
  match kv.2 with
  | .dict rows => rows.flatMap (fun row => mapKeyCheck false row.1 [.str "Mappings", kv.1, row.1] ++
      (match row.2 with
        | .dict cells => cells.flatMap (fun cell => mapKeyCheck true cell.1 [.str "Mappings", kv.1, row.1, cell.1])
        | _ => []))
  | _ => []

/-- `match`, KeyName.py:32-47 -/
def keyNameRule (t : Val) : PyM (List Path) :=
  match t.getD "Mappings" (.dict []) with
  | .error e => .error e
  | .ok (.dict ms) => .ok (ms.flatMap mapKeys)
  | .ok v => .error (attrErr v "items")

/-- the sections, template.py:24-36 -/
def topSections : List String :=
  ["AWSTemplateFormatVersion", "Description", "Metadata", "Parameters", "Mappings", "Conditions", "Transform", "Hooks", "Resources", "Outputs", "Rules"]

/-- `match`, Base.py:21-36 -/
def baseRule (top : List (Key × Val)) : List Path :=
  top.flatMap (fun kv => if topSections.any (fun s => Key.str s == kv.1) then [] else [[kv.1]]) ++
  (["Resources"].flatMap (fun y => if top.any (fun kv => kv.1 == Key.str y) then [] else [[Key.str y]]))

end CfnLint
