import Verif.Model.Regex
import Verif.Model.Config
import Verif.Model.Scenario
import Verif.Model.ResProps
/-
Model of E3020 (rules/resources/route53/RecordSet.py:20-266). A finding is its path. `v6` stands for REGEX_IPV6, which uses
look-ahead and references to groups; `below` for `get_condition_scenarios_below_path`. `isdigit` is modelled for ASCII digits. When a
record of type MX has a good priority and a bad name the code uses the variable `message` before it has a value (line 137).
-/
namespace CfnLint

/-- the text before and behind the first occurrence of a character -/
def cutAt (c : Char) : List Char → Option (List Char × List Char)
  | [] => none
  | x :: xs => if x = c then some ([], xs) else (cutAt c xs).map (fun ab => (x :: ab.1, ab.2))

/-- `s.isdigit()` -/
def isDigits (l : List Char) : Bool := !l.isEmpty && l.all (fun c => c.isDigit)

/-- `re.match` on a part of a text -/
def Rx.matchesPart (r : Rx) (l : List Char) : Bool := r.matchesAll (String.ofList l)

/-- `check_record`, RecordSet.py:48-54 -/
def checkRecord (ok : String → Bool) (v : Val) (p : Path) : PyM (List Path) :=
  match v with
  | .str s => .ok (if ok s then [] else [p])
  | _ => .ok []

/-- `check_caa_record`, RecordSet.py:62-95 -/
def checkCaa (v : Val) (p : Path) : PyM (List Path) :=
  match v with
  | .str s =>
    match cutAt ' ' s.toList with
    | none => .ok [p]
    | some (flag, r) =>
      match cutAt ' ' r with
      | none => .ok [p]
      | some (tag, value) =>
        .ok ((if isDigits flag then (if pyDigits none flag = some 0 ∨ pyDigits none flag = some 128 then [] else [p]) else [p]) ++
          (if regexAlphanumeric.matchesPart tag then [] else [p]) ++
          (if value.head? = some '"' ∧ value.getLast? = some '"' then [] else [p]))
  | _ => .ok []

/-- `check_cname_record`, RecordSet.py:97-109 -/
def checkCname (v : Val) (p : Path) : PyM (List Path) :=
  match v with
  | .dict _ => .ok []
  | .str s => .ok (if regexDomain.matchesAll s || regexCname.matchesAll s then [] else [p])
  | _ => .error (.typeError "expected string or bytes-like object")

/-- `check_mx_record`, RecordSet.py:111-139 -/
def checkMx (v : Val) (p : Path) : PyM (List Path) :=
  match v with
  | .str s =>
    match splitOn ' ' s.toList with
    | [priority, name] =>
      if isDigits priority = true ∧ (pyDigits none priority).getD 0 ≤ 65535 then
        (if regexDomain.matchesPart name then .ok [] else .error (.other "UnboundLocalError"))
      else .ok (p :: (if regexDomain.matchesPart name then [] else [p]))
    | _ => .ok [p]
  | _ => .ok []

/-- `check_txt_record`, RecordSet.py:147-161 -/
def checkTxt (v : Val) (p : Path) : PyM (List Path) :=
  match v with
  | .dict _ => .ok []
  | .str s => .ok (if regexTxt.matchesAll s then [] else [p])
  | _ => .error (.typeError "expected string or bytes-like object")

/-- the check for a type of record, RecordSet.py:177-236 -/
def recordCheck (v6 : String → Bool) : String → Option (Val → Path → PyM (List Path))
  | "A" => some (checkRecord regexIpv4.matchesAll)
  | "AAAA" => some (checkRecord v6)
  | "CAA" => some checkCaa
  | "CNAME" => some checkCname
  | "MX" => some checkMx
  | "NS" => some (checkRecord regexDomain.matchesAll)
  | "PTR" => some (checkRecord regexDomain.matchesAll)
  | "TXT" => some checkTxt
  | _ => none

/-- `len(v)` -/
def cnameLen : Val → PyM Nat
  | .str s => .ok s.length
  | .list xs => .ok xs.length
  | .dict kvs => .ok kvs.length
  | _ => .error (.typeError "object has no len()")

/-- `count_c_names`, RecordSet.py:26-46 -/
def countCnames (below : Path → PyM (List Scenario)) (records : Val) (path : Path) : PyM (List Path) :=
  match below path with
  | .error e => .error e
  | .ok scenarios =>
    match objectsDeep scenarios records with
    | .error e => .error e
    | .ok objs => collectM (fun so : Option Scenario × Val =>
        match cnameLen so.2 with
        | .error e => .error e
        | .ok n => .ok (if n > 1 then [path] else [])) objs

/-- `check_recordset`, RecordSet.py:164-238 -/
def checkRecordset (v6 : String → Bool) (below : Path → PyM (List Scenario)) (fuel : Nat) (path : Path) (rs : Val) : PyM (List Path) :=
  match rs with
  | .dict kvs =>
    if ((dlookup (Key.str "Type") kvs).getD .none).isDict then .ok []
    else if ((dlookup (Key.str "AliasTarget") kvs).getD .none).truthy then .ok []
    else if !((dlookup (Key.str "ResourceRecords") kvs).getD .none).truthy then .ok []
    else
      match dlookup (Key.str "Type") kvs with
      | some (.str ty) =>
        match recordCheck v6 ty with
        | none => .ok []
        | some check =>
          match (if ty = "CNAME" then countCnames below ((dlookup (Key.str "ResourceRecords") kvs).getD .none) (path ++ [.str "ResourceRecords"])
            else .ok []) with
          | .error e => .error e
          | .ok a =>
            match checkValue fuel { value := some check } (.dict kvs) "ResourceRecords" path with
            | .error e => .error e
            | .ok b => .ok (a ++ b)
      | _ => .ok []
  | rs => .error (attrErr rs "get")

/-- the records of a group, RecordSet.py:258-264 -/
def checkGroup (v6 : String → Bool) (below : Path → PyM (List Scenario)) (fuel : Nat) (pv : Path × Val) : PyM (List Path) :=
  match pv.2 with
  | .list xs => collectM (fun xi : Val × Nat => checkRecordset v6 below fuel (pv.1 ++ [.int xi.2]) xi.1) xs.zipIdx
  | _ => .ok []

/-- `match`, RecordSet.py:240-266 -/
def recordRule (v6 : String → Bool) (below : Path → PyM (List Scenario)) (fuel : Nat) (t : Val) : PyM (List Path) :=
  match collectM (fun nr : Key × List (Key × Val) =>
      let props := (dlookup (Key.str "Properties") nr.2).getD .none
      if props.truthy then checkRecordset v6 below fuel [.str "Resources", nr.1, .str "Properties"] props else .ok [])
      (resourcesOfType ["AWS::Route53::RecordSet"] t) with
  | .error e => .error e
  | .ok a =>
    match resourceProperties fuel "AWS::Route53::RecordSetGroup" ["RecordSets"] t with
    | .error e => .error e
    | .ok groups =>
      match collectM (checkGroup v6 below fuel) groups with
      | .error e => .error e
      | .ok b => .ok (a ++ b)

end CfnLint
