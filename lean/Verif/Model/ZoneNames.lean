import Verif.Model.PropSets
/-
Model of rule E3041 (rules/resources/route53/RecordSetName.py). A finding carries its path and its
scenario; the property named last in the path tells the two messages apart.
-/
namespace CfnLint

structure ZoneReport where
  path : Path
  scenario : Option Scenario
deriving DecidableEq

/-- `s[:-1] if s[-1] == '.' else s`, RecordSetName.py:43-46; `s[-1]` of an empty text raises -/
def withoutDot (s : List Char) : PyM (List Char) :=
  match s.getLast? with
  | none => .error (.indexError "string index out of range")
  | some c => .ok (if c = '.' then s.dropLast else s)

/-- `s[-n:]`: the last `n` characters, but all of them for `n = 0` -/
def lastChars (n : Nat) (s : List Char) : List Char := if n = 0 then s else s.drop (s.length - n)

/-- the body of the loop, RecordSetName.py:32-57, for two texts -/
def zoneTexts (path : Path) (sc : Option Scenario) (name hz : List Char) : PyM (List ZoneReport) :=
  match hz.getLast? with
  | none => .error (.indexError "string index out of range")
  | some c =>
    let dot : List ZoneReport := if c = '.' then [] else [⟨path ++ [.str "HostedZoneName"], sc⟩]
    match withoutDot hz with
    | .error e => .error e
    | .ok hz' =>
      match withoutDot name with
      | .error e => .error e
      | .ok name' =>
        .ok (dot ++ (if hz' = name' ∨ hz' = lastChars hz'.length name' then []
          else [⟨path ++ [.str "Name"], sc⟩]))

/-- the loop, RecordSetName.py:27-57 -/
def zoneSet (path : Path) (set : Option Scenario × Val) : PyM (List ZoneReport) :=
  match set.2.getD "Name" .none with
  | .error e => .error e
  | .ok name =>
    match set.2.getD "HostedZoneName" .none with
    | .error e => .error e
    | .ok hz =>
      match name, hz with
      | .str n, .str z => zoneTexts path set.1 n.toList z.toList
      | _, _ => .ok []

/-- the properties that are looked at, RecordSetName.py:26 -/
def zoneProps : List String := ["Name", "HostedZoneName"]

/-- `match_resource_properties`, RecordSetName.py:23-59 -/
def zoneCheck (enum : String → List String → List String) (order : List String → List String)
    (tb : CondTable) (props : Val) (path : Path) : PyM (List ZoneReport) :=
  match objectWithoutNamed enum order tb props zoneProps with
  | .error e => .error e
  | .ok sets => collectM (zoneSet path) sets

end CfnLint
