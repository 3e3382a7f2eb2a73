import Verif.Model.PropSets
import Verif.Model.Scenario
import Verif.Model.Rules
import Verif.Model.Graph
import Verif.Model.Limits
import Verif.Model.ResProps
/-
Model of E3025 (rules/resources/rds/InstanceSize.py) and of E3026 (rules/resources/elasticache/CacheClusterFailover.py). A finding is its path with what it is
about; the messages are not modelled.
-/
namespace CfnLint

/-! ### E3025 -/

/-- `RdsProperties.json`: licence, engine, region and the classes that are offered -/
abbrev RdsTable := List (String × List (String × List (String × List String)))

/-- the licence of an engine where none is given, InstanceSize.py:26-31 -/
def defaultLicense (tb : RdsTable) (engine : String) : PyM String :=
  match dlookup "license-included" tb with
  | none => .error (.typeError "argument of type 'NoneType' is not iterable")
  | some es =>
    if dhas engine es then .ok "license-included"
    else
      match dlookup "bring-your-own-license" tb with
      | none => .error (.typeError "argument of type 'NoneType' is not iterable")
      | some es' => .ok (if dhas engine es' then "bring-your-own-license" else "general-public-license")

/-- `_get_license_model`, InstanceSize.py:23-35 -/
def licenseOf (tb : RdsTable) (engine : String) (license : Val) : PyM Val :=
  if license.truthy then .ok license
  else
    match defaultLicense tb engine with
    | .error e => .error e
    | .ok l => .ok (.str l)

/-- a database that can be checked -/
structure Database where
  engine : String
  cls : String
  license : String
  path : Path
deriving DecidableEq

/-- one set of properties, InstanceSize.py:44-66 -/
def databaseOf (tb : RdsTable) (r : Val × Path) : PyM (List Database) :=
  match r.1.getD "Engine" .none with
  | .error e => .error e
  | .ok engine =>
    match r.1.getD "DBInstanceClass" .none with
    | .error e => .error e
    | .ok cls =>
      match r.1.getD "LicenseModel" .none with
      | .error e => .error e
      | .ok license =>
        match engine, cls with
        | .str engine, .str cls =>
          match licenseOf tb engine license with
          | .error e => .error e
          | .ok (.str l) => .ok [⟨engine, cls, l, r.2⟩]
          | .ok _ => .ok []
        | _, _ => .ok []

/-- one resource, InstanceSize.py:40-66 -/
def databasesOf (tb : RdsTable) (nr : Key × List (Key × Val)) : PyM (List Database) :=
  match itemsSafeOf ((dlookup (Key.str "Properties") nr.2).getD .none) [.str "Resources", nr.1, .str "Properties"] with
  | .error e => .error e
  | .ok l => collectM (databaseOf tb) l

/-- `check_db_config`, InstanceSize.py:71-89 -/
def databaseCheck (tb : RdsTable) (d : Database) (region : String) : List (Path × String) :=
  match dlookup d.license tb with
  | none => []
  | some engines =>
    match dlookup d.engine engines with
    | none => []
    | some regions =>
      match dlookup region regions with
      | none => []
      | some classes => if d.cls ∈ classes then [] else [(d.path ++ [.str "DBInstanceClass"], region)]

/-- `match`, InstanceSize.py:91-99, with `get_resources`, InstanceSize.py:37-69 -/
def instanceSizeRule (tb : RdsTable) (regions : List String) (t : Val) : PyM (List (Path × String)) :=
  match collectM (databasesOf tb) (resourcesOfType ["AWS::RDS::DBInstance"] t) with
  | .error e => .error e
  | .ok ds => .ok (ds.flatMap (fun d => regions.flatMap (databaseCheck tb d)))

/-! ### E3026 -/

/-- `is_cluster_enabled`, CacheClusterFailover.py:24-31 -/
def clusterEnabled : Val → Bool
  | .dict kvs => kvs.any (fun kv => kv == (Key.str "cluster-enabled", Val.str "yes"))
  | _ => false

/-- `bool_compare(v, False)`, helpers.py:390-399 -/
def boolCompareFalse : Val → Bool
  | .str s => !(lower s == "true")
  | .bool b => !b
  | _ => false

/-- `v <= 1`; `small` says which of the texts of floats are at most one -/
def atMostOne (small : String → Bool) : Val → PyM Bool
  | .int i => .ok (decide (i ≤ 1))
  | .bool _ => .ok true
  | .flt r => .ok (small r)
  | _ => .error (.typeError "'<=' not supported")

mutual
/-- the inner `get_value` of `get_value_from_scenario`, template.py:686-713, where the scenario is `None`: the conditions cannot be looked up -/
def plainIn : Val → PyM Val
  | .dict [(k, v)] =>
    if k = .str "Fn::If" then
      match ifArgs v with
      | .error e => .error e
      | .ok (some _) => .error (attrErr .none "get")
      | .ok none => .ok (.dict [(k, v)])
    else if k = .str "Ref" ∧ v = .str "AWS::NoValue" then .ok .none
    else .ok (.dict [(k, v)])
  | .list xs =>
    match plainsIn xs with
    | .error e => .error e
    | .ok ys => .ok (.list ys)
  | v => .ok v
/-- the loop over the items of a list -/
def plainsIn : List Val → PyM (List Val)
  | [] => .ok []
  | x :: xs =>
    match plainIn x with
    | .error e => .error e
    | .ok v =>
      match plainsIn xs with
      | .error e => .error e
      | .ok vs => .ok (if v = .none then vs else v :: vs)
end

/-- the loop over the properties, template.py:725-733 -/
def plainProps : List (Key × Val) → List (Key × Val) → PyM (List (Key × Val))
  | [], acc => .ok acc
  | (k, v) :: rest, acc =>
    match plainIn v with
    | .error e => .error e
    | .ok w => plainProps rest (if w = .none then acc else dset k w acc)

/-- `get_value_from_scenario(obj, None)`, template.py:681-733 -/
def plainObject : List (Key × Val) → PyM Val
  | [(k, v)] =>
    if k = .str "Fn::If" ∧ v.truthy = true then
      match plainIn (.dict [(k, v)]) with
      | .error e => .error e
      | .ok w => .ok (if w = .none then .dict [] else w)
    else
      match plainProps [(k, v)] [] with
      | .error e => .error e
      | .ok l => .ok (.dict l)
  | kvs =>
    match plainProps kvs [] with
    | .error e => .error e
    | .ok l => .ok (.dict l)

/-- `get_value_from_scenario` with a scenario or `None`. A dictionary that was not read from the template (`none`), null, numbers and booleans have no
`start_mark` (template.py:716). -/
def valuesUnder (sc : Option Scenario) : Option Val → PyM Val
  | some (.dict kvs) =>
    match sc with
    | some sc => valueFromScenario sc (.dict kvs)
    | none => plainObject kvs
  | some (.list _) => .ok (.dict [])
  | some (.str _) => .ok (.dict [])
  | some v => .error (attrErr v "start_mark")
  | none => .error (attrErr (.dict []) "start_mark")

/-- a scenario in which the reference is not there, CacheClusterFailover.py:39-43 -/
def notThere (conds : PathConds) : Option Scenario → Bool
  | none => false
  | some sc => sc.any (fun kb =>
      match dlookup kb.1.toVal conds with
      | none => false
      | some bs => !bs.any (fun b => kb.2 == some b))

/-- the findings of a cluster, CacheClusterFailover.py:46-74 -/
def clusterFaults (small : String → Bool) (props : Val) (path : Path) (sc : Option Scenario) : PyM (List (Path × Option Scenario)) :=
  match props.getD "AutomaticFailoverEnabled" .none with
  | .error e => .error e
  | .ok f =>
    match props.getD "NumNodeGroups" .none with
    | .error e => .error e
    | .ok g =>
      if g.truthy then .ok (if boolCompareFalse f then [(path ++ [.str "AutomaticFailoverEnabled"], sc)] else [])
      else
        match props.getD "NumCacheClusters" (.int 0) with
        | .error e => .error e
        | .ok n =>
          match atMostOne small n with
          | .error e => .error e
          | .ok b => .ok ((if boolCompareFalse f then [(path ++ [.str "AutomaticFailoverEnabled"], sc)] else []) ++
              (if b then [(path ++ [.str "NumCacheClusters"], sc)] else []))

/-- `_test_cluster_settings`, CacheClusterFailover.py:33-76 -/
def clusterUnder (small : String → Bool) (t : Val) (props : List (Key × Val)) (path : Path) (settings : Option Val) (groupPath : Path) (sc : Option Scenario) :
    PyM (List (Path × Option Scenario)) :=
  match pathConds t groupPath with
  | .error e => .error e
  | .ok conds =>
    if notThere conds sc then .ok []
    else
      match valuesUnder sc settings with
      | .error e => .error e
      | .ok g =>
        if clusterEnabled g then
          match valuesUnder sc (some (.dict props)) with
          | .error e => .error e
          | .ok o => clusterFaults small o path sc
        else .ok []

/-- the settings of a parameter group, CacheClusterFailover.py:81-82; `none` is the default, which was not read from the template -/
def groupSettings (t : Val) (name : Key) : PyM (Option Val) :=
  match t.getD "Resources" (.dict []) with
  | .error e => .error e
  | .ok rs =>
    match rs.getK name (.dict []) with
    | .error e => .error e
    | .ok r =>
      match r.getD "Properties" (.dict []) with
      | .error e => .error e
      | .ok (.dict ps) => .ok (dlookup (Key.str "Properties") ps)
      | .ok v => .error (attrErr v "get")

/-- the scenarios that are tried, CacheClusterFailover.py:87-94 -/
def triedScenarios : List Scenario → List (Option Scenario)
  | [] => [none]
  | scs => scs.map some

/-- `test_cluster_settings`, CacheClusterFailover.py:78-94; `scenarios` is `get_conditions_scenarios_from_object` -/
def clusterTest (small : String → Bool) (scenarios : List Val → PyM (List Scenario)) (t : Val) (props : List (Key × Val)) (path : Path) (name : Key) (groupPath : Path) :
    PyM (List (Path × Option Scenario)) :=
  match groupSettings t name with
  | .error e => .error e
  | .ok settings =>
    match scenarios [.dict props, settings.getD (.dict [])] with
    | .error e => .error e
    | .ok scs => collectM (clusterUnder small t props path settings groupPath) (triedScenarios scs)

/-- one entry of a name of a parameter group, CacheClusterFailover.py:105-111 -/
def groupEntry (small : String → Bool) (scenarios : List Val → PyM (List Scenario)) (t : Val) (props : List (Key × Val)) (path : Path) (res : List (Key × Val))
    (groupPath : Path) (kv : Key × Val) : PyM (List (Path × Option Scenario)) :=
  if kv.1 = .str "Ref" then
    match kv.2 with
    | .list _ => .error (.typeError "unhashable type: 'list_node'")
    | .dict _ => .error (.typeError "unhashable type: 'dict_node'")
    | v =>
      match toKey v with
      | some k => if dhas k res then clusterTest small scenarios t props path k groupPath else .ok []
      | none => .ok []
  else .ok []

/-- one name of a parameter group, CacheClusterFailover.py:101-111 -/
def groupOne (small : String → Bool) (scenarios : List Val → PyM (List Scenario)) (t : Val) (props : List (Key × Val)) (path : Path) (res : List (Key × Val))
    (r : Val × Path) : PyM (List (Path × Option Scenario)) :=
  match r.1 with
  | .dict m => collectM (groupEntry small scenarios t props path res r.2) m
  | _ => .ok []

/-- `match_resource_properties`, CacheClusterFailover.py:96-112 -/
def failoverRule (small : String → Bool) (scenarios : List Val → PyM (List Scenario)) (t : Val) (props : List (Key × Val)) (path : Path) :
    PyM (List (Path × Option Scenario)) :=
  match getSafe props (.str "CacheParameterGroupName") (.str "") path [] with
  | .error e => .error e
  | .ok groups =>
    match getResources t with
    | .error e => .error e
    | .ok res => collectM (groupOne small scenarios t props path res) groups

end CfnLint
