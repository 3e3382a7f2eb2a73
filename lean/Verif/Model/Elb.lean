import Verif.Model.ResProps
import Verif.Model.Scenario
/-
Model of E2503 (rules/resources/elb/Elb.py): listeners and load balancers. The texts of the messages are not modelled, only which of them it is and the scenario it names.
`upper` is `str.upper` on the ASCII letters; other letters are left as they are.
-/
namespace CfnLint

/-- `value.upper()` -/
def upper (s : String) : String := String.ofList (s.toList.map Char.toUpper)

/-- `check_protocol_value`, Elb.py:24-39 -/
def protocolCheck (accepted certified : List String) (certificates : Val) (v : Val) (p : Path) : List Path :=
  match v with
  | .str s =>
    if upper s ∉ accepted then [p]
    else if upper s ∈ certified then (if certificates.truthy then [] else [p])
    else []
  | _ => []

/-- `cfn.check_value(…, 'Protocol', …)` with the certificate of a listener, Elb.py:131-136 and 144-149 -/
def listenerCheck (fuel : Nat) (accepted certified : List String) (key : String) (listener : Val) (path : Path) : PyM (List Path) :=
  match listener.getD key .none with
  | .error e => .error e
  | .ok c => checkValue fuel { value := some (fun v p => .ok (protocolCheck accepted certified c v p)) } listener "Protocol" path

/-- Elb.py:134 -/
def v2Accepted : List String := ["GENEVE", "HTTP", "HTTPS", "TCP", "TCP_UDP", "TLS", "UDP"]
/-- Elb.py:135 -/
def v2Certified : List String := ["HTTPS", "TLS"]
/-- Elb.py:147 -/
def v1Accepted : List String := ["HTTP", "HTTPS", "TCP", "SSL"]
/-- Elb.py:148 -/
def v1Certified : List String := ["HTTPS", "SSL"]

/-- the listeners that are resources, Elb.py:128-136 -/
def listenersV2 (fuel : Nat) (t : Val) : PyM (List Path) :=
  match resourceProperties fuel "AWS::ElasticLoadBalancingV2::Listener" [] t with
  | .error e => .error e
  | .ok rs => collectM (fun r : Path × Val => listenerCheck fuel v2Accepted v2Certified "Certificates" r.2 r.1) rs

/-- the listeners of a load balancer, Elb.py:141-149 -/
def listenersOf (fuel : Nat) (r : Path × Val) : PyM (List Path) :=
  match r.2 with
  | .list xs => collectM (fun xi : Val × Nat => listenerCheck fuel v1Accepted v1Certified "SSLCertificateId" xi.1 (r.1 ++ [.int xi.2])) xs.zipIdx
  | _ => .ok []

/-- the listeners of load balancers, Elb.py:138-149 -/
def listenersV1 (fuel : Nat) (t : Val) : PyM (List Path) :=
  match resourceProperties fuel "AWS::ElasticLoadBalancing::LoadBalancer" ["Listeners"] t with
  | .error e => .error e
  | .ok rs => collectM (listenersOf fuel) rs

/-- `match`, Elb.py:123-151 -/
def listenerRule (fuel : Nat) (t : Val) : PyM (List Path) :=
  match listenersV2 fuel t with
  | .error e => .error e
  | .ok l =>
    match listenersV1 fuel t with
    | .error e => .error e
    | .ok l' => .ok (l ++ l')

/-- what is reported of a load balancer -/
inductive LbFault
  | groups
  | subnets
  | mappings
  | attr (key kind : String)
deriving DecidableEq, Repr

/-- a finding: what is reported, its path, and the scenario the message names -/
structure LbReport where
  fault : LbFault
  path : Path
  scenario : Option Scenario
deriving DecidableEq, Repr

/-- `if scenario`: there is one and it is not empty -/
def namesScenario : Option Scenario → Bool
  | some (_ :: _) => true
  | _ => false

/-- `get_loadbalancer_type`, Elb.py:41-48, of an object -/
def lbKind (kvs : List (Key × Val)) : Option String :=
  match (dlookup (Key.str "Type") kvs).getD (.str "application") with
  | .str s => some (if s = "application" then "application" else "network")
  | _ => none

/-- a list of less than two entries, Elb.py:54-64 and 65-75 -/
def fewEntries (key : String) (f : LbFault) (kvs : List (Key × Val)) (path : Path) (sc : Option Scenario) : List LbReport :=
  match (dlookup (Key.str key) kvs).getD .none with
  | .list xs => if xs.length < 2 then [if namesScenario sc then ⟨f, path, sc⟩ else ⟨f, path ++ [.str key], none⟩] else []
  | _ => []

/-- `check_alb_subnets`, Elb.py:50-77 -/
def albSubnets (kvs : List (Key × Val)) (path : Path) (sc : Option Scenario) : List LbReport :=
  if lbKind kvs = some "application" then
    fewEntries "Subnets" .subnets kvs path sc ++ fewEntries "SubnetMappings" .mappings kvs path sc
  else []

/-- Elb.py:84-89 -/
def attrsAll : List String := ["access_logs.s3.enabled", "access_logs.s3.bucket", "access_logs.s3.prefix", "deletion_protection.enabled"]

/-- Elb.py:90-99 -/
def attrsOf (kind : String) : List String :=
  if kind = "application" then
    ["idle_timeout.timeout_seconds", "routing.http.desync_mitigation_mode", "routing.http.drop_invalid_header_fields.enabled", "routing.http2.enabled", "waf.fail_open.enabled"]
  else ["load_balancing.cross_zone.enabled"]

/-- `isinstance(value, (six.string_types, bool, six.integer_types))`, Elb.py:107 -/
def isPlainValue : Val → Bool
  | .str _ => true
  | .bool _ => true
  | .int _ => true
  | _ => false

/-- one entry of `LoadBalancerAttributes`, Elb.py:104-119 -/
def lbAttribute (kind : Option String) (path : Path) (sc : Option Scenario) (item : Val) : PyM (List LbReport) :=
  match item with
  | .dict es =>
    match (dlookup (Key.str "Key") es).getD .none with
    | .str key =>
      if isPlainValue ((dlookup (Key.str "Value") es).getD .none) then
        match kind with
        | none => .ok []
        | some k => .ok (if key ∉ attrsAll ∧ key ∉ attrsOf k then [⟨.attr key k, path, if namesScenario sc then sc else none⟩] else [])
      else .ok []
    | _ => .ok []
  | v => .error (attrErr v "get")

/-- `check_loadbalancer_allowed_attributes`, Elb.py:79-121 -/
def lbAttributes (kvs : List (Key × Val)) (path : Path) (sc : Option Scenario) : PyM (List LbReport) :=
  match (dlookup (Key.str "LoadBalancerAttributes") kvs).getD .none with
  | .list items => collectM (lbAttribute (lbKind kvs) path sc) items
  | _ => .ok []

/-- security groups of other load balancers, Elb.py:162-171: the findings, and the path from then on, which is changed at line 170 -/
def lbGroups (kvs : List (Key × Val)) (path : Path) (sc : Option Scenario) : List LbReport × Path :=
  if lbKind kvs = some "network" ∧ ((dlookup (Key.str "SecurityGroups") kvs).getD .none).truthy = true then
    if namesScenario sc then ([⟨.groups, path, sc⟩], path)
    else ([⟨.groups, path ++ [.str "SecurityGroups"], none⟩], path ++ [.str "SecurityGroups"])
  else ([], path)

/-- the loop over the scenarios, Elb.py:160-175 -/
def lbLoop : Path → List (Option Scenario × Val) → PyM (List LbReport)
  | _, [] => .ok []
  | path, (sc, .dict kvs) :: rest =>
    match lbAttributes kvs (lbGroups kvs path sc).2 sc with
    | .error e => .error e
    | .ok as =>
      match lbLoop (lbGroups kvs path sc).2 rest with
      | .error e => .error e
      | .ok l => .ok ((lbGroups kvs path sc).1 ++ albSubnets kvs (lbGroups kvs path sc).2 sc ++ as ++ l)
  | _, (_, v) :: _ => .error (attrErr v "get")

/-- `match_resource_properties`, Elb.py:153-177; `scenarios` is the result of `get_condition_scenarios_below_path(path)` -/
def loadBalancer (scenarios : List Scenario) (props : Val) (path : Path) : PyM (List LbReport) :=
  match objectsDeep scenarios props with
  | .error e => .error e
  | .ok sets => lbLoop path sets

end CfnLint
