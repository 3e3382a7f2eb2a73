import Verif.Model.Elb
import Verif.Spec.Template
import Verif.Spec.ResProps
/-
Listeners and load balancers: which protocols there are, and what each kind of load balancer takes.
-/
namespace CfnLint.Spec

/-- the text is the word, in letters of either case -/
def SpeltAs (s w : String) : Prop := s.toList.map Char.toUpper = w.toList

/-- a protocol that does not exist, or one that needs a certificate and there is none -/
def BadProtocol (accepted certified : List String) (cert : Prop) (s : String) : Prop :=
  (∀ w ∈ accepted, ¬ SpeltAs s w) ∨ (∃ w ∈ certified, SpeltAs s w) ∧ ¬ cert

/-- the key has a value that is not empty -/
def Given (kvs : List (Key × Val)) (key : String) : Prop := ∃ v, (Key.str key, v) ∈ kvs ∧ v.truthy = true

/-- the faults of a listener -/
def ListenerFault (accepted certified : List String) (key : String) (kvs : List (Key × Val)) (p : Path) : Prop :=
  ∃ v q s, (Key.str "Protocol", v) ∈ kvs ∧ PropValue v q (.str s) ∧ BadProtocol accepted certified (Given kvs key) s ∧ p = .str "Protocol" :: q

/-- the protocol of a listener is not null -/
def ProtocolSet (kvs : List (Key × Val)) : Prop := ∀ v, (Key.str "Protocol", v) ∈ kvs → v ≠ .none ∧ ∀ q, ¬ Leaf v q .none

/-- application load balancers, which are the ones without a type too -/
def Application (kvs : List (Key × Val)) : Prop := (∀ v, (Key.str "Type", v) ∉ kvs) ∨ (Key.str "Type", Val.str "application") ∈ kvs

/-- load balancers of another type -/
def NotApplication (kvs : List (Key × Val)) : Prop := ∃ s, (Key.str "Type", Val.str s) ∈ kvs ∧ s ≠ "application"

/-- attributes every load balancer has, and those of the kinds -/
inductive LbHasAttr : String → String → Prop
  | logs (kind) : LbHasAttr kind "access_logs.s3.enabled"
  | bucket (kind) : LbHasAttr kind "access_logs.s3.bucket"
  | pre (kind) : LbHasAttr kind "access_logs.s3.prefix"
  | deletion (kind) : LbHasAttr kind "deletion_protection.enabled"
  | idle : LbHasAttr "application" "idle_timeout.timeout_seconds"
  | desync : LbHasAttr "application" "routing.http.desync_mitigation_mode"
  | invalid : LbHasAttr "application" "routing.http.drop_invalid_header_fields.enabled"
  | http2 : LbHasAttr "application" "routing.http2.enabled"
  | waf : LbHasAttr "application" "waf.fail_open.enabled"
  | cross : LbHasAttr "network" "load_balancing.cross_zone.enabled"

/-- the kind of a load balancer -/
def KindOf (kvs : List (Key × Val)) (kind : String) : Prop := (Application kvs ∧ kind = "application") ∨ (NotApplication kvs ∧ kind = "network")

/-- a value that is a text, a number or a truth value -/
def ScalarVal (v : Val) : Prop := (∃ s, v = .str s) ∨ (∃ b, v = .bool b) ∨ ∃ i, v = .int i

/-- the faults of a load balancer -/
inductive LbFaultOf (kvs : List (Key × Val)) : LbFault → Prop
  | groups : NotApplication kvs → Given kvs "SecurityGroups" → LbFaultOf kvs .groups
  | subnets {xs} : Application kvs → (Key.str "Subnets", Val.list xs) ∈ kvs → xs.length < 2 → LbFaultOf kvs .subnets
  | mappings {xs} : Application kvs → (Key.str "SubnetMappings", Val.list xs) ∈ kvs → xs.length < 2 → LbFaultOf kvs .mappings
  | attr {items es key v kind} : KindOf kvs kind → (Key.str "LoadBalancerAttributes", Val.list items) ∈ kvs → Val.dict es ∈ items → (Key.str "Key", Val.str key) ∈ es →
      (Key.str "Value", v) ∈ es → ScalarVal v → ¬ LbHasAttr kind key → LbFaultOf kvs (.attr key kind)

/-- where a fault stands in the load balancer -/
def faultPlace : LbFault → Path
  | .groups => [.str "SecurityGroups"]
  | .subnets => [.str "Subnets"]
  | .mappings => [.str "SubnetMappings"]
  | .attr _ _ => []

/-- attributes are objects -/
def AttrObjects (kvs : List (Key × Val)) : Prop := ∀ items x, (Key.str "LoadBalancerAttributes", Val.list items) ∈ kvs → x ∈ items → ∃ es, x = .dict es

end CfnLint.Spec
