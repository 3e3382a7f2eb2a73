import Verif.Model.Clusters
import Verif.Spec.Scenario
import Verif.Spec.Template
import Verif.Spec.ResProps
import Verif.Spec.NoEcho
import Verif.Spec.Relations
/-
Classes of databases and the failover of clusters.
-/
namespace CfnLint.Spec

/-! ### Databases -/

/-- the licence an engine has where none is given -/
inductive DefaultLicense (tb : RdsTable) (engine : String) : String → Prop
  | included {es} : dlookup "license-included" tb = some es → engine ∈ es.map Prod.fst → DefaultLicense tb engine "license-included"
  | own {es es'} : dlookup "license-included" tb = some es → engine ∉ es.map Prod.fst → dlookup "bring-your-own-license" tb = some es' → engine ∈ es'.map Prod.fst →
      DefaultLicense tb engine "bring-your-own-license"
  | free {es es'} : dlookup "license-included" tb = some es → engine ∉ es.map Prod.fst → dlookup "bring-your-own-license" tb = some es' → engine ∉ es'.map Prod.fst →
      DefaultLicense tb engine "general-public-license"

/-- the licence of a database with the properties -/
inductive HasLicense (tb : RdsTable) (kvs : List (Key × Val)) (engine : String) : String → Prop
  | given {l} : (Key.str "LicenseModel", .str l) ∈ kvs → l ≠ "" → HasLicense tb kvs engine l
  | dflt {l} : (∀ v, (Key.str "LicenseModel", v) ∈ kvs → v.truthy = true → v = noValue) → DefaultLicense tb engine l → HasLicense tb kvs engine l

/-- the classes are those that are offered in the region -/
def Offered (tb : RdsTable) (license engine region : String) (classes : List String) : Prop :=
  ∃ engines regions, dlookup license tb = some engines ∧ dlookup engine engines = some regions ∧ dlookup region regions = some classes

/-- in the region the class of the database at `q` of the properties is not among those offered for its engine and its licence -/
def NotOffered (tb : RdsTable) (region : String) (props : Val) (q : Path) : Prop :=
  ∃ kvs engine cls license classes, Leaf props q (.dict kvs) ∧ (Key.str "Engine", .str engine) ∈ kvs ∧ (Key.str "DBInstanceClass", .str cls) ∈ kvs ∧
    HasLicense tb kvs engine license ∧ Offered tb license engine region classes ∧ cls ∉ classes

/-! ### Clusters -/

/-- what a scenario says of conditions; no scenario says nothing -/
def saysOf (sc : Option Scenario) (c : String) : Option Bool := sc.bind (fun s => (dlookup (Key.str c) s).getD none)

/-- under the scenario the properties are `o` -/
def ObjectUnder (sc : Option Scenario) (kvs o : List (Key × Val)) : Prop :=
  FlatObject kvs ∧ Closed (saysOf sc) (.dict kvs) ∧ (project (saysOf sc) (.dict kvs)).getD (.dict []) = .dict o

/-- the scenario says something of a condition that is required at the path, but nothing that is required -/
def Conflicts (t : Val) (p : Path) (sc : Option Scenario) : Prop :=
  ∃ s c b, sc = some s ∧ (Key.str c, b) ∈ s ∧ (∃ b', Requires t p c b') ∧ ∀ b', Requires t p c b' → b ≠ some b'

/-- the value says that something is off: a text that is not `true` or the boolean -/
inductive SaysOff : Val → Prop
  | bool : SaysOff (.bool false)
  | text {s} : ¬ SaysTrue (.str s) → SaysOff (.str s)

/-- a number that is one or less -/
inductive OneOrLess (small : String → Bool) : Val → Prop
  | int {i} : i ≤ 1 → OneOrLess small (.int i)
  | bool {b} : OneOrLess small (.bool b)
  | flt {r} : small r = true → OneOrLess small (.flt r)

/-- what is wrong with a cluster with the properties `o` and the settings `g` of its parameter group -/
inductive ClusterFault (small : String → Bool) (g o : List (Key × Val)) : String → Prop
  | failover {v} : (Key.str "cluster-enabled", Val.str "yes") ∈ g → dlookup (Key.str "AutomaticFailoverEnabled") o = some v → SaysOff v →
      ClusterFault small g o "AutomaticFailoverEnabled"
  | nodes : (Key.str "cluster-enabled", Val.str "yes") ∈ g → (∀ v, dlookup (Key.str "NumNodeGroups") o = some v → v.truthy = false) →
      (∀ v, dlookup (Key.str "NumCacheClusters") o = some v → OneOrLess small v) → ClusterFault small g o "NumCacheClusters"

/-- the parameter group is named at `q` of the property by a reference to a resource with a type -/
def GroupRef (t : Val) (props : List (Key × Val)) (q : Path) (g : String) : Prop :=
  ∃ v m r, (Key.str "CacheParameterGroupName", v) ∈ props ∧ Leaf v q (.dict m) ∧ (Key.str "Ref", .str g) ∈ m ∧ TypedResource t (.str g) r

/-- a number: of the kinds that can be compared with one -/
def Comparable (v : Val) : Prop := (∃ i, v = .int i) ∨ (∃ b, v = .bool b) ∨ ∃ r, v = .flt r

/-- the scenarios under which the properties are looked at: those there are, or none -/
def Tried (scs : List Scenario) (ss : List (Option Scenario)) : Prop := (scs = [] ∧ ss = [none]) ∨ (scs ≠ [] ∧ ss = scs.map some)

/-- what the rule on clusters takes for granted of a reference to a parameter group: the place, the settings, and under each scenario that is tried what the
properties and settings are -/
structure ClusterShape (t : Val) (props : List (Key × Val)) (path q : Path) (g : String) (scenarios : List Val → PyM (List Scenario)) : Prop where
  place : GoodPath t (path ++ .str "CacheParameterGroupName" :: q)
  settings : ∃ kvs scs ss, At t [.str "Resources", .str g, .str "Properties", .str "Properties"] (.dict kvs) ∧ scenarios [.dict props, .dict kvs] = .ok scs ∧ Tried scs ss ∧
    (∀ sc ∈ ss, ∀ s k b, sc = some s → (k, b) ∈ s → ∃ c, k = Key.str c) ∧
    ∀ sc ∈ ss, ∃ gs o, ObjectUnder sc kvs gs ∧ ObjectUnder sc props o ∧
      ∀ v, dlookup (Key.str "NumCacheClusters") o = some v → Comparable v

/-- what is found for a reference to a parameter group -/
def ClusterFinding (small : String → Bool) (scenarios : List Val → PyM (List Scenario)) (t : Val) (props : List (Key × Val)) (path q : Path) (g : String)
    (m : Path × Option Scenario) : Prop :=
  ∃ kvs scs ss sc gs o key, At t [.str "Resources", .str g, .str "Properties", .str "Properties"] (.dict kvs) ∧ scenarios [.dict props, .dict kvs] = .ok scs ∧
    Tried scs ss ∧ sc ∈ ss ∧ ¬ Conflicts t (path ++ .str "CacheParameterGroupName" :: q) sc ∧ ObjectUnder sc kvs gs ∧ ObjectUnder sc props o ∧
    ClusterFault small gs o key ∧ m = (path ++ [.str key], sc)

end CfnLint.Spec
