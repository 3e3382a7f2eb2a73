import Verif.Props.GroupRules
import Verif.Props.Schedule
import Verif.Props.StateMachine
import Verif.Props.PolicyVersion
import Verif.Props.Modules
import Verif.Props.Zones
import Verif.Props.IamPolicy
import Verif.Props.Permissions
import Verif.Props.Runtimes
import Verif.Props.Ebs
import Verif.Props.ZoneNames
import Verif.Props.TableKeys
import Verif.Props.Clusters
/-
Property C137: what status 0 says of the properties of resources of particular types, when the rules that are called on the properties
of such resources are in force.
-/
namespace CfnLint

open Spec

/-- a rule that is called on the properties of the resources of the types, with the function it applies to them; the messages are arbitrary, and it
may be called on more types -/
def OnTypes {α : Type} (beh : RuleObj → Behaviour) (i : String) (types : List String) (place : α → Path)
    (rule : Val → List (Key × Val) → String → Path → PyM (List α)) : Prop :=
  ∀ r, r.info.id = i → (∀ ty ∈ types, ty ∈ (beh r).propertyTypes) ∧ ∃ msg f, (beh r).properties = some f ∧
    ∀ t kvs ty path, f t (.dict kvs) ty path = withText place msg (rule t kvs ty path)

/-- a rule that is also called on the objects of types of properties -/
def OnSubTypes {α : Type} (beh : RuleObj → Behaviour) (i : String) (types : List String) (place : α → Path)
    (rule : Val → List (Key × Val) → String → Path → PyM (List α)) : Prop :=
  ∀ r, r.info.id = i → (∀ ty ∈ types, ty ∈ (beh r).subTypes) ∧ ∃ msg f, (beh r).subProperties = some f ∧
    ∀ t kvs ty path, f t (.dict kvs) ty path = withText place msg (rule t kvs ty path)

/-- the types of resources W3010 looks at, AvailabilityZone.py:21-32 -/
def zoneTypes : List String :=
  ["AWS::AutoScaling::AutoScalingGroup", "AWS::DAX::Cluster", "AWS::DMS::ReplicationInstance", "AWS::EC2::Host", "AWS::EC2::Instance", "AWS::EC2::Subnet",
   "AWS::EC2::Volume", "AWS::ElasticLoadBalancing::LoadBalancer", "AWS::OpsWorks::Instance", "AWS::RDS::DBCluster", "AWS::RDS::DBInstance"]

/-- the types of properties W3010 looks at, AvailabilityZone.py:34-42 -/
def zoneSubTypes : List String :=
  ["AWS::EC2::LaunchTemplate.Placement", "AWS::EC2::SpotFleet.LaunchTemplateOverrides", "AWS::EC2::SpotFleet.SpotPlacement", "AWS::EMR::Cluster.PlacementType",
   "AWS::ElasticLoadBalancingV2::TargetGroup.TargetDescription", "AWS::Glue::Connection.PhysicalConnectionRequirements"]

/-- the types of resources W3037 looks at, Permissions.py:22-33 -/
def permissionTypes : List String :=
  ["AWS::Elasticsearch::Domain", "AWS::IAM::Group", "AWS::IAM::ManagedPolicy", "AWS::IAM::Policy", "AWS::IAM::Role", "AWS::IAM::User", "AWS::KMS::Key",
   "AWS::S3::BucketPolicy", "AWS::SNS::TopicPolicy", "AWS::SQS::QueuePolicy"]

/-- the parameters of a template, template.py:83-89, for the rules on runtimes -/
def runtimesIn (rows : List (String × Lifecycle)) (test : Lifecycle → Bool) (fuel : Nat) (t : Val) (kvs : List (Key × Val)) (path : Path) : PyM (List Path) :=
  match t.getD "Parameters" (.dict []) with
  | .error e => .error e
  | .ok (.dict params) => runtimeRule rows test params fuel (.dict kvs) path
  | .ok _ => runtimeRule rows test [] fuel (.dict kvs) path

/-- what the rules on the properties of particular types depend on: which characters are digits, the reading of JSON, the table of the actions of
services, the table of runtimes and the date, the conditions, the scenarios of E3503 and E3026, and the nodes that are too small -/
structure TypeEnv where
  digit : Char → Bool
  loads : Val → Option Val
  decode : String → Option Val
  actions : List (String × List String)
  rows : List (String × Lifecycle)
  now : Int
  conds : CondEnv
  sets : Val → Val → PyM (List (Option Scenario × Val))
  scenarios : Val → List Val → PyM (List Scenario)
  small : String → Bool

/-- the rules on the properties of particular types, each with its types and its function; the messages are arbitrary. The ids are those of
RuleScheduleExpression.py:11, StateMachine.py:13, PolicyVersion.py:12, PropertiesTemplated.py:12, LambdaMemorySize.py:11, AvailabilityZone.py:11,
RefWithPath.py:11, Policy.py:15, Permissions.py:15, DeprecatedRuntimeEnd.py:12, DeprecatedRuntimeEol.py:12, DomainValidationOptions.py:12,
RecordSetName.py:12, AttributeMismatch.py:13 and CacheClusterFailover.py:12 -/
structure TypeRules (beh : RuleObj → Behaviour) (E : TypeEnv) (n : Nat) : Prop where
  E3027 : OnTypes beh "E3027" ["AWS::Events::Rule"] Prod.fst (fun _ kvs _ path => scheduleRule (n + 2) E.digit (.dict kvs) path)
  E2532 : OnTypes beh "E2532" ["AWS::StepFunctions::StateMachine"] Prod.fst (fun _ kvs _ path => stateMachineRule E.loads (n + 2) (.dict kvs) path)
  W2511 : OnTypes beh "W2511" (versionKeys.map Prod.fst) id (fun _ kvs ty path => versionRule (n + 2) ty kvs path)
  W3002 : OnTypes beh "W3002" (packagedKeys.map Prod.fst) id (fun _ kvs ty path => packagedRule (n + 2) ty (.dict kvs) path)
  W2510 : OnTypes beh "W2510" ["AWS::Lambda::Function"] id (fun t kvs _ path => memoryRule t (n + 2) (.dict kvs) path)
  W3010 : OnTypes beh "W3010" zoneTypes id (fun _ kvs _ path => zoneRule (n + 2) (.dict kvs) path)
  W3010' : OnSubTypes beh "W3010" zoneSubTypes id (fun _ kvs _ path => zoneRule (n + 2) (.dict kvs) path)
  E3050 : OnTypes beh "E3050" ["AWS::CodeBuild::Project"] id (fun t kvs _ path => refWithPathRule t (n + 2) (.dict kvs) path)
  E2507 : OnTypes beh "E2507" (resourcePolicyTypes ++ identityPolicyTypes) Prod.snd (fun _ kvs ty path => iamPolicy (n + 2) E.decode ty kvs path)
  W3037 : OnTypes beh "W3037" permissionTypes Prod.snd (fun _ kvs _ path => permissions (n + 2) E.decode E.actions kvs path)
  E2531 : OnTypes beh "E2531" ["AWS::Lambda::Function"] id (fun t kvs _ path => runtimesIn E.rows (runtimeEnded E.now) (n + 2) t kvs path)
  W2531 : OnTypes beh "W2531" ["AWS::Lambda::Function"] id (fun t kvs _ path => runtimesIn E.rows (runtimeEol E.now) (n + 2) t kvs path)
  E3503 : OnTypes beh "E3503" ["AWS::CertificateManager::Certificate"] id (fun t kvs _ path => domainOptionRule (E.sets t) (n + 2) (.dict kvs) path)
  E3041 : OnTypes beh "E3041" ["AWS::Route53::RecordSet"] ZoneReport.path (fun t kvs _ path => zoneCheck E.conds.enum E.conds.order (E.conds.tb t) (.dict kvs) path)
  E3039 : OnTypes beh "E3039" ["AWS::DynamoDB::Table"] TableReport.path (fun t kvs _ path => tableCheck E.conds.enum E.conds.order (E.conds.tb t) (.dict kvs) path)
  E3026 : OnTypes beh "E3026" ["AWS::ElastiCache::ReplicationGroup"] Prod.fst (fun t kvs _ path => failoverRule E.small (E.scenarios t) t kvs path)

section Clean

variable {objs : List RuleObj} {args : Sources} {all : List String} {regions : List Val} {S : TypeSpecs} {beh : RuleObj → Behaviour}
  {name : Val → String} {mark : Val → MVal} {print : List Match → PyM Unit} {ds : List Decoded} {E : TypeEnv} {n : Nat}

/-- a rule called on the properties of a resource was silent -/
theorem types_silent {α : Type} {i : String} {types : List String} {place : α → Path} {rule : Val → List (Key × Val) → String → Path → PyM (List α)}
    (h : CleanRun objs args all regions S beh name mark print ds) (hb : OnTypes beh i types place rule) {d : Decoded} (hd : d ∈ ds)
    (hf : InForce objs args d.template { id := i }) {k : Key} {ty : String} {kvs : List (Key × Val)} (hr : ResourceWith d.template k ty kvs)
    (ht : ty ∈ types) : ∃ msg, withText place msg (rule d.template kvs ty [.str "Resources", k, .str "Properties"]) = .ok [] ∨
      ∃ s, withText place msg (rule d.template kvs ty [.str "Resources", k, .str "Properties"]) = .error (.templateAttributeError s) := by
  obtain ⟨r, hi, hn⟩ := clean_found h hd hf
  obtain ⟨h1, msg, f, h2, h3⟩ := hb r (by rw [hi])
  have := hn _ (.properties h2 hr (h1 ty ht))
  rw [h3] at this
  exact ⟨msg, this⟩

theorem types_found {α : Type} {i : String} {types : List String} {place : α → Path} {rule : Val → List (Key × Val) → String → Path → PyM (List α)}
    (h : CleanRun objs args all regions S beh name mark print ds) (hb : OnTypes beh i types place rule) {d : Decoded} (hd : d ∈ ds)
    (hf : InForce objs args d.template { id := i }) {k : Key} {ty : String} {kvs : List (Key × Val)} (hr : ResourceWith d.template k ty kvs)
    (ht : ty ∈ types) {l : List α} (hl : rule d.template kvs ty [.str "Resources", k, .str "Properties"] = .ok l) : l = [] := by
  obtain ⟨msg, hm⟩ := types_silent h hb hd hf hr ht
  exact withText_nil hl hm

theorem types_finds {i : String} {types : List String} {rule : Val → List (Key × Val) → String → Path → PyM (List Path)}
    (h : CleanRun objs args all regions S beh name mark print ds) (hb : OnTypes beh i types id rule) {d : Decoded} (hd : d ∈ ds)
    (hf : InForce objs args d.template { id := i }) {k : Key} {ty : String} {kvs : List (Key × Val)} (hr : ResourceWith d.template k ty kvs)
    (ht : ty ∈ types) {F : Path → Prop} (hl : Finds (rule d.template kvs ty [.str "Resources", k, .str "Properties"]) [.str "Resources", k, .str "Properties"] F)
    (r : Path) : ¬ F r := by
  obtain ⟨msg, hm⟩ := types_silent h hb hd hf hr ht
  exact finds_nil hl hm r

/-- the value of a property is given in no deployment as null -/
def Spec.NeverNull (kvs : List (Key × Val)) (key : String) : Prop := ∀ v, (Key.str key, v) ∈ kvs → v ≠ .none ∧ ∀ q, ¬ Leaf v q .none

/-- **C137** If the command ends with status 0 and E3027 is in force, each expression for the schedule of a rule is a rate with a number and a unit or has the
six fields of a cron expression, with one of the days left open. Missing: expressions that are null or of another kind; what C88 leaves open. -/
theorem C137_schedule_partial (h : CleanRun objs args all regions S beh name mark print ds) (hb : TypeRules beh E n) {d : Decoded} (hd : d ∈ ds)
    (hf : InForce objs args d.template { id := "E3027" }) {k : Key} {kvs : List (Key × Val)} (hr : ResourceWith d.template k "AWS::Events::Rule" kvs)
    (hnull : NeverNull kvs "ScheduleExpression") {v : Val} (hv : (Key.str "ScheduleExpression", v) ∈ kvs)
    (ht : ∀ q u, PropValue v q u → NoCall u → ∃ s, u = .str s) {q : Path} {s : String} (hs : PropValue v q (.str s)) :
    (∃ b m u, Enclosed "rate" s b ∧ Pieces ' ' b [m, u] ∧ m ≠ [] ∧ ∀ c ∈ m, E.digit c = true) ∨
    (∃ b mi h dom mo dow y, Enclosed "cron" s b ∧ Pieces ' ' b [mi, h, dom, mo, dow, y] ∧ (dom = ['?'] ∨ dow = ['?'])) := by
  have hw := resourceWith_wf (clean_wf h hd) hr
  rw [Val.WF] at hw
  obtain ⟨l, h1, h2⟩ := C88_rule (digit := E.digit) (path := [.str "Resources", k, .str "Properties"]) (dlookup_of_mem hw.1 hv) (hnull v hv).1 (hnull v hv).2 n ht
  cases types_found h hb.E3027 hd hf hr List.mem_cons_self h1
  refine C88_complete_partial (no_fault fun f hf => ?_)
  cases (h2 _).2 ⟨q, s, f, hs, hf, rfl⟩

/-- **C137** … and E2532 is in force, no definition of a state machine has a fault that the rule knows of. Missing: what is read as no definition. -/
theorem C137_machines_partial (h : CleanRun objs args all regions S beh name mark print ds) (hb : TypeRules beh E n) {d : Decoded} (hd : d ∈ ds)
    (hf : InForce objs args d.template { id := "E2532" }) {k : Key} {kvs : List (Key × Val)} (hr : ResourceWith d.template k "AWS::StepFunctions::StateMachine" kvs)
    (hnull : NeverNull kvs "DefinitionString") {v : Val} (hv : (Key.str "DefinitionString", v) ∈ kvs)
    (hm : ∀ q u, PropValue v q u → Known u → ∀ d, E.loads u = some d → MachineShape d)
    (hs : ∀ q x, PropValue v q (.dict [(.str "Fn::Sub", x)]) → x ≠ .list [] ∧ ∀ t d, TextOfSub x t → E.loads t = some d → MachineShape d)
    {q : Path} {u : Val} (hu : PropValue v q u) (r : Path) (f : SmFault) : ¬ DefinitionFault E.loads ruleStates u r f := by
  have hw := resourceWith_wf (clean_wf h hd) hr
  rw [Val.WF] at hw
  obtain ⟨l, h1, h2⟩ := C108_exact_partial (path := [.str "Resources", k, .str "Properties"]) (dlookup_of_mem hw.1 hv) (hnull v hv).1 (hnull v hv).2 n hm hs
  cases types_found h hb.E2532 hd hf hr List.mem_cons_self h1
  intro hc
  cases (h2 _).2 ⟨q, u, r, f, hu, hc, rfl⟩

/-- **C137** … and W2511 is in force, no document of a policy states an old version: for the types with one document. Missing: documents that are null. -/
theorem C137_versions_partial (h : CleanRun objs args all regions S beh name mark print ds) (hb : TypeRules beh E n) {d : Decoded} (hd : d ∈ ds)
    (hf : InForce objs args d.template { id := "W2511" }) {k : Key} {ty key : String} {kvs : List (Key × Val)} (hr : ResourceWith d.template k ty kvs)
    (ht : DocumentOf ty key) (hp : PlainDocuments kvs key) (p : Path) : ¬ OldVersionIn kvs key p :=
  types_finds h hb.W2511 hd hf hr (by
    cases ht with
    | plain hm => simp only [List.mem_cons, List.not_mem_nil, or_false] at hm; rcases hm with rfl | rfl | rfl | rfl | rfl <;> decide
    | _ => decide) (C111_document ht hp n _) p

/-- **C137** … and for the types with a list of policies -/
theorem C137_policy_versions_partial (h : CleanRun objs args all regions S beh name mark print ds) (hb : TypeRules beh E n) {d : Decoded} (hd : d ∈ ds)
    (hf : InForce objs args d.template { id := "W2511" }) {k : Key} {ty : String} {kvs : List (Key × Val)} (hr : ResourceWith d.template k ty kvs)
    (ht : HasPolicies ty) {xs : List Val} (hx : (Key.str "Policies", .list xs) ∈ kvs) (hp : ∀ pol, .dict pol ∈ xs → PlainDocuments pol "PolicyDocument")
    {pol : List (Key × Val)} (hpol : .dict pol ∈ xs) (p : Path) : ¬ OldVersionIn pol "PolicyDocument" p := by
  have hw := resourceWith_wf (clean_wf h hd) hr
  rw [Val.WF] at hw
  obtain ⟨i, hi⟩ := List.mem_iff_getElem?.1 hpol
  intro hc
  exact types_finds h hb.W2511 hd hf hr (by simp [HasPolicies] at ht; rcases ht with rfl | rfl | rfl <;> decide)
    (C111_policies_partial ht hw.1 hx hp n _) _ ⟨i, pol, p, hi, hc, rfl⟩

/-- **C137** … and W3002 is in force, no property that names a package is a text. Missing: properties that are null. -/
theorem C137_packages_partial (h : CleanRun objs args all regions S beh name mark print ds) (hb : TypeRules beh E n) {d : Decoded} (hd : d ∈ ds)
    (hf : InForce objs args d.template { id := "W3002" }) {k : Key} {ty key : String} {kvs : List (Key × Val)} (hr : ResourceWith d.template k ty kvs)
    (ht : NamesPackage ty key) (hnull : NeverNull kvs key) {v : Val} (hv : (Key.str key, v) ∈ kvs) (q : Path) (s : String) : ¬ PropValue v q (.str s) := by
  have hw := resourceWith_wf (clean_wf h hd) hr
  rw [Val.WF] at hw
  obtain ⟨l, h1, h2⟩ := C115_packages n ht hw.1 hnull [.str "Resources", k, .str "Properties"]
  cases types_found h hb.W3002 hd hf hr (by cases ht <;> decide) h1
  intro hc
  cases (h2 _).2 ⟨v, q, s, hv, hc, rfl⟩

/-- **C137** … and W2510 is in force, each parameter for the memory of a function has both bounds or allowed values. Missing: parameters that are no objects. -/
theorem C137_memory_partial (h : CleanRun objs args all regions S beh name mark print ds) (hb : TypeRules beh E n) {d : Decoded} (hd : d ∈ ds)
    (hf : InForce objs args d.template { id := "W2510" }) {k : Key} {kvs : List (Key × Val)} (hr : ResourceWith d.template k "AWS::Lambda::Function" kvs)
    {params : List (Key × Val)} (hp : At d.template [.str "Parameters"] (.dict params)) (hdict : ∀ s v, (Key.str s, v) ∈ params → ∃ ps, v = .dict ps)
    (hnull : NeverNull kvs "MemorySize") (href : ∀ v q x, (Key.str "MemorySize", v) ∈ kvs → PropValue v q (.dict [(.str "Ref", x)]) → ∃ s, x = .str s)
    {v : Val} (hv : (Key.str "MemorySize", v) ∈ kvs) {q : Path} {s : String} (hs : PropValue v q (.dict [(.str "Ref", .str s)])) {ps : List (Key × Val)}
    (hps : (Key.str s, .dict ps) ∈ params) : ¬ Unbounded ps := by
  have hwt := clean_wf h hd
  have hw := resourceWith_wf hwt hr
  rw [Val.WF] at hw
  obtain ⟨top, ht⟩ := clean_object h hd
  rw [ht] at hp hwt
  obtain ⟨l, h1, h2⟩ := C115_memory n hwt (at_dict_one.1 hp) hdict hw.1 hnull href [.str "Resources", k, .str "Properties"]
  rw [← ht] at h1
  cases types_found h hb.W2510 hd hf hr List.mem_cons_self h1
  intro hc
  cases (h2 _).2 ⟨v, q, s, ps, hv, hs, hps, hc, rfl⟩

/-- **C137** … and W3010 is in force, no zone is written down in a resource. Missing: properties that are null. -/
theorem C137_zones_partial (h : CleanRun objs args all regions S beh name mark print ds) (hb : TypeRules beh E n) {d : Decoded} (hd : d ∈ ds)
    (hf : InForce objs args d.template { id := "W3010" }) {k : Key} {ty : String} {kvs : List (Key × Val)} (hr : ResourceWith d.template k ty kvs)
    (ht : ty ∈ zoneTypes) (hnull : ∀ key ∈ ["AvailabilityZone", "AvailabilityZones"], NeverNull kvs key) {key : String}
    (hk : key ∈ ["AvailabilityZone", "AvailabilityZones"]) {v : Val} (hv : (Key.str key, v) ∈ kvs) {q : Path} {u : Val} (hu : PropValue v q u) : ¬ FixedZone u := by
  have hw := resourceWith_wf (clean_wf h hd) hr
  rw [Val.WF] at hw
  obtain ⟨l, h1, h2⟩ := C110_zones hw.1 (fun key v hk hv => hnull key hk v hv) n [.str "Resources", k, .str "Properties"]
  cases types_found h hb.W3010 hd hf hr ht h1
  intro hc
  cases (h2 _).2 ⟨key, v, q, u, hk, hv, hu, hc, rfl⟩

/-- **C137** … nor in an object below the properties of a resource, where the traversal follows the specification -/
theorem C137_sub_zones_partial {U : RegionSpec} (h : CleanRun objs args all regions (traversed U) beh name mark print ds) (hb : TypeRules beh E n) {d : Decoded} (hd : d ∈ ds)
    (hf : InForce objs args d.template { id := "W3010" }) (hfo : FollowedIn U d.template) {ty : String} {p : Path} {kvs : List (Key × Val)}
    (ho : TypedObject U d.template false ty p kvs) (ht : ty ∈ zoneSubTypes) (hnull : ∀ key ∈ ["AvailabilityZone", "AvailabilityZones"], NeverNull kvs key) {key : String}
    (hk : key ∈ ["AvailabilityZone", "AvailabilityZones"]) {v : Val} (hv : (Key.str key, v) ∈ kvs) {q : Path} {u : Val} (hu : PropValue v q u) : ¬ FixedZone u := by
  have hwt := clean_wf h hd
  have hw := typedObject_wf hwt hfo ho
  rw [Val.WF] at hw
  obtain ⟨l, h1, h2⟩ := C110_zones hw.1 (fun key v hk hv => hnull key hk v hv) n p
  obtain ⟨r, hi, hn⟩ := clean_found h hd hf
  obtain ⟨h3, msg, f, h4, h5⟩ := hb.W3010' r (by rw [hi])
  cases ho with
  | below hr hps hd0 ho =>
    obtain ⟨hs, hfl⟩ := hfo _ _ _ _ hr hps
    have := hn _ (.subProperties h4 hr (C44_complete_partial (resourceWith_wf hwt hr) hps hs hfl hd0 ho) (h3 _ ht))
    rw [h5] at this
    cases withText_nil h1 this
    intro hc
    cases (h2 _).2 ⟨key, v, q, u, hk, hv, hu, hc, rfl⟩

/-- **C137** … and E3050 is in force, no service role of a build project is a reference to a role with a path. Missing: shapes for which the rule raises. -/
theorem C137_roles_partial (h : CleanRun objs args all regions S beh name mark print ds) (hb : TypeRules beh E n) {d : Decoded} (hd : d ∈ ds)
    (hf : InForce objs args d.template { id := "E3050" }) {k : Key} {kvs : List (Key × Val)} (hr : ResourceWith d.template k "AWS::CodeBuild::Project" kvs)
    {rs : List (Key × Val)} (hrs : getResources d.template = .ok rs)
    (hprops : ∀ k r v, TypedResource d.template k r → (Key.str "Properties", v) ∈ r → ∃ props, v = .dict props)
    (hnull : NeverNull kvs "ServiceRole") (href : ∀ v q x, (Key.str "ServiceRole", v) ∈ kvs → PropValue v q (.dict [(.str "Ref", x)]) → ∃ s, x = .str s)
    {v : Val} (hv : (Key.str "ServiceRole", v) ∈ kvs) {q : Path} {u : Val} (hu : PropValue v q u) : ¬ RefToPath d.template u := by
  have hwt := clean_wf h hd
  have hw := resourceWith_wf hwt hr
  rw [Val.WF] at hw
  obtain ⟨l, h1, h2⟩ := C110_refs_partial hwt hrs hprops hw.1 hnull href n [.str "Resources", k, .str "Properties"]
  cases types_found h hb.E3050 hd hf hr List.mem_cons_self h1
  intro hc
  cases (h2 _).2 ⟨v, q, u, hv, hu, hc, rfl⟩

/-- **C137** … and E2507 is in force, no document of a policy has a fault. Missing: documents that cannot be checked, C92. -/
theorem C137_policies_partial (h : CleanRun objs args all regions S beh name mark print ds) (hb : TypeRules beh E n) {d : Decoded} (hd : d ∈ ds)
    (hf : InForce objs args d.template { id := "E2507" }) {k : Key} {ty : String} {kvs : List (Key × Val)} (hr : ResourceWith d.template k ty kvs)
    {identity : Bool} (ht : PolicyType identity ty) (hg : GoodPolicies E.decode kvs) {p : Path} {u : Val} (hu : ResourceDoc kvs p u) (f : IamFault) (q : Path) :
    ¬ DocProblem E.decode identity (decide (ty = "AWS::ECR::Repository")) u f q := by
  obtain ⟨l, h1, h2⟩ := C92_by_type hg n ty [.str "Resources", k, .str "Properties"]
  cases types_found h hb.E2507 hd hf hr (by cases ht <;> decide) h1
  intro hc
  cases (h2 _ _).2 ⟨identity, ht, p, u, q, hu, hc, rfl⟩

/-- **C137** … and W3037 is in force, each action of a policy exists. Missing: actions with wildcards, C102. -/
theorem C137_actions_partial (h : CleanRun objs args all regions S beh name mark print ds) (hb : TypeRules beh E n) {d : Decoded} (hd : d ∈ ds)
    (hf : InForce objs args d.template { id := "W3037" }) {k : Key} {ty : String} {kvs : List (Key × Val)} (hr : ResourceWith d.template k ty kvs)
    (ht : ty ∈ permissionTypes) (hg : GoodPermissions E.decode kvs) (hp : ∀ a r, ResourceAction E.decode kvs a r → PermitPlain a) {a : String} {r : Path}
    (ha : ResourceAction E.decode kvs a r) (f : PermFault) : ¬ PermitFault E.actions a f := by
  obtain ⟨l, h1, h2⟩ := C102_exact_partial E.actions hg n [.str "Resources", k, .str "Properties"] hp
  cases types_found h hb.W3037 hd hf hr ht h1
  intro hc
  cases (h2 _ _).2 ⟨a, r, ha, hc, rfl⟩

/-- the values of a runtime are plain: no null, no objects but calls, references with names -/
structure Spec.PlainRuntime (kvs : List (Key × Val)) : Prop where
  never : NeverNull kvs "Runtime"
  values : ∀ v q u, (Key.str "Runtime", v) ∈ kvs → PropValue v q u → (Known u → NotNested u) ∧ ∀ x, u = .dict [(.str "Ref", x)] → ∃ s, x = .str s

/-- **C137** … and E2531 is in force, no runtime of a function is over: neither one that is given nor one a parameter gives; if W2531 is in force, none is out
of support. Missing: parameters that are no objects. -/
theorem C137_runtimes_partial (h : CleanRun objs args all regions S beh name mark print ds) (hb : TypeRules beh E n) {d : Decoded} (hd : d ∈ ds)
    {k : Key} {kvs : List (Key × Val)} (hr : ResourceWith d.template k "AWS::Lambda::Function" kvs)
    (hrows : (E.rows.map Prod.fst).Nodup) (he : ∀ r, ("", r) ∉ E.rows) {params : List (Key × Val)} (hp : At d.template [.str "Parameters"] (.dict params))
    (hpp : PlainParams params) (hk : PlainRuntime kvs) {v : Val} (hv : (Key.str "Runtime", v) ∈ kvs) {q : Path} {u : Val} (hu : PropValue v q u) (p m : Path) :
    (InForce objs args d.template { id := "E2531" } → ¬ RuntimePlace E.rows (RuntimeOver E.now) params u p m) ∧
    (InForce objs args d.template { id := "W2531" } → ¬ RuntimePlace E.rows (RuntimeAged E.now) params u p m) := by
  have hwt := clean_wf h hd
  have hw := resourceWith_wf hwt hr
  rw [Val.WF] at hw
  obtain ⟨top, ht⟩ := clean_object h hd
  have hg : d.template.getD "Parameters" (.dict []) = .ok (.dict params) := by
    rw [ht] at hp hwt ⊢
    rw [Val.WF] at hwt
    simp [Val.getD, dlookup_of_mem hwt.1 (at_dict_one.1 hp)]
  have hmove : ∀ {T : Lifecycle → Prop} {p' : Path}, RuntimePlace E.rows T params u p m → ∃ m', RuntimePlace E.rows T params u p' m' := by
    intro T p' hc
    cases hc with
    | value h1 => exact ⟨_, .value h1⟩
    | default h1 h2 h3 => exact ⟨_, .default h1 h2 h3⟩
    | allowed h1 h2 h3 h4 => exact ⟨_, .allowed h1 h2 h3 h4⟩
  constructor <;> intro hf hc
  · obtain ⟨l, h1, h2⟩ := C109_over hrows he E.now hpp hw.1 hk.never hk.values n [.str "Resources", k, .str "Properties"]
    cases types_found h hb.E2531 hd hf hr List.mem_cons_self (by rw [runtimesIn, hg]; exact h1)
    obtain ⟨m', hm'⟩ := hmove hc
    cases (h2 _).2 ⟨v, q, u, hv, hu, hm'⟩
  · obtain ⟨l, h1, h2⟩ := C109_aged hrows he E.now hpp hw.1 hk.never hk.values n [.str "Resources", k, .str "Properties"]
    cases types_found h hb.W2531 hd hf hr List.mem_cons_self (by rw [runtimesIn, hg]; exact h1)
    obtain ⟨m', hm'⟩ := hmove hc
    cases (h2 _).2 ⟨v, q, u, hv, hu, hm'⟩

/-- **C137** … and E3503 is in force, each name of a certificate is in its domain for validation, in each set of properties. Missing: options without sets. -/
theorem C137_domains_partial (h : CleanRun objs args all regions S beh name mark print ds) (hb : TypeRules beh E n) {d : Decoded} (hd : d ∈ ds)
    (hf : InForce objs args d.template { id := "E3503" }) {k : Key} {kvs : List (Key × Val)} (hr : ResourceWith d.template k "AWS::CertificateManager::Certificate" kvs)
    (hnull : NeverNull kvs "DomainValidationOptions")
    (hs : ∀ v q us, (Key.str "DomainValidationOptions", v) ∈ kvs → PropValue v q (.dict us) → Known (.dict us) →
      ∃ ss, E.sets d.template (.dict us) = .ok ss ∧ ∀ s ∈ ss, ∃ es, s.2 = .dict es ∧ (es.map Prod.fst).Nodup)
    {v : Val} (hv : (Key.str "DomainValidationOptions", v) ∈ kvs) {q : Path} {us : List (Key × Val)} (hu : PropValue v q (.dict us)) (hku : Known (.dict us))
    {ss : List (Option Scenario × Val)} (hss : E.sets d.template (.dict us) = .ok ss) {sc : Option Scenario} {es : List (Key × Val)} (he : (sc, Val.dict es) ∈ ss)
    {a b : String} (ha : (Key.str "DomainName", .str a) ∈ es) (hb' : (Key.str "ValidationDomain", .str b) ∈ es) : InDomain a b := by
  have hw := resourceWith_wf (clean_wf h hd) hr
  rw [Val.WF] at hw
  obtain ⟨l, h1, h2⟩ := C114_domains n hw.1 hnull hs [.str "Resources", k, .str "Properties"]
  cases types_found h hb.E3503 hd hf hr List.mem_cons_self h1
  by_contra hc
  cases (h2 _).2 ⟨v, q, us, ss, sc, es, hv, hu, hku, hss, he, ⟨a, b, ha, hb', hc⟩, rfl⟩

local macro "step " h:term : tactic => `(tactic| (split; (rename_i e he; intro s hs; cases hs; exact $h s he)))

theorem noAttr_zoneTexts (path : Path) (sc : Option Scenario) (a b : List Char) : NoAttr (zoneTexts path sc a b) := by
  have hd : ∀ l : List Char, NoAttr (withoutDot l) := by
    intro l s h
    unfold withoutDot at h
    split at h <;> cases h
  unfold zoneTexts
  split
  · intro s h; cases h
  · dsimp only
    step (hd b)
    step (hd a)
    exact noAttr_ok _

/-- the rule on the names of record sets fails unnoticed on no plain object -/
theorem noAttr_zoneCheck {enum : String → List String → List String} {order : List String → List String} {tb : CondTable} {kvs : List (Key × Val)}
    (hp : PlainObject kvs) (path : Path) : NoAttr (zoneCheck enum order tb (.dict kvs) path) := by
  unfold zoneCheck
  step (noAttr_objectWithoutNamed _ _ _ _ _)
  rename_i sets hs
  refine noAttr_collectM fun s hs' => ?_
  unfold objectWithoutNamed at hs
  split at hs
  · cases hs
  · split at hs
    · cases hs
    · obtain ⟨m, hm, _⟩ := sets_sound hp hs hs'
      unfold zoneSet
      rw [hm]
      simp only [Val.getD]
      split
      · exact noAttr_zoneTexts _ _ _ _
      · exact noAttr_ok _

/-- **C137** … and E3041 is in force, in every deployment in which a record has a name and the name of a zone the latter ends in a dot, and the name ends with the
characters of the zone. Missing: properties with unusual conditions; that the name is in the zone, C100. -/
theorem C137_records_partial (h : CleanRun objs args all regions S beh name mark print ds) (hb : TypeRules beh E n) (hso : SetOrder E.conds.order) {d : Decoded} (hd : d ∈ ds)
    (hf : InForce objs args d.template { id := "E3041" }) {k : Key} {kvs : List (Key × Val)} (hr : ResourceWith d.template k "AWS::Route53::RecordSet" kvs)
    (hp : PlainObject kvs) {H : Val → String} {fuel : Nat} {t : List (Key × Val)} {b : String → Bool}
    (hdep : Deployment H fuel E.conds.enum t (E.conds.tb d.template) (GroupCond kvs zoneProps) b) {a z : String}
    (ha : TextUnder b kvs "Name" a) (hz : TextUnder b kvs "HostedZoneName" z) :
    EndsInDot z ∧ ∃ x y, DomainOf a x ∧ DomainOf z y ∧ EndsWith x y := by
  have hw := resourceWith_wf (clean_wf h hd) hr
  rw [Val.WF] at hw
  obtain ⟨msg, hm⟩ := types_silent h hb.E3041 hd hf hr List.mem_cons_self
  have hrun := noAttr_nil (noAttr_zoneCheck hp _) hm
  obtain ⟨h1, h2⟩ := C100_complete_partial hso hw.1 hp hdep hrun ha hz
  constructor
  · by_contra hc
    obtain ⟨r, hr, _⟩ := h1 hc
    cases hr
  · by_contra hc
    obtain ⟨r, hr, _⟩ := h2 (fun x y hx hy he => hc ⟨x, y, hx, hy, he⟩)
    cases hr

/-- **C137** … and E3039 is in force, in every deployment the attributes that a table defines are those that its keys and indexes use. Missing: tables of other shapes. -/
theorem C137_tables_partial (h : CleanRun objs args all regions S beh name mark print ds) (hb : TypeRules beh E n) (hso : SetOrder E.conds.order) {d : Decoded} (hd : d ∈ ds)
    (hf : InForce objs args d.template { id := "E3039" }) {k : Key} {kvs : List (Key × Val)} (hr : ResourceWith d.template k "AWS::DynamoDB::Table" kvs)
    (hg : TableOf PlainSchema kvs)
    (hno : NoAttr (tableCheck E.conds.enum E.conds.order (E.conds.tb d.template) (.dict kvs) [.str "Resources", k, .str "Properties"]))
    {H : Val → String} {fuel : Nat} {t : List (Key × Val)} {b : String → Bool}
    (hdep : Deployment H fuel E.conds.enum t (E.conds.tb d.template) (GroupCond kvs tableProps) b) (a : String) : Defines b kvs a ↔ KeysUse b kvs a := by
  obtain ⟨msg, hm⟩ := types_silent h hb.E3039 hd hf hr List.mem_cons_self
  have hrun := noAttr_nil hno hm
  by_contra hc
  obtain ⟨r, hr, _⟩ := C96_complete_partial hso hg hdep hrun (fun hall => hc (hall a))
  cases hr

/-- **C137** … and E3026 is in force, no replication group with cluster mode has the failover off or too few nodes. Missing: groups of other shapes, C117. -/
theorem C137_clusters_partial (h : CleanRun objs args all regions S beh name mark print ds) (hb : TypeRules beh E n) {d : Decoded} (hd : d ∈ ds)
    (hf : InForce objs args d.template { id := "E3026" }) {k : Key} {kvs : List (Key × Val)} (hr : ResourceWith d.template k "AWS::ElastiCache::ReplicationGroup" kvs)
    (href : ∀ v q m w, (Key.str "CacheParameterGroupName", v) ∈ kvs → Leaf v q (.dict m) → (Key.str "Ref", w) ∈ m → ∃ s, w = .str s)
    (hs : ∀ q g, GroupRef d.template kvs q g → ClusterShape d.template kvs [.str "Resources", k, .str "Properties"] q g (E.scenarios d.template))
    {q : Path} {g : String} (hg : GroupRef d.template kvs q g) (x : Path × Option Scenario) :
    ¬ ClusterFinding E.small (E.scenarios d.template) d.template kvs [.str "Resources", k, .str "Properties"] q g x := by
  have hwt := clean_wf h hd
  have hw := resourceWith_wf hwt hr
  obtain ⟨top, ht⟩ := clean_object h hd
  have hall : ∃ l, failoverRule E.small (E.scenarios d.template) d.template kvs [.str "Resources", k, .str "Properties"] = .ok l ∧
      ∀ x, x ∈ l ↔ ∃ q g, GroupRef d.template kvs q g ∧ ClusterFinding E.small (E.scenarios d.template) d.template kvs [.str "Resources", k, .str "Properties"] q g x := by
    generalize E.scenarios d.template = sc at hs ⊢
    rw [ht] at hwt hs ⊢
    exact C117_clusters_partial hwt hw href hs
  obtain ⟨l, h1, h2⟩ := hall
  cases types_found h hb.E3026 hd hf hr List.mem_cons_self h1
  intro hc
  cases (h2 x).2 ⟨q, g, hg, hc⟩

end Clean

/-- the rules on the properties of particular types -/
def typeIds : List String :=
  ["E3027", "E2532", "W2511", "W3002", "W2510", "W3010", "E3050", "E2507", "W3037", "E2531", "W2531", "E3503", "E3041", "E3039", "E3026"]

/-- what the rules on the properties of particular types are for, but for deployments -/
structure Spec.TypesRight (E : TypeEnv) (t : Val) : Prop where
  schedule : ∀ k kvs v q u, ResourceWith t k "AWS::Events::Rule" kvs → (Key.str "ScheduleExpression", v) ∈ kvs → PropValue v q u → NoCall u → ∃ s, u = .str s ∧
    ((∃ b m x, Enclosed "rate" s b ∧ Pieces ' ' b [m, x] ∧ m ≠ [] ∧ ∀ c ∈ m, E.digit c = true) ∨
     (∃ b mi h dom mo dow y, Enclosed "cron" s b ∧ Pieces ' ' b [mi, h, dom, mo, dow, y] ∧ (dom = ['?'] ∨ dow = ['?'])))
  machines : ∀ k kvs v q u r f, ResourceWith t k "AWS::StepFunctions::StateMachine" kvs → (Key.str "DefinitionString", v) ∈ kvs → PropValue v q u →
    ¬ DefinitionFault E.loads ruleStates u r f
  versions : ∀ k ty key kvs p, ResourceWith t k ty kvs → DocumentOf ty key → ¬ OldVersionIn kvs key p
  packages : ∀ k ty key kvs v q s, ResourceWith t k ty kvs → NamesPackage ty key → (Key.str key, v) ∈ kvs → ¬ PropValue v q (.str s)
  memory : ∀ k kvs params v q s ps, ResourceWith t k "AWS::Lambda::Function" kvs → At t [.str "Parameters"] (.dict params) → (Key.str "MemorySize", v) ∈ kvs →
    PropValue v q (.dict [(.str "Ref", .str s)]) → (Key.str s, .dict ps) ∈ params → ¬ Unbounded ps
  zones : ∀ k ty kvs v q u, ResourceWith t k ty kvs → ty ∈ zoneTypes → ∀ key ∈ ["AvailabilityZone", "AvailabilityZones"], (Key.str key, v) ∈ kvs →
    PropValue v q u → ¬ FixedZone u
  roles : ∀ k kvs v q u, ResourceWith t k "AWS::CodeBuild::Project" kvs → (Key.str "ServiceRole", v) ∈ kvs → PropValue v q u → ¬ RefToPath t u
  policies : ∀ k ty kvs identity p u f q, ResourceWith t k ty kvs → PolicyType identity ty → ResourceDoc kvs p u →
    ¬ DocProblem E.decode identity (decide (ty = "AWS::ECR::Repository")) u f q
  actions : ∀ k ty kvs a r f, ResourceWith t k ty kvs → ty ∈ permissionTypes → ResourceAction E.decode kvs a r → ¬ PermitFault E.actions a f
  runtimes : ∀ k kvs params v q u p m, ResourceWith t k "AWS::Lambda::Function" kvs → At t [.str "Parameters"] (.dict params) → (Key.str "Runtime", v) ∈ kvs →
    PropValue v q u → ¬ RuntimePlace E.rows (RuntimeOver E.now) params u p m ∧ ¬ RuntimePlace E.rows (RuntimeAged E.now) params u p m

/-- **C137** The full statement: if the command ends with status 0 and the rules on the properties of particular types are in force, what they are for holds of the
templates. -/
def C137_statement : Prop :=
  ∀ (objs : List RuleObj) (args : Sources) (all : List String) (regions : List Val) (S : TypeSpecs) (beh : RuleObj → Behaviour) (name : Val → String)
    (mark : Val → MVal) (print : List Match → PyM Unit) (ds : List Decoded) (E : TypeEnv) (n : Nat),
    CleanRun objs args all regions S beh name mark print ds → TypeRules beh E n → ∀ d ∈ ds,
    (∀ i ∈ typeIds, InForce objs args d.template { id := i }) → TypesRight E d.template

/-- a world without JSON, with the actions of one service and two runtimes -/
def exTypeEnv : TypeEnv where
  digit c := c.isDigit
  loads _ := none
  decode _ := none
  actions := [("s3", ["GetObject", "GetObjects"])]
  rows := [("old", ⟨1, 2⟩), ("new", ⟨8, 9⟩)]
  now := 5
  conds := ⟨fun _ s => s, List.eraseDups, fun t => (Conditions.init exHash 5 t).1⟩
  sets _ v := .ok [(none, v)]
  scenarios _ _ := .ok []
  small _ := false

/-- the functions of these rules -/
def exTypeProps (i : String) (t : Val) (kvs : List (Key × Val)) (ty : String) (path : Path) : PyM (List (Path × String)) :=
  let E := exTypeEnv
  if i = "E3027" then withText Prod.fst (fun _ => "schedule") (scheduleRule 2 E.digit (.dict kvs) path)
  else if i = "E2532" then withText Prod.fst (fun _ => "machine") (stateMachineRule E.loads 2 (.dict kvs) path)
  else if i = "W2511" then withText id (fun _ => "version") (versionRule 2 ty kvs path)
  else if i = "W3002" then withText id (fun _ => "package") (packagedRule 2 ty (.dict kvs) path)
  else if i = "W2510" then withText id (fun _ => "memory") (memoryRule t 2 (.dict kvs) path)
  else if i = "W3010" then withText id (fun _ => "zone") (zoneRule 2 (.dict kvs) path)
  else if i = "E3050" then withText id (fun _ => "role") (refWithPathRule t 2 (.dict kvs) path)
  else if i = "E2507" then withText Prod.snd (fun _ => "policy") (iamPolicy 2 E.decode ty kvs path)
  else if i = "W3037" then withText Prod.snd (fun _ => "action") (permissions 2 E.decode E.actions kvs path)
  else if i = "E2531" then withText id (fun _ => "ended") (runtimesIn E.rows (runtimeEnded E.now) 2 t kvs path)
  else if i = "W2531" then withText id (fun _ => "aged") (runtimesIn E.rows (runtimeEol E.now) 2 t kvs path)
  else if i = "E3503" then withText id (fun _ => "domain") (domainOptionRule (E.sets t) 2 (.dict kvs) path)
  else if i = "E3041" then withText ZoneReport.path (fun _ => "record") (zoneCheck E.conds.enum E.conds.order (E.conds.tb t) (.dict kvs) path)
  else if i = "E3039" then withText TableReport.path (fun _ => "table") (tableCheck E.conds.enum E.conds.order (E.conds.tb t) (.dict kvs) path)
  else if i = "E3026" then withText Prod.fst (fun _ => "cluster") (failoverRule E.small (E.scenarios t) t kvs path)
  else .ok []

/-- the types of these rules -/
def exTypeTypes (i : String) : List String :=
  if i = "E3027" then ["AWS::Events::Rule"] else if i = "E2532" then ["AWS::StepFunctions::StateMachine"]
  else if i = "W2511" then versionKeys.map Prod.fst else if i = "W3002" then packagedKeys.map Prod.fst
  else if i = "W2510" then ["AWS::Lambda::Function"] else if i = "W3010" then zoneTypes else if i = "E3050" then ["AWS::CodeBuild::Project"]
  else if i = "E2507" then resourcePolicyTypes ++ identityPolicyTypes else if i = "W3037" then permissionTypes
  else if i = "E2531" then ["AWS::Lambda::Function"] else if i = "W2531" then ["AWS::Lambda::Function"]
  else if i = "E3503" then ["AWS::CertificateManager::Certificate"] else if i = "E3041" then ["AWS::Route53::RecordSet"]
  else if i = "E3039" then ["AWS::DynamoDB::Table"] else if i = "E3026" then ["AWS::ElastiCache::ReplicationGroup"] else []

/-- the objects rules are called on, by what they do with the entries -/
def onObject (f : Val → List (Key × Val) → String → Path → PyM (List (Path × String))) (t v : Val) (ty : String) (path : Path) : PyM (List (Path × String)) :=
  match v with
  | .dict kvs => f t kvs ty path
  | _ => .ok []

/-- rules with these functions -/
def exTypeRules (r : RuleObj) : Behaviour where
  propertyTypes := exTypeTypes r.info.id
  properties := some (onObject (exTypeProps r.info.id))
  subTypes := if r.info.id = "W3010" then zoneSubTypes else []
  subProperties := some (onObject (exTypeProps r.info.id))

theorem exTypeRules_rules : TypeRules exTypeRules exTypeEnv 0 := by
  constructor <;> intro r hr <;>
    exact ⟨fun ty h => by simpa [exTypeRules, exTypeTypes, hr] using h, _, _, rfl, fun t kvs ty path => by simp [onObject, exTypeProps, hr]; rfl⟩

theorem exType_run {t : Val} (hw : t.WF) (ht : t.truthy = true ∧ ∃ top, t = .dict top) (ha : setTemplateArgs t = .ok [])
    (hd : getDirectives (markAll default t) = .ok [])
    (hr : runCommand .script (withIds typeIds) (c50Args [] false []) (checkWith [] [] ⟨[], []⟩ exTypeRules (fun _ => "t") (markAll default))
      (fun _ => .ok ()) [⟨t, []⟩] = 0) :
    CleanRun (withIds typeIds) (c50Args [] false []) [] [] ⟨[], []⟩ exTypeRules (fun _ => "t") (markAll default) (fun _ => .ok ()) [⟨t, []⟩] :=
  rules_clean (severity_ids (by decide)) (fun _ _ => rfl) hw ht ha hd hr

theorem exType_inForce {t : Val} (ha : setTemplateArgs t = .ok []) {i : String} (hi : i ∈ typeIds) :
    InForce (withIds typeIds) (c50Args [] false []) t { id := i } := by
  refine rules_inForce hi ha ?_
  revert i
  decide

/-- a template with a parameter and one resource -/
def exTypedOne (ty : String) (kvs : List (Key × Val)) : Val :=
  .dict [(.str "Parameters", .dict [(.str "P", .dict [(.str "Type", .str "String"), (.str "AllowedValues", .list [.str "new"])])]),
    (.str "Resources", .dict [(.str "R", .dict [(.str "Type", .str ty), (.str "Properties", .dict kvs)])])]

theorem exTypedOne_resource (ty : String) (kvs : List (Key × Val)) : ResourceWith (exTypedOne ty kvs) (.str "R") ty kvs :=
  ⟨_, _, _, rfl, List.mem_cons_of_mem _ List.mem_cons_self, List.mem_cons_self, rfl, rfl⟩

theorem exTypedOne_args (ty : String) (kvs : List (Key × Val)) : setTemplateArgs (exTypedOne ty kvs) = .ok [] := rfl

theorem exTypedOne_in {ty : String} {kvs : List (Key × Val)} {i : String} (hi : i ∈ typeIds) :
    InForce (withIds typeIds) (c50Args [] false []) (exTypedOne ty kvs) { id := i } := exType_inForce (exTypedOne_args ty kvs) hi

/-- the value of a property that is an object with another key than `Fn::If` -/
theorem propValue_single {k : String} (hk : k ≠ "Fn::If") {w : Val} {q : Path} {u : Val} (h : PropValue (.dict [(.str k, w)]) q u) : q = [] ∧ u = .dict [(.str k, w)] := by
  have hn : ∀ x, (Key.str "Fn::If", x) ∉ [(Key.str k, w)] := by
    intro x hx
    simp at hx
    exact hk hx.1.symm
  obtain ⟨p, v, hl, ⟨-, rfl, rfl⟩ | ⟨xs, i, x, r, e, -⟩⟩ := h
  · have := (leaf_plain hn).1 hl
    exact ⟨this.1, this.2.1⟩
  · have := ((leaf_plain hn).1 hl).2.1
    rw [e] at this
    cases this

theorem propValue_call {k : String} (hk : k ≠ "Fn::If") {w : Val} (hw : Val.dict [(.str k, w)] ≠ noValue) : PropValue (.dict [(.str k, w)]) [] (.dict [(.str k, w)]) :=
  ⟨[], _, .here (by rintro ⟨x, e⟩; simp at e; exact hk e.1) hw, .inl ⟨by simp, rfl, rfl⟩⟩

theorem neverNull_single {key k : String} (hk : k ≠ "Fn::If") (w : Val) : NeverNull [(.str key, .dict [(.str k, w)])] key := by
  intro v hv
  simp at hv
  subst hv
  refine ⟨by simp, fun q hl => ?_⟩
  have := ((leaf_plain (by intro x hx; simp at hx; exact hk hx.1.symm)).1 hl).2.1
  cases this

theorem neverNull_text (key s : String) : NeverNull [(.str key, .str s)] key := by
  intro v hv
  simp at hv
  subst hv
  exact ⟨by simp, fun q hl => by cases (leaf_str hl).2⟩

/-- C137 fails as it stands: the failure of E3027 on an expression that is an object is not shown. -/
theorem C137_object_violated : ¬ C137_statement := by
  intro h
  have hrun := exType_run (t := exTypedOne "AWS::Events::Rule" [(.str "ScheduleExpression", .dict [(.str "X", .str "y")])])
    (by simp [exTypedOne, Val.WF, Val.WFDict, Val.WFList]) ⟨rfl, _, rfl⟩ (exTypedOne_args _ _) (by decide +kernel) (by decide +kernel)
  obtain ⟨s, e, -⟩ := (h _ _ _ _ _ _ _ _ _ _ _ _ hrun exTypeRules_rules _ List.mem_cons_self (fun i hi => exTypedOne_in hi)).schedule _ _ _ _ _
    (exTypedOne_resource _ _) List.mem_cons_self (propValue_call (by decide) (by simp [noValue])) (by
      intro name arg hn e
      simp only [Val.dict.injEq, List.cons.injEq, Prod.mk.injEq, Key.str.injEq, and_true] at e
      obtain ⟨rfl, -⟩ := e
      exact absurd hn (by decide))
  cases e

/-! ### the hypotheses are met -/

theorem noCall_key {k : String} {w : Val} (hk : k ∉ functionNames) : NoCall (.dict [(.str k, w)]) := by
  intro name arg hn e
  simp only [Val.dict.injEq, List.cons.injEq, Prod.mk.injEq, Key.str.injEq, and_true] at e
  obtain ⟨rfl, -⟩ := e
  exact hk hn

local macro "ran" : term => `(exType_run (by simp [exTypedOne, Val.WF, Val.WFDict, Val.WFList]) ⟨rfl, _, rfl⟩ (exTypedOne_args _ _) (by decide +kernel) (by decide +kernel))

/-- `C137_schedule_partial` -/
example : (∃ b m u, Enclosed "rate" "rate(5 minutes)" b ∧ Pieces ' ' b [m, u] ∧ m ≠ [] ∧ ∀ c ∈ m, exTypeEnv.digit c = true) ∨
    (∃ b mi h dom mo dow y, Enclosed "cron" "rate(5 minutes)" b ∧ Pieces ' ' b [mi, h, dom, mo, dow, y] ∧ (dom = ['?'] ∨ dow = ['?'])) :=
  C137_schedule_partial (d := ⟨exTypedOne "AWS::Events::Rule" [(.str "ScheduleExpression", .str "rate(5 minutes)")], []⟩) ran exTypeRules_rules List.mem_cons_self
    (exTypedOne_in (by decide)) (exTypedOne_resource _ _) (neverNull_text _ _) List.mem_cons_self (fun q u h _ => ⟨_, (propValue_str h).2⟩)
    ⟨[], _, .here (fun ⟨x, hx⟩ => by cases hx) (by simp [noValue]), .inl ⟨by simp, rfl, rfl⟩⟩

/-- `C137_machines_partial` -/
example (r : Path) (f : SmFault) : ¬ DefinitionFault (fun _ => none) ruleStates (.dict [(.str "Fn::Sub", .str "x")]) r f :=
  C137_machines_partial (d := ⟨exTypedOne "AWS::StepFunctions::StateMachine" [(.str "DefinitionString", .dict [(.str "Fn::Sub", .str "x")])], []⟩) ran exTypeRules_rules
    List.mem_cons_self (exTypedOne_in (by decide)) (exTypedOne_resource _ _) (neverNull_single (by decide) _) List.mem_cons_self (fun _ _ _ _ _ h => by cases h)
    (fun q x h => by
      have := (propValue_single (by decide) h).2
      simp at this
      subst this
      exact ⟨by simp, fun _ _ _ h => by cases h⟩)
    (propValue_call (by decide) (by simp [noValue])) r f

/-- documents that are an object with one key are plain -/
theorem plainDocuments_single {key k s : String} (hk : k ≠ "Fn::If") : PlainDocuments [(.str key, .dict [(.str k, .str s)])] key := by
  refine ⟨by simp [Val.WF, Val.WFDict], neverNull_single hk _, ?_⟩
  intro v q doc w h hq hk' hm
  simp at h
  subst h
  have := (propValue_single hk hq).2
  injection this with e
  subst e
  simp at hm
  exact absurd hm.1.symm hk

/-- `C137_versions_partial` -/
example (p : Path) : ¬ OldVersionIn [(.str "KeyPolicy", .dict [(.str "Version", .str "2012-10-17")])] "KeyPolicy" p :=
  C137_versions_partial (d := ⟨exTypedOne "AWS::KMS::Key" [(.str "KeyPolicy", .dict [(.str "Version", .str "2012-10-17")])], []⟩) ran exTypeRules_rules
    List.mem_cons_self (exTypedOne_in (by decide)) (exTypedOne_resource _ _) .key (plainDocuments_single (by decide)) p

/-- `C137_policy_versions_partial` -/
example (p : Path) : ¬ OldVersionIn [(.str "PolicyDocument", .dict [(.str "Version", .str "2012-10-17")])] "PolicyDocument" p :=
  C137_policy_versions_partial (d := ⟨exTypedOne "AWS::IAM::Role" [(.str "Policies", .list [.dict [(.str "PolicyDocument", .dict [(.str "Version", .str "2012-10-17")])]])], []⟩) ran
    exTypeRules_rules List.mem_cons_self (exTypedOne_in (by decide)) (exTypedOne_resource _ _) (by simp [HasPolicies]) List.mem_cons_self (fun pol h => by
      simp at h
      subst h
      exact plainDocuments_single (by decide)) List.mem_cons_self p

/-- `C137_packages_partial` -/
example (q : Path) (s : String) : ¬ PropValue (.dict [(.str "S3Bucket", .str "b")]) q (.str s) :=
  C137_packages_partial (d := ⟨exTypedOne "AWS::Lambda::Function" [(.str "Code", .dict [(.str "S3Bucket", .str "b")])], []⟩) ran exTypeRules_rules
    List.mem_cons_self (exTypedOne_in (by decide)) (exTypedOne_resource _ _) .function (neverNull_single (by decide) _) List.mem_cons_self q s

theorem ref_text {key s : String} {v x : Val} {q : Path} (h : (Key.str key, v) ∈ [(Key.str key, Val.dict [(Key.str "Ref", Val.str s)])])
    (hp : PropValue v q (.dict [(.str "Ref", x)])) : ∃ s, x = .str s := by
  simp at h
  subst h
  have := (propValue_single (by decide) hp).2
  simp at this
  exact ⟨_, this⟩

/-- `C137_memory_partial` -/
example : ¬ Unbounded [(.str "Type", .str "String"), (.str "AllowedValues", .list [.str "new"])] :=
  C137_memory_partial (d := ⟨exTypedOne "AWS::Lambda::Function" [(.str "MemorySize", .dict [(.str "Ref", .str "P")])], []⟩) ran exTypeRules_rules
    List.mem_cons_self (exTypedOne_in (by decide)) (exTypedOne_resource _ _) (at_dict_one.2 List.mem_cons_self) (fun s v h => by simp at h; exact ⟨_, h.2⟩)
    (neverNull_single (by decide) _) (fun v q x => ref_text) List.mem_cons_self (propValue_call (by decide) (by simp [noValue])) List.mem_cons_self

/-- no key but the one there is gives null -/
theorem neverNull_other {key key' k : String} (hk : k ≠ "Fn::If") (w : Val) : NeverNull [(.str key, .dict [(.str k, w)])] key' := by
  intro v hv
  simp at hv
  obtain ⟨rfl, rfl⟩ := hv
  exact neverNull_single (key := key') hk w _ List.mem_cons_self

/-- `C137_zones_partial` -/
example : ¬ FixedZone (.dict [(.str "Fn::GetAZs", .str "")]) :=
  C137_zones_partial (d := ⟨exTypedOne "AWS::DAX::Cluster" [(.str "AvailabilityZones", .dict [(.str "Fn::GetAZs", .str "")])], []⟩) ran exTypeRules_rules
    List.mem_cons_self (exTypedOne_in (by decide)) (exTypedOne_resource _ _) (by decide) (fun _ _ => neverNull_other (by decide) _) (key := "AvailabilityZones") (by decide)
    List.mem_cons_self (propValue_call (by decide) (by simp [noValue]))

/-- `C137_roles_partial` -/
example : ¬ RefToPath (exTypedOne "AWS::CodeBuild::Project" [(.str "ServiceRole", .dict [(.str "Ref", .str "R")])]) (.dict [(.str "Ref", .str "R")]) :=
  C137_roles_partial (d := ⟨exTypedOne "AWS::CodeBuild::Project" [(.str "ServiceRole", .dict [(.str "Ref", .str "R")])], []⟩) ran exTypeRules_rules
    List.mem_cons_self (exTypedOne_in (by decide)) (exTypedOne_resource _ _) (rs := [(.str "R", .dict [(.str "Type", .str "AWS::CodeBuild::Project"),
      (.str "Properties", .dict [(.str "ServiceRole", .dict [(.str "Ref", .str "R")])])])]) rfl (by
      rintro k r v ⟨top, res, ty, e, h1, h2, -⟩ h
      simp only [exTypedOne, Val.dict.injEq] at e
      subst e
      simp at h1
      subst h1
      simp at h2
      obtain ⟨-, rfl⟩ := h2
      simp at h
      exact ⟨_, h⟩)
    (neverNull_single (by decide) _) (fun v q x => ref_text) List.mem_cons_self (propValue_call (by decide) (by simp [noValue]))

/-- a document with its version only -/
def exVersionDoc : List (Key × Val) := [(.str "Version", .str "2012-10-17")]

theorem exVersionDoc_good (decode : String → Option Val) : GoodPolicies decode (exIamPolicy (.dict exVersionDoc)) := by
  have hw : (Val.dict exVersionDoc).WF := by simp [exVersionDoc, Val.WF, Val.WFDict]
  refine ⟨by simp [exIamPolicy, exVersionDoc, Val.WF, Val.WFDict], fun k hk v hv => ?_, fun xs es h => ?_⟩
  · simp only [exIamPolicy, List.mem_singleton, Prod.mk.injEq] at hv
    obtain ⟨-, rfl⟩ := hv
    refine ⟨by simp, fun q h => ?_, fun q u h hn es hd => ?_⟩
    · have := ((leaf_plain (by simp [exVersionDoc])).1 h).2.1
      cases this
    · obtain ⟨-, rfl⟩ := propValue_single (by decide) h
      rcases hd with e | ⟨s, e, -⟩
      · cases e
        refine ⟨hw, fun q es' ds hl hk => ?_⟩
        have := ((leaf_plain (by simp)).1 hl).2.1
        cases this
        have hm := hk.1
        simp at hm
      · cases e
  · simp [exIamPolicy] at h

/-- `C137_policies_partial` -/
example (f : IamFault) (q : Path) : ¬ DocProblem (fun _ => none) true (decide ("AWS::IAM::Policy" = "AWS::ECR::Repository")) (.dict exVersionDoc) f q := by
  have hrun := exType_run (t := exTypedOne "AWS::IAM::Policy" (exIamPolicy (.dict exVersionDoc)))
    (by simp [exTypedOne, exIamPolicy, exVersionDoc, Val.WF, Val.WFDict, Val.WFList]) ⟨rfl, _, rfl⟩ (exTypedOne_args _ _) (by decide +kernel) (by decide +kernel)
  exact C137_policies_partial hrun exTypeRules_rules List.mem_cons_self (exTypedOne_in (by decide)) (exTypedOne_resource _ _) .policy (exVersionDoc_good _)
    (p := [.str "PolicyDocument"])
    (.inl ⟨_, by decide, _, [], List.mem_cons_self, propValue_call (by decide) (by simp [noValue]), noCall_key (by decide), rfl⟩) f q

/-- `C137_actions_partial` -/
example {a : String} {r : Path} (ha : ResourceAction (fun _ => none) (exPermPolicy (.dict exPermStatement)) a r) (f : PermFault) :
    ¬ PermitFault [("s3", ["GetObject", "GetObjects"])] a f := by
  have hrun : CleanRun (withIds ["W3037"]) (c50Args [] false []) [] [] ⟨[], []⟩ exTypeRules (fun _ => "t") (markAll default) (fun _ => .ok ())
      [⟨exTypedOne "AWS::SNS::TopicPolicy" (exPermPolicy (.dict exPermStatement)), []⟩] :=
    rules_clean (severity_ids (by decide)) (fun _ _ => rfl) (by simp [exTypedOne, exPermPolicy, exPermStatement, Val.WF, Val.WFDict, Val.WFList]) ⟨rfl, _, rfl⟩
      (exTypedOne_args _ _) (by decide +kernel) (by decide +kernel)
  exact C137_actions_partial hrun exTypeRules_rules List.mem_cons_self (rules_inForce (by decide) (exTypedOne_args _ _) (by decide)) (exTypedOne_resource _ _) (by decide)
    (exPerm_good _) (fun a r => exPerm_plain _) ha f

/-- `C137_runtimes_partial` -/
example (p m : Path) : ¬ RuntimePlace exTypeEnv.rows (RuntimeOver 5) [(.str "P", .dict [(.str "Type", .str "String"), (.str "AllowedValues", .list [.str "new"])])]
    (.dict [(.str "Ref", .str "P")]) p m := by
  refine (C137_runtimes_partial (d := ⟨exTypedOne "AWS::Lambda::Function" [(.str "Runtime", .dict [(.str "Ref", .str "P")])], []⟩) ran exTypeRules_rules
    List.mem_cons_self (exTypedOne_resource _ _) (by decide) ?_ (at_dict_one.2 List.mem_cons_self) ?_ ?_ List.mem_cons_self
    (propValue_call (by decide) (by simp [noValue])) p m).1 (exTypedOne_in (by decide))
  · intro r h
    simp [exTypeEnv] at h
  · refine ⟨by simp [Val.WF, Val.WFDict, Val.WFList], ?_⟩
    intro k par h
    simp only [List.mem_singleton, Prod.mk.injEq] at h
    obtain ⟨-, rfl⟩ := h
    refine ⟨_, rfl, ?_, ?_⟩
    · intro d h
      simp at h
    · intro xs x h hx
      simp at h
      subst h
      simp at hx
      subst hx
      exact ⟨fun _ e => (by cases e), fun _ e => (by cases e)⟩
  · refine ⟨neverNull_single (by decide) _, fun v q u h hu => ?_⟩
    simp at h
    subst h
    obtain ⟨-, rfl⟩ := propValue_single (by decide) hu
    refine ⟨fun hk => absurd (hk _ _ rfl) (by decide), fun x e => ?_⟩
    simp at e
    exact ⟨_, e.symm⟩

/-- `C137_domains_partial` -/
example : InDomain "a.b" "b" := by
  have hn : ∀ w, (Key.str "Fn::If", w) ∉ [(Key.str "DomainName", Val.str "a.b"), (Key.str "ValidationDomain", .str "b")] := by simp
  have hrun := exType_run (t := exTypedOne "AWS::CertificateManager::Certificate" [(.str "DomainValidationOptions",
      .dict [(.str "DomainName", .str "a.b"), (.str "ValidationDomain", .str "b")])])
    (by simp [exTypedOne, Val.WF, Val.WFDict, Val.WFList]) ⟨rfl, _, rfl⟩ (exTypedOne_args _ _) (by decide +kernel) (by decide +kernel)
  refine C137_domains_partial hrun exTypeRules_rules List.mem_cons_self (exTypedOne_in (by decide)) (exTypedOne_resource _ _) ?_ ?_ List.mem_cons_self (q := [])
    ⟨[], _, (leaf_plain hn).2 ⟨rfl, rfl, by simp [noValue]⟩, .inl ⟨by simp, rfl, rfl⟩⟩ ?_ rfl List.mem_cons_self List.mem_cons_self (List.mem_cons_of_mem _ List.mem_cons_self)
  · intro v hv
    simp at hv
    subst hv
    refine ⟨by simp, fun q hl => ?_⟩
    have := ((leaf_plain hn).1 hl).2.1
    cases this
  · intro v q us h hp _
    simp at h
    subst h
    obtain ⟨p, w, hl, ⟨-, rfl, rfl⟩ | ⟨xs, i, x, r, e, -⟩⟩ := hp
    · have := ((leaf_plain hn).1 hl).2.1
      injection this with e
      subst e
      refine ⟨_, rfl, fun s hs => ?_⟩
      cases List.mem_singleton.1 hs
      exact ⟨_, rfl, by decide⟩
    · have := ((leaf_plain hn).1 hl).2.1
      rw [e] at this
      cases this
  · intro f a e
    simp at e

/-- resources with one of a type, next to conditions -/
abbrev exOnly (ty : String) (kvs : List (Key × Val)) : List (Key × Val) := [(.str "R", .dict [(.str "Type", .str ty), (.str "Properties", .dict kvs)])]

theorem exOnly_resource (ty : String) (kvs : List (Key × Val)) : ResourceWith (.dict (exRel (exOnly ty kvs))) (.str "R") ty kvs :=
  ⟨_, _, _, rfl, List.mem_append_right _ List.mem_cons_self, List.mem_cons_self, rfl, rfl⟩

theorem exOnly_args (ty : String) (kvs : List (Key × Val)) : setTemplateArgs (.dict (exRel (exOnly ty kvs))) = .ok [] := rfl

/-- `C137_records_partial` -/
example : EndsInDot "example.com." ∧ ∃ x y, DomainOf "a.example.com" x ∧ DomainOf "example.com." y ∧ EndsWith x y := by
  have hrun := exType_run (t := .dict (exRel (exOnly "AWS::Route53::RecordSet" (exZoneObj "a.example.com" "example.com."))))
    (exRel_wf (by simp [exZoneObj, Val.WF, Val.WFDict])) ⟨rfl, _, rfl⟩ (exOnly_args _ _) (by decide +kernel) (by decide +kernel)
  refine C137_records_partial hrun exTypeRules_rules setOrder_eraseDups List.mem_cons_self (exType_inForce (exOnly_args _ _) (by decide)) (exOnly_resource _ _)
    ⟨by decide, by decide, by simp [exZoneObj, Proper]⟩
    (exRel_deployment (s := "a") (b := fun _ => true) (by simp [exZoneObj, Val.WF, Val.WFDict]) (by decide +kernel) (.inl rfl) (fun c hc => ?_) rfl)
    ⟨_, [], List.mem_cons_self, .here strNotIf⟩ ⟨_, [], List.mem_cons_of_mem _ List.mem_cons_self, .here strNotIf⟩
  obtain ⟨p, _, v, hv, ha⟩ := hc
  simp only [exZoneObj, List.mem_cons, Prod.mk.injEq, Key.str.injEq, List.not_mem_nil, or_false] at hv
  rcases hv with ⟨_, rfl⟩ | ⟨_, rfl⟩ <;> cases ha

/-- a table with one key -/
def exOneKeyTable : List (Key × Val) := [(.str "AttributeDefinitions", .list (["A"].map exAttr)), (.str "KeySchema", .list [exAttr "A"])]

theorem exOneKeyTable_of : TableOf PlainSchema exOneKeyTable where
  wf := by simp [Val.WF, Val.WFDict, Val.WFList, exOneKeyTable, exAttr]
  plain := ⟨by simp [exOneKeyTable], by simp [exOneKeyTable], by
    intro kv hkv
    simp only [exOneKeyTable, List.mem_cons, List.not_mem_nil, or_false] at hkv
    rcases hkv with rfl | rfl <;> simp [Proper, ProperItems, exAttr]⟩
  defs := by
    intro v hv
    simp [exOneKeyTable] at hv
    subst hv
    exact exAttrs_of ["A"]
  keys := by
    intro v hv
    simp [exOneKeyTable] at hv
    subst hv
    refine ⟨by simp [noValue], ?_, fun σ => .inr ⟨_, _, .here list_notIf, ?_⟩⟩
    · intro xs e
      injection e with e
      subst e
      simp [exAttr, noValue]
    · intro x hx
      cases List.mem_singleton.1 hx
      exact ⟨_, _, .here (exAttr_notIf _), fun _ => ⟨_, exAttr_of _⟩⟩
  indexes := by
    intro p v hp hv
    simp only [exOneKeyTable, List.mem_cons, Prod.mk.injEq, Key.str.injEq, List.not_mem_nil, or_false] at hv
    rcases hv with ⟨rfl, _⟩ | ⟨rfl, _⟩ <;> simp at hp

/-- `C137_tables_partial` -/
example (a : String) : Defines (fun _ => true) exOneKeyTable a ↔ KeysUse (fun _ => true) exOneKeyTable a := by
  have hrun := exType_run (t := .dict (exRel (exOnly "AWS::DynamoDB::Table" exOneKeyTable)))
    (exRel_wf (by simp [exOneKeyTable, exAttr, Val.WF, Val.WFDict, Val.WFList])) ⟨rfl, _, rfl⟩ (exOnly_args _ _) (by decide +kernel) (by decide +kernel)
  refine C137_tables_partial hrun exTypeRules_rules setOrder_eraseDups List.mem_cons_self (exType_inForce (exOnly_args _ _) (by decide)) (exOnly_resource _ _)
    exOneKeyTable_of ?_
    (exRel_deployment (s := "a") (b := fun _ => true) (by simp [exOneKeyTable, exAttr, Val.WF, Val.WFDict, Val.WFList]) (by decide +kernel) (.inl rfl) (fun c hc => ?_) rfl) a
  · have : tableCheck exTypeEnv.conds.enum exTypeEnv.conds.order (exTypeEnv.conds.tb (.dict (exRel (exOnly "AWS::DynamoDB::Table" exOneKeyTable)))) (.dict exOneKeyTable)
        [.str "Resources", .str "R", .str "Properties"] = .ok [] := by decide +kernel
    exact this ▸ noAttr_ok _
  · obtain ⟨p, _, v, hv, ha⟩ := hc
    have hx : ∀ n, ¬ Asks c (exAttr n) := by
      intro n h
      generalize hz : exAttr n = z at h
      cases h <;> simp [exAttr, fnIf] at hz
    have hl : ¬ Asks c (.list [exAttr "A"]) := by
      intro h
      generalize hz : Val.list [exAttr "A"] = z at h
      cases h with
      | item hm h =>
        cases hz
        cases List.mem_singleton.1 hm
        exact hx _ h
      | _ => simp [fnIf] at hz
    simp only [exOneKeyTable, List.map_cons, List.map_nil, List.mem_cons, Prod.mk.injEq, Key.str.injEq, List.not_mem_nil, or_false] at hv
    rcases hv with ⟨_, rfl⟩ | ⟨_, rfl⟩ <;> exact absurd ha hl

/-- `C137_clusters_partial` -/
example (x : Path × Option Scenario) : ¬ ClusterFinding (fun _ => false) (fun _ => .ok [])
    (exCluster (.str "NumCacheClusters", .int 2) [(.str "Properties", .dict [(.str "cluster-enabled", .str "yes")])])
    (exReplication (.str "NumCacheClusters", .int 2)) [.str "Resources", .str "R", .str "Properties"] [] "G" x := by
  have hw : (exCluster (.str "NumCacheClusters", .int 2) [(.str "Properties", .dict [(.str "cluster-enabled", .str "yes")])]).WF := by simp [exCluster, Val.WF, Val.WFDict]
  have hat : At (exCluster (.str "NumCacheClusters", .int 2) [(.str "Properties", .dict [(.str "cluster-enabled", .str "yes")])])
      [.str "Resources", .str "G", .str "Properties", .str "Properties"] (.dict [(.str "cluster-enabled", .str "yes")]) :=
    .key List.mem_cons_self (.key (List.mem_cons_of_mem _ List.mem_cons_self) (.key (List.mem_cons_of_mem _ List.mem_cons_self) (.key List.mem_cons_self .here)))
  have hset : ObjectUnder none [(.str "cluster-enabled", .str "yes")] [(.str "cluster-enabled", .str "yes")] :=
    ⟨by simp [FlatObject, Flat], by simp [Closed], by simp [project]⟩
  have hleaf : ∀ v q m, (Key.str "CacheParameterGroupName", v) ∈ exReplication (.str "NumCacheClusters", .int 2) → Leaf v q (.dict m) → q = [] ∧ m = [(.str "Ref", .str "G")] := by
    intro v q m h1 h2
    simp [exReplication] at h1
    subst h1
    have := (leaf_plain (by simp)).1 h2
    exact ⟨this.1, by have := this.2.1; simpa using this⟩
  have hp : GoodPath (exCluster (.str "NumCacheClusters", .int 2) [(.str "Properties", .dict [(.str "cluster-enabled", .str "yes")])])
      [.str "Resources", .str "R", .str "Properties", .str "CacheParameterGroupName"] := goodPath_of_B hw (by decide)
  have ha : setTemplateArgs (exCluster (.str "NumCacheClusters", .int 2) [(.str "Properties", .dict [(.str "cluster-enabled", .str "yes")])]) = .ok [] := rfl
  have hrun := exType_run hw ⟨rfl, _, rfl⟩ ha (by decide +kernel) (by decide +kernel)
  refine C137_clusters_partial hrun exTypeRules_rules List.mem_cons_self (exType_inForce ha (by decide)) (k := .str "R")
    ⟨_, _, _, rfl, List.mem_cons_self, List.mem_cons_self, rfl, rfl⟩ ?_ ?_ (exGroupRef _ _) x
  · intro v q m w h1 h2 h3
    obtain ⟨-, rfl⟩ := hleaf v q m h1 h2
    simp at h3
    exact ⟨_, h3⟩
  · rintro q g ⟨v, m, r, h1, h2, h3, -⟩
    obtain ⟨rfl, rfl⟩ := hleaf v q m h1 h2
    simp at h3
    subst h3
    refine ⟨hp, _, [], [none], hat, rfl, .inl ⟨rfl, rfl⟩, ?_, ?_⟩
    · intro sc hsc s k b e
      rw [List.mem_singleton] at hsc
      subst hsc
      cases e
    · intro sc hsc
      rw [List.mem_singleton] at hsc
      subst hsc
      refine ⟨_, _, hset, exUnder 2, fun v hv => ?_⟩
      simp [exReplication, dlookup] at hv
      exact .inl ⟨2, hv.symm⟩

/-- a region with a resource type and a type of properties that requires `K` -/
def exFleetRegion : RegionSpec where
  resourceTypes := [("AWS::EC2::SpotFleet", .dict [(.str "Properties", .dict [(.str "S", .dict [(.str "Type", .str "SpotPlacement")])])])]
  propertyTypes := [("AWS::EC2::SpotFleet.SpotPlacement", .dict [(.str "Properties", .dict [(.str "AvailabilityZone", .dict [(.str "PrimitiveType", .str "String")])])])]
  valueTypes := []

/-- a template with one resource of the type, whose `S` is the object -/
def exFleet (o : List (Key × Val)) : Val := .dict [(.str "Resources", .dict [(.str "A", .dict [(.str "Type", .str "AWS::EC2::SpotFleet"),
  (.str "Properties", .dict [(.str "S", .dict o)])])])]

theorem exFleet_resource (o : List (Key × Val)) : ResourceWith (exFleet o) (.str "A") "AWS::EC2::SpotFleet" [(.str "S", .dict o)] :=
  ⟨_, _, _, rfl, List.mem_cons_self, List.mem_cons_self, rfl, rfl⟩

theorem exFleet_object {o : List (Key × Val)} (h1 : ¬ IsIf (.dict o)) (h2 : Val.dict o ≠ noValue) :
    TypedObject exFleetRegion (exFleet o) false "AWS::EC2::SpotFleet.SpotPlacement" [.str "Resources", .str "A", .str "Properties", .str "S"] o := by
  refine .below (ty := "SpotPlacement") (exFleet_resource o) rfl rfl ⟨?_, ⟨_, rfl⟩, h1, h2⟩
  exact .top (d := ⟨some "SpotPlacement", none⟩) (q := []) (leaf_prop _ (by decide) (by decide)) List.mem_cons_self rfl

/-- an object with a reference for its zone -/
abbrev exFleetZone (s : String) : List (Key × Val) := [(.str "AvailabilityZone", .dict [(.str "Ref", .str s)])]

theorem exFleet_pos {s : String} {D : Decl} {p : Path} {v : Val}
    (h : Pos (traversed exFleetRegion) "AWS::EC2::SpotFleet" [(.str "S", ⟨some "SpotPlacement", none⟩)] (.dict [(.str "S", .dict (exFleetZone s))]) [.str "Resources", .str "A", .str "Properties"] D p v) :
    (D = .single "SpotPlacement" ∧ v = .dict (exFleetZone s)) ∨ (D = .primitive ∧ v = .dict [(.str "Ref", .str s)]) := by
  induction h with
  | top hl hm hd =>
    obtain ⟨rfl, rfl⟩ := leaf_prop_only (by decide) hl
    cases List.mem_singleton.1 hm
    cases hd
    exact .inl ⟨rfl, rfl⟩
  | left _ ih | right _ ih => rcases ih with ⟨_, h⟩ | ⟨_, h⟩ <;> simp [fnIf] at h
  | item _ _ ih | mapped _ _ _ ih => rcases ih with ⟨h, _⟩ | ⟨h, _⟩ <;> cases h
  | listType _ hd hp _ _ ih =>
    rcases ih with ⟨h, _⟩ | ⟨h, _⟩
    · cases h; cases hd; cases hp
    · cases h
  | prop _ _ hm hd hpd ih =>
    rcases ih with ⟨h, h'⟩ | ⟨h, _⟩
    · cases h
      cases h'
      cases List.mem_singleton.1 hm
      cases hd
      cases hpd
      exact .inr ⟨rfl, rfl⟩
    · cases h

theorem exFleet_only {o : List (Key × Val)} {n : Key} {rt : String} {props : List (Key × Val)} (h : ResourceWith (exFleet o) n rt props) :
    n = .str "A" ∧ rt = "AWS::EC2::SpotFleet" ∧ props = [(.str "S", .dict o)] := by
  obtain ⟨top, rs, kvs, h0, h1, h2, h3, h4⟩ := h
  simp only [exFleet, Val.dict.injEq] at h0
  subst h0
  simp only [List.mem_singleton, Prod.mk.injEq, Val.dict.injEq, true_and] at h1
  subst h1
  simp only [List.mem_singleton, Prod.mk.injEq, Val.dict.injEq] at h2
  obtain ⟨rfl, rfl⟩ := h2
  simp [dlookup] at h3 h4
  exact ⟨rfl, h3.symm, h4.symm⟩

theorem exFleet_followed (s : String) : FollowedIn exFleetRegion (exFleet (exFleetZone s)) := by
  intro n rt props ps h hps
  obtain ⟨rfl, rfl, rfl⟩ := exFleet_only h
  have hps' : ps = [(.str "S", ⟨some "SpotPlacement", none⟩)] := by
    have e : dlookup "AWS::EC2::SpotFleet" (traversed exFleetRegion).resourceTypes = some [(.str "S", ⟨some "SpotPlacement", none⟩)] := by decide
    rw [e] at hps
    cases hps
    rfl
  subst hps'
  refine ⟨⟨by decide, by decide, by decide, ?_, ?_⟩, ⟨?_, ?_, ?_, ?_⟩⟩
  · intro kd h
    cases List.mem_singleton.1 h
    exact ⟨_, rfl, by decide, by decide⟩
  · intro td h kd h'
    have e : (traversed exFleetRegion).propertyTypes = [("AWS::EC2::SpotFleet.SpotPlacement", ⟨[(.str "AvailabilityZone", ⟨none, none⟩)], none, none⟩)] := by decide
    rw [e] at h
    cases List.mem_singleton.1 h
    cases List.mem_singleton.1 h'
    exact ⟨_, rfl, by decide, by decide⟩
  · intro t p v h; rcases exFleet_pos h with ⟨h, _⟩ | ⟨h, _⟩ <;> cases h
  · intro t p v h; rcases exFleet_pos h with ⟨h, _⟩ | ⟨h, _⟩ <;> cases h
  · intro t p v d h _ hd e
    rcases exFleet_pos h with ⟨h, _⟩ | ⟨h, _⟩
    · cases h; cases hd; cases e
    · cases h
  · intro t p v d u h hd e
    rcases exFleet_pos h with ⟨h, _⟩ | ⟨h, _⟩
    · cases h; cases hd; cases e
    · cases h

/-- the run of a rule on the template with the object -/
abbrev exFleetStatus (id : String) (o : List (Key × Val)) : Nat :=
  runCommand .script (withIds [id]) (c50Args [] false []) (checkWith [] [] (traversed exFleetRegion) exTypeRules (fun _ => "t") (markAll default))
    (fun _ => .ok ()) [⟨exFleet o, []⟩]

theorem exFleet_visit {k : String} (hk : k ≠ "Fn::If") (hr : k ≠ "Ref") (v : Val) (path : Path) :
    visitResource (traversed exFleetRegion) "AWS::EC2::SpotFleet" [(.str "S", .dict [(.str k, v)])] path = [⟨path ++ [.str "S"], .dict [(.str k, v)], "AWS::EC2::SpotFleet.SpotPlacement"⟩] := by
  have hd : dlookup "AWS::EC2::SpotFleet" (traversed exFleetRegion).resourceTypes = some [(.str "S", ⟨some "SpotPlacement", none⟩)] := by decide
  have hp : dlookup "AWS::EC2::SpotFleet.SpotPlacement" (traversed exFleetRegion).propertyTypes = some ⟨[(.str "AvailabilityZone", ⟨none, none⟩)], none, none⟩ := by decide
  have hi : itemsSafe [.dict] [(.str "S", .dict [(.str k, v)])] path = [(.dict [(.str "S", .dict [(.str k, v)])], path)] := by
    simp [itemsSafe, okType, Val.isInst, Val.isDict, clean, cleanLoop, dset, isNoValueRef, hr]
  by_cases h : k = "AvailabilityZone"
  · subst h
    simp [visitResource, hd, hi, visitTop, visitDecl, visitType, specName, hp, visitSelf, visitProps, dlookup, dhas, visitDecl_prim]
  · simp [visitResource, hd, hi, visitTop, visitDecl, visitType, specName, hp, visitSelf, visitProps, dlookup, dhas, hk, Ne.symm h]

/-- what the run comes to: the rule is called on the properties of the resource and on the object -/
def exFleetOutcome (o : List (Key × Val)) (c : Coll) : RunM (List Match) :=
  runChecks [] [] c.cfg (.ok ()) (.ok []) (runnerRun (markAll default (exFleet o))
    (match initializeAll exTypeRules (exFleet o) c.active with
     | .error e => .error e
     | .ok () =>
       match runChecksSeq c.cfg "t" (c.active.map (fun r => (r.info.id, matchAll "t" (markAll default (exFleet o)) r.info (exTypeRules r)))) [] with
       | .error e => .error e
       | .ok ms => runChecksSeq c.cfg "t"
          (c.active.map (fun r => (r.info.id, matchProperties "t" (markAll default (exFleet o)) (.dict [(.str "S", .dict o)]) "AWS::EC2::SpotFleet"
            [.str "Resources", .str "A", .str "Properties"] r.info (exTypeRules r))) ++
           c.active.map (fun r => (r.info.id, matchSubProperties "t" (markAll default (exFleet o))
            ⟨[.str "Resources", .str "A", .str "Properties", .str "S"], .dict o, "AWS::EC2::SpotFleet.SpotPlacement"⟩ r.info (exTypeRules r)))) ms) c.cfg.mandatory)

theorem exFleetStatus_eq (id : String) {k : String} (hk : k ≠ "Fn::If") (hr : k ≠ "Ref") (v : Val) :
    exFleetStatus id [(.str k, v)] = runCommand .script (withIds [id]) (c50Args [] false [])
      (fun t c => if t = exFleet [(.str k, v)] then (match c with | some c => exFleetOutcome [(.str k, v)] c | none => .ok [])
        else checkWith [] [] (traversed exFleetRegion) exTypeRules (fun _ => "t") (markAll default) t c)
      (fun _ => .ok ()) [⟨exFleet [(.str k, v)], []⟩] := by
  have hcheck : ∀ c, checkWith [] [] (traversed exFleetRegion) exTypeRules (fun _ => "t") (markAll default) (exFleet [(.str k, v)]) c =
      (match c with | some c => exFleetOutcome [(.str k, v)] c | none => .ok []) := by
    intro c
    cases c with
    | none => rfl
    | some c =>
      have hres : ∀ m : MVal, resourceChecks (traversed exFleetRegion) exTypeRules c.active "t" m (.str "A")
          (.dict [(.str "Type", .str "AWS::EC2::SpotFleet"), (.str "Properties", .dict [(.str "S", .dict [(.str k, v)])])]) =
          c.active.map (fun r => (r.info.id, matchProperties "t" m (.dict [(.str "S", .dict [(.str k, v)])]) "AWS::EC2::SpotFleet"
            [.str "Resources", .str "A", .str "Properties"] r.info (exTypeRules r))) ++
           c.active.map (fun r => (r.info.id, matchSubProperties "t" m
            ⟨[.str "Resources", .str "A", .str "Properties", .str "S"], .dict [(.str k, v)], "AWS::EC2::SpotFleet.SpotPlacement"⟩ r.info (exTypeRules r))) := by
        intro m
        simp [resourceChecks, dlookup, exFleet_visit hk hr]
      have hget : ∃ n w, mGetResources (markAll default (exFleet [(.str k, v)])) = .ok [(n, w)] ∧ n.key = .str "A" ∧
          w.erase = .dict [(.str "Type", .str "AWS::EC2::SpotFleet"), (.str "Properties", .dict [(.str "S", .dict [(.str k, v)])])] :=
        ⟨_, _, rfl, rfl, erase_markAll _ _⟩
      obtain ⟨n, w, h1, h2, h3⟩ := hget
      simp only [checkWith, lintTemplate, collectionRun, exFleetOutcome, h1, List.flatMap_cons, List.flatMap_nil, List.append_nil, h2, h3, hres,
        erase_markAll]
      rfl
  unfold exFleetStatus
  congr 1
  funext t c
  split
  · rename_i h
    rw [h, hcheck c]
  · rfl

/-- `C137_sub_zones_partial` -/
example : ¬ FixedZone (.dict [(.str "Ref", .str "P")]) := by
  have ha : setTemplateArgs (exFleet (exFleetZone "P")) = .ok [] := rfl
  have hrun : CleanRun (withIds ["W3010"]) (c50Args [] false []) [] [] (traversed exFleetRegion) exTypeRules (fun _ => "t")
      (markAll default) (fun _ => .ok ()) [⟨exFleet (exFleetZone "P"), []⟩] :=
    rules_clean (severity_ids (by decide)) (fun _ _ => rfl) (by simp [exFleet, exFleetZone, Val.WF, Val.WFDict]) ⟨rfl, _, rfl⟩ ha (by decide +kernel)
      ((exFleetStatus_eq _ (by decide) (by decide) _).trans (by decide +kernel))
  exact C137_sub_zones_partial hrun exTypeRules_rules List.mem_cons_self (rules_inForce (by decide) ha (by decide)) (exFleet_followed "P")
    (exFleet_object (by rintro ⟨_, h⟩; simp at h) (by simp [noValue])) (by decide) (fun _ _ => neverNull_other (by decide) _) (key := "AvailabilityZone") (by decide)
    List.mem_cons_self (propValue_call (by decide) (by simp [noValue]))

end CfnLint
