import Verif.Model.GroupRules
import Verif.Lemmas.NoAttr
import Verif.Props.SpecRules
import Verif.Props.Relations
/-
Property C131: what status 0 says of the groups of properties of the objects of a type and of the lists that are values of properties, when the
rules on them are in force; and that the tables the first four of these rules are shipped with do not contradict one another.
-/
namespace CfnLint

open Spec

namespace Spec

/-- the entry of a type in the tables of a rule -/
def EntryOf {α : Type} (T : TypeTables α) (top : Bool) (ty : String) (a : α) : Prop :=
  dlookup ty (if top = true then T.resourceTypes else T.propertyTypes) = some a

/-- the entries the shipped tables have for a type -/
def entriesOf {α : Type} (T : TypeTables α) (top : Bool) (ty : String) : List α :=
  ((if top = true then T.resourceTypes else T.propertyTypes).filter (fun kv => kv.1 = ty)).map Prod.snd

/-- a choice of properties that a type with these tables allows: some property of each group of the first, exactly one of each group of the
second, none together with one it excludes, all with those they require -/
def AllowedSet (A O : TypeTables (List (List String))) (X I : TypeTables (List (String × List String))) (top : Bool) (ty : String)
    (S : List String) : Prop :=
  (∀ groups ∈ entriesOf A top ty, ∀ g ∈ groups, ∃ n ∈ g, n ∈ S) ∧
  (∀ groups ∈ entriesOf O top ty, ∀ g ∈ groups, ∃ n ∈ g, n ∈ S ∧ ∀ m ∈ g, m ∈ S → m = n) ∧
  (∀ table ∈ entriesOf X top ty, ∀ e ∈ table, e.1 ∈ S → ∀ o ∈ e.2, o ∉ S) ∧
  (∀ table ∈ entriesOf I top ty, ∀ e ∈ table, e.1 ∈ S → ∀ o ∈ e.2, o ∈ S)

instance (A O : TypeTables (List (List String))) (X I : TypeTables (List (String × List String))) (top : Bool) (ty : String)
    (S : List String) : Decidable (AllowedSet A O X I top ty S) := by
  unfold AllowedSet
  refine @instDecidableAnd _ _ ?_ (@instDecidableAnd _ _ ?_ (@instDecidableAnd _ _ ?_ ?_))
  · infer_instance
  · infer_instance
  · infer_instance
  · infer_instance

/-- the properties the shipped tables name for a type -/
def namesOf (A O : TypeTables (List (List String))) (X I : TypeTables (List (String × List String))) (top : Bool) (ty : String) : List String :=
  (entriesOf A top ty).flatten.flatten ++ (entriesOf O top ty).flatten.flatten ++
    (entriesOf X top ty).flatten.flatMap (fun e => e.1 :: e.2) ++ (entriesOf I top ty).flatten.flatMap (fun e => e.1 :: e.2)

/-- the specification of a type declares the property -/
def DeclaredProp (spec : Val) (prop : String) (decl : List (Key × Val)) : Prop :=
  ∃ ps, spec.get? "Properties" = some (.dict ps) ∧ dlookup (Key.str prop) ps = some (.dict decl)

/-- the property is a list whose elements may not be repeated -/
def MayNotRepeat (decl : List (Key × Val)) : Prop :=
  dlookup (Key.str "Type") decl = some (.str "List") ∧ dlookup (Key.str "DuplicatesAllowed") decl = some (.bool false)

/-- the property is a list with a bounded number of elements -/
def SizeBetween (R : RegionSpec) (decl : List (Key × Val)) (lo hi : Int) : Prop :=
  dlookup (Key.str "Type") decl = some (.str "List") ∧ ∃ w n e, n ≠ "" ∧ dlookup (Key.str "Value") decl = some (.dict w) ∧
    dlookup (Key.str "ListValueType") w = some (.str n) ∧ dlookup n R.valueTypes = some (.dict e) ∧
    dlookup (Key.str "ListMin") e = some (.int lo) ∧ dlookup (Key.str "ListMax") e = some (.int hi)

end Spec

/-! ### the shipped tables -/

/-- choices of properties which, together, use every property that the tables name -/
def allowedChoices : List (Bool × String × List (List String)) := [
  (true, "AWS::ApplicationAutoScaling::ScalingPolicy", [["ScalingTargetId"], ["ResourceId", "ScalableDimension", "ServiceNamespace"]]),
  (true, "AWS::IAM::Policy", [["Roles"], ["Groups"], ["Users"]]),
  (true, "AWS::EC2::Instance", [["ImageId"], ["LaunchTemplate"], ["ImageId", "NetworkInterfaces"], ["ImageId", "SubnetId"]]),
  (true, "AWS::EC2::NetworkAclEntry", [["Ipv6CidrBlock"], ["CidrBlock"]]),
  (true, "AWS::Events::Rule", [["EventPattern"], ["ScheduleExpression"]]),
  (true, "AWS::AutoScaling::AutoScalingGroup", [["InstanceId"], ["LaunchConfigurationName"], ["LaunchTemplate"], ["MixedInstancesPolicy"]]),
  (true, "AWS::CloudWatch::Alarm", [["MetricName"], ["Metrics"], ["MetricName", "Dimensions"], ["MetricName", "Period"], ["MetricName", "Namespace"], ["MetricName", "Statistic"], ["MetricName", "ExtendedStatistic"], ["MetricName", "Unit"], ["MetricName", "Threshold"], ["MetricName", "ThresholdMetricId"]]),
  (true, "AWS::CodePipeline::Pipeline", [["ArtifactStore"], ["ArtifactStores"]]),
  (true, "AWS::Route53::RecordSet", [["HostedZoneId"], ["HostedZoneName"]]),
  (true, "AWS::Route53::RecordSetGroup", [["HostedZoneId"], ["HostedZoneName"]]),
  (true, "AWS::ElasticLoadBalancingV2::LoadBalancer", [["SubnetMappings"], ["Subnets"]]),
  (true, "AWS::ServiceDiscovery::Service", [["HealthCheckConfig"], ["HealthCheckCustomConfig"]]),
  (true, "AWS::EC2::SecurityGroupIngress", [["CidrIp"], ["SourceSecurityGroupName"], ["SourceSecurityGroupId"], ["CidrIpv6"], ["GroupId"], ["GroupName"]]),
  (true, "AWS::RDS::DBCluster", [["SnapshotIdentifier"], ["MasterUsername", "MasterUserPassword"]]),
  (true, "AWS::RDS::DBInstance", [["DBClusterIdentifier"], ["StorageEncrypted"], ["SourceDBInstanceIdentifier"], ["CharacterSetName"], ["MasterUsername", "MasterUserPassword"]]),
  (true, "AWS::OpsWorks::Stack", [["DefaultSubnetId"], ["VpcId", "DefaultSubnetId"]]),
  (true, "AWS::EC2::SecurityGroup", [["VpcId"], ["SecurityGroupEgress", "VpcId"]]),
  (false, "AWS::S3::Bucket.RoutingRuleCondition", [["HttpErrorCodeReturnedEquals"], ["KeyPrefixEquals"]]),
  (false, "AWS::AutoScaling::LaunchConfiguration.BlockDeviceMapping", [["VirtualName"], ["Ebs"], ["NoDevice"]]),
  (false, "AWS::AutoScaling::AutoScalingGroup.LaunchTemplateSpecification", [["LaunchTemplateId"], ["LaunchTemplateName"]]),
  (false, "AWS::CloudFront::Distribution.Origin", [["CustomOriginConfig"], ["S3OriginConfig"]]),
  (false, "AWS::CloudFront::Distribution.ViewerCertificate", [["CloudFrontDefaultCertificate"], ["AcmCertificateArn", "SslSupportMethod"], ["IamCertificateId", "SslSupportMethod"]]),
  (false, "AWS::EC2::Instance.BlockDeviceMapping", [["VirtualName"], ["Ebs"], ["NoDevice"]]),
  (false, "AWS::EC2::SpotFleet.BlockDeviceMapping", [["VirtualName"], ["Ebs"], ["NoDevice"]]),
  (false, "AWS::EC2::SpotFleet.SpotFleetRequestConfigData", [["LaunchSpecifications"], ["LaunchTemplateConfigs"]]),
  (false, "AWS::OpsWorks::Instance.BlockDeviceMapping", [["VirtualName"], ["Ebs"], ["NoDevice"]]),
  (false, "AWS::EC2::SecurityGroup.Egress", [["CidrIp"], ["CidrIpv6"], ["DestinationSecurityGroupId"], ["DestinationPrefixListId"]]),
  (false, "AWS::EC2::LaunchTemplate.BlockDeviceMapping", [["VirtualName"], ["Ebs"]]),
  (false, "AWS::EC2::SecurityGroup.Ingress", [["CidrIp"], ["SourceSecurityGroupName"], ["SourceSecurityGroupId"], ["CidrIpv6"]]),
  (false, "AWS::S3::Bucket.WebsiteConfiguration", [["RedirectAllRequestsTo"], ["ErrorDocument"], ["IndexDocument"], ["RoutingRules"]]),
  (false, "AWS::CloudFront::Distribution.CustomErrorResponse", [["ResponsePagePath"], ["ResponseCode", "ResponsePagePath"]])]

/-- the types of the tables -/
def tableTypes {α : Type} (T : TypeTables α) : List (Bool × String) :=
  T.resourceTypes.map (fun kv => (true, kv.1)) ++ T.propertyTypes.map (fun kv => (false, kv.1))

def choiceFor (top : Bool) (ty : String) (n : String) : Option (List String) :=
  (allowedChoices.find? (fun c => c.1 == top && c.2.1 == ty)).bind (fun c => c.2.2.find? (fun S => decide (n ∈ S)))

theorem choices_allowed : ∀ x ∈ tableTypes atLeastOneTables ++ tableTypes onlyOneTables ++ tableTypes exclusiveTables ++ tableTypes inclusiveTables,
    ∀ n ∈ namesOf atLeastOneTables onlyOneTables exclusiveTables inclusiveTables x.1 x.2, ∃ S ∈ choiceFor x.1 x.2 n,
      n ∈ S ∧ AllowedSet atLeastOneTables onlyOneTables exclusiveTables inclusiveTables x.1 x.2 S := by
  decide +kernel

theorem entriesOf_ne {α : Type} {T : TypeTables α} {top : Bool} {ty : String} (h : entriesOf T top ty ≠ []) : (top, ty) ∈ tableTypes T := by
  obtain ⟨a, ha⟩ := List.exists_mem_of_ne_nil _ h
  simp only [entriesOf, List.mem_map, List.mem_filter, decide_eq_true_eq] at ha
  obtain ⟨kv, ⟨hkv, rfl⟩, rfl⟩ := ha
  unfold tableTypes
  cases top
  · exact List.mem_append_right _ (List.mem_map.2 ⟨kv, by simpa using hkv, rfl⟩)
  · exact List.mem_append_left _ (List.mem_map.2 ⟨kv, by simpa using hkv, rfl⟩)

/-- **C131** the shipped tables do not contradict one another: every property that one of them names for a type occurs in a choice of
properties that all four allow for the type -/
theorem C131_satisfiable (top : Bool) (ty n : String) (h : n ∈ namesOf atLeastOneTables onlyOneTables exclusiveTables inclusiveTables top ty) :
    ∃ S, n ∈ S ∧ AllowedSet atLeastOneTables onlyOneTables exclusiveTables inclusiveTables top ty S := by
  have hm : (top, ty) ∈ tableTypes atLeastOneTables ++ tableTypes onlyOneTables ++ tableTypes exclusiveTables ++ tableTypes inclusiveTables := by
    by_contra hc
    simp only [List.mem_append, not_or] at hc
    obtain ⟨⟨⟨h1, h2⟩, h3⟩, h4⟩ := hc
    have e1 := not_imp_comm.1 entriesOf_ne h1
    have e2 := not_imp_comm.1 entriesOf_ne h2
    have e3 := not_imp_comm.1 entriesOf_ne h3
    have e4 := not_imp_comm.1 entriesOf_ne h4
    simp [namesOf, e1, e2, e3, e4] at h
  obtain ⟨S, _, h1, h2⟩ := choices_allowed _ hm n h
  exact ⟨S, h1, h2⟩

/-- **C131** a group of the shipped tables is not empty, names no property twice and does not name `Fn::If`; no type has two entries -/
theorem C131_groups : (∀ top ty groups, EntryOf atLeastOneTables top ty groups ∨ EntryOf onlyOneTables top ty groups → GoodGroups groups) ∧
    (tableTypes atLeastOneTables).Nodup ∧ (tableTypes onlyOneTables).Nodup ∧ (tableTypes exclusiveTables).Nodup ∧
    (tableTypes inclusiveTables).Nodup := by
  have h1 : ∀ kv ∈ atLeastOneTables.resourceTypes ++ atLeastOneTables.propertyTypes ++ onlyOneTables.resourceTypes ++ onlyOneTables.propertyTypes,
      ∀ g ∈ kv.2, g ≠ [] ∧ g.Nodup ∧ "Fn::If" ∉ g := by decide +kernel
  refine ⟨?_, by decide +kernel, by decide +kernel, by decide +kernel, by decide +kernel⟩
  rintro top ty groups (h | h) <;> have h := dlookup_mem h <;> cases top <;> refine h1 (ty, groups) ?_ <;> simp_all

/-! ### status 0 -/

/-- a rule that registers for the types of its tables finds nothing in an object of such a type -/
theorem byTables_found {α : Type} {U : RegionSpec} {T : TypeTables α} {check : Val → α → Val → Path → PyM (List (Path × String))} {t : Val}
    (hw : t.WF) (hn : FoundNothing (traversed U) (byTables T check) t) (hfo : FollowedIn U t) {top : Bool} {ty : String} {p : Path}
    {kvs : List (Key × Val)} (ho : TypedObject U t top ty p kvs) {a : α} (hd : EntryOf T top ty a) :
    check t a (.dict kvs) p = .ok [] ∨ ∃ s, check t a (.dict kvs) p = .error (.templateAttributeError s) := by
  cases ho with
  | resource h =>
    have hd' : dlookup ty T.resourceTypes = some a := hd
    have := hn _ (.properties (f := fun t obj ty path => match dlookup ty T.resourceTypes with | some a => check t a obj path | none => .ok []) rfl h
      (List.mem_map.2 ⟨_, dlookup_mem hd', rfl⟩))
    simp only [hd'] at this
    exact this
  | below h hps hd0 ho =>
    have hd' : dlookup _ T.propertyTypes = some a := hd
    obtain ⟨hs, hf⟩ := hfo _ _ _ _ h hps
    have := hn _ (.subProperties (f := fun t obj ty path => match dlookup ty T.propertyTypes with | some a => check t a obj path | none => .ok []) rfl h
      (C44_complete_partial (resourceWith_wf hw h) hps hs hf hd0 ho) (List.mem_map.2 ⟨_, dlookup_mem hd', rfl⟩))
    simp only [hd'] at this
    exact this

theorem noAttr_nil {α : Type} {place : α → Path} {msg : α → String} {x : PyM (List α)} (hx : NoAttr x)
    (h : withText place msg x = .ok [] ∨ ∃ s, withText place msg x = .error (.templateAttributeError s)) : x = .ok [] := by
  cases x with
  | ok l => rw [withText_nil rfl h]
  | error e =>
    rcases h with h | ⟨s, h⟩
    · cases h
    · simp only [withText] at h
      cases h
      exact absurd rfl (hx s)

theorem dlookup_rows {ρ : Type} (view : Val → ρ) (prop : String) : ∀ ps : List (Key × Val),
    dlookup prop (ps.filterMap (fun kv => match kv.1 with | .str s => some (s, view kv.2) | .int _ => none)) =
      (dlookup (Key.str prop) ps).map view
  | [] => rfl
  | (.int i, v) :: ps => by
    have := dlookup_rows view prop ps
    simpa [dlookup] using this
  | (.str k, v) :: ps => by
    have := dlookup_rows view prop ps
    by_cases h : k = prop
    · subst h; simp [dlookup]
    · simpa [dlookup, h] using this

theorem dlookup_listTables {R : RegionSpec} {top : Bool} {ty : String} {spec : Val} (h : DeclaredIn R top ty spec) :
    EntryOf (listTables R) top ty (specRows (listRowView R) spec) := by
  have hm : ∀ l : List (String × Val), dlookup ty l = some spec →
      dlookup ty (l.map (fun kv => (kv.1, specRows (listRowView R) kv.2))) = some (specRows (listRowView R) spec) := by
    intro l
    induction l with
    | nil => intro h; cases h
    | cons kv l ih =>
      intro h
      by_cases hk : kv.1 = ty
      · simp only [dlookup, hk, if_true] at h
        cases h
        simp [dlookup, hk]
      · simp only [dlookup, hk, if_false] at h
        simpa [dlookup, hk] using ih h
  unfold EntryOf
  unfold DeclaredIn at h
  cases top
  · exact hm _ h
  · exact hm _ h

theorem declared_row {R : RegionSpec} {spec : Val} {prop : String} {decl : List (Key × Val)} (h : DeclaredProp spec prop decl) :
    dlookup prop (specRows (listRowView R) spec) = some (listRowView R (.dict decl)) := by
  obtain ⟨ps, h1, h2⟩ := h
  unfold specRows specProps
  rw [h1]
  refine (dlookup_rows (listRowView R) prop ps).trans ?_
  rw [h2]
  rfl

theorem forbids_row {R : RegionSpec} {decl : List (Key × Val)} (h : MayNotRepeat decl) : ForbidsRepeats (listRowView R (.dict decl)) := by
  constructor
  · simp [listRowView, rowView, specText, Val.get?, h.1]
  · simp [listRowView, Val.get?, h.2]

theorem bounds_row {R : RegionSpec} {decl : List (Key × Val)} {lo hi : Int} (h : SizeBetween R decl lo hi) :
    Bounds (listRowView R (.dict decl)) lo hi := by
  obtain ⟨h1, w, n, e, hn, h2, h3, h4, h5, h6⟩ := h
  refine ⟨?_, ?_, ?_⟩
  · simp [listRowView, rowView, specText, Val.get?, h1]
  · simp [listRowView, specText, Val.get?, h2, h3, hn, h4, h5]
  · simp [listRowView, specText, Val.get?, h2, h3, hn, h4, h6]

section Run

variable {objs : List RuleObj} {args : Sources} {all : List String} {regions : List Val}
  {beh : RuleObj → Behaviour} {name : Val → String} {mark : Val → MVal} {print : List Match → PyM Unit} {ds : List Decoded}

/-- what a rule with tables did with an object -/
theorem tables_ran {α β : Type} {U : RegionSpec} {T : TypeTables α} {place : β → Path} {msg : β → String}
    {check : Val → α → Val → Path → PyM (List β)} {info : RuleInfo}
    (h : CleanRun objs args all regions (traversed U) beh name mark print ds)
    (hbeh : ∀ r, r.info.id = info.id → beh r = byTables T (fun t a obj path => withText place msg (check t a obj path)))
    {d : Decoded} (hd : d ∈ ds) (hf : InForce objs args d.template info) (hfo : FollowedIn U d.template)
    {top : Bool} {ty : String} {p : Path} {kvs : List (Key × Val)} (ho : TypedObject U d.template top ty p kvs)
    {a : α} (he : EntryOf T top ty a) (hx : (Val.dict kvs).WF → NoAttr (check d.template a (.dict kvs) p)) :
    (Val.dict kvs).WF ∧ check d.template a (.dict kvs) p = .ok [] := by
  obtain ⟨r, hr, hfound⟩ := clean_found h hd hf
  have hw := clean_wf h hd
  rw [hbeh r (by rw [hr])] at hfound
  have hwk := typedObject_wf hw hfo ho
  exact ⟨hwk, noAttr_nil (hx hwk) (byTables_found hw hfound hfo ho he)⟩

/-- **C131** in full, for E2522: when the script ends with status 0 and E2522 is in force for a template, every object of a type of the tables
has, in every branch of the object and for every truth of the conditions that a deployment may have, a property of every group -/
def C131_statement : Prop :=
  ∀ (objs : List RuleObj) (args : Sources) (all : List String) (regions : List Val) (U : RegionSpec)
    (beh : RuleObj → Behaviour) (name : Val → String) (mark : Val → MVal) (print : List Match → PyM Unit) (ds : List Decoded)
    (E : CondEnv) (T : TypeTables (List (List String))) (msg : SetReport → String),
    CleanRun objs args all regions (traversed U) beh name mark print ds → (∀ r, r.info.id = "E2522" → beh r = atLeastOneOf E T msg) →
    SetOrder E.order →
    ∀ d ∈ ds, InForce objs args d.template { id := "E2522" } → FollowedIn U d.template →
    ∀ top ty p kvs groups, TypedObject U d.template top ty p kvs → EntryOf T top ty groups → GoodGroups groups →
    PlainBranches (.dict kvs) → ∀ q l group H fuel t b, Leaf (.dict kvs) q (.dict l) → group ∈ groups →
      Deployment H fuel E.enum t (E.tb d.template) (GroupCond l group) b → ∃ n ∈ group, HasProp b l n

/-- **C131** E2522: the statement holds when some property is left in the branch of the object, or no condition is asked -/
theorem C131_at_least_one_partial {U : RegionSpec} {E : CondEnv} {T : TypeTables (List (List String))} {msg : SetReport → String}
    (h : CleanRun objs args all regions (traversed U) beh name mark print ds)
    (hbeh : ∀ r, r.info.id = "E2522" → beh r = atLeastOneOf E T msg) (hso : SetOrder E.order)
    {d : Decoded} (hd : d ∈ ds) (hf : InForce objs args d.template { id := "E2522" }) (hfo : FollowedIn U d.template)
    {top : Bool} {ty : String} {p : Path} {kvs : List (Key × Val)} (ho : TypedObject U d.template top ty p kvs)
    {groups : List (List String)} (he : EntryOf T top ty groups) (hgs : GoodGroups groups) (hb : PlainBranches (.dict kvs))
    {q : Path} {l : List (Key × Val)} (hl : Leaf (.dict kvs) q (.dict l)) {group : List String} (hg : group ∈ groups)
    {H : Val → String} {fuel : Nat} {t : List (Key × Val)} {b : String → Bool}
    (hdep : Deployment H fuel E.enum t (E.tb d.template) (GroupCond l group) b)
    (hne : (∃ n, HasProp b l n) ∨ ∀ c, ¬ GroupCond l group c) : ∃ n ∈ group, HasProp b l n := by
  obtain ⟨hwk, hrun⟩ := tables_ran h hbeh hd hf hfo ho he (fun hwk => noAttr_countCheck hwk hb)
  by_contra hno
  obtain ⟨r, hr, _⟩ := C61_at_least_one_complete_partial hso hwk hb hgs hrun hg hl hdep (fun n hn hh => hno ⟨n, hn, hh⟩) hne
  cases hr

/-- **C131** E2523: likewise exactly one property of every group -/
theorem C131_only_one_partial {U : RegionSpec} {E : CondEnv} {T : TypeTables (List (List String))} {msg : SetReport → String}
    (h : CleanRun objs args all regions (traversed U) beh name mark print ds)
    (hbeh : ∀ r, r.info.id = "E2523" → beh r = onlyOneOf E T msg) (hso : SetOrder E.order)
    {d : Decoded} (hd : d ∈ ds) (hf : InForce objs args d.template { id := "E2523" }) (hfo : FollowedIn U d.template)
    {top : Bool} {ty : String} {p : Path} {kvs : List (Key × Val)} (ho : TypedObject U d.template top ty p kvs)
    {groups : List (List String)} (he : EntryOf T top ty groups) (hgs : GoodGroups groups) (hb : PlainBranches (.dict kvs))
    {q : Path} {l : List (Key × Val)} (hl : Leaf (.dict kvs) q (.dict l)) {group : List String} (hg : group ∈ groups)
    {H : Val → String} {fuel : Nat} {t : List (Key × Val)} {b : String → Bool}
    (hdep : Deployment H fuel E.enum t (E.tb d.template) (GroupCond l group) b)
    (hne : (∃ n, HasProp b l n) ∨ ∀ c, ¬ GroupCond l group c) : ExactlyOne b l group := by
  obtain ⟨hwk, hrun⟩ := tables_ran h hbeh hd hf hfo ho he (fun hwk => noAttr_countCheck hwk hb)
  by_contra hno
  obtain ⟨r, hr, _⟩ := C61_only_one_complete_partial hso hwk hb hgs hrun hg hl hdep hno hne
  cases hr

theorem noAttr_inclusive {enum : String → List String → List String} {order : List String → List String} {tb : CondTable}
    {l : List (Key × Val)} {table : List (String × List String)} {path : Path} (hp : PlainObject l) :
    NoAttr (inclusiveCheck enum order tb (.dict l) table path) := by
  unfold inclusiveCheck
  split
  · exact noAttr_ok _
  · exact noAttr_pairSets hp

/-- **C131** E2520: no object of a type of the tables that is not itself conditional has a property together with one it excludes -/
theorem C131_exclusive_partial {U : RegionSpec} {E : CondEnv} {T : TypeTables (List (String × List String))} {msg : PairReport → String}
    (h : CleanRun objs args all regions (traversed U) beh name mark print ds)
    (hbeh : ∀ r, r.info.id = "E2520" → beh r = exclusiveOf E T msg) (hso : SetOrder E.order)
    {d : Decoded} (hd : d ∈ ds) (hf : InForce objs args d.template { id := "E2520" }) (hfo : FollowedIn U d.template)
    {top : Bool} {ty : String} {p : Path} {l : List (Key × Val)} (ho : TypedObject U d.template top ty p l)
    {table : List (String × List String)} (he : EntryOf T top ty table) (hp : PlainObject l)
    {H : Val → String} {fuel : Nat} {t : List (Key × Val)} {b : String → Bool}
    (hdep : Deployment H fuel E.enum t (E.tb d.template) (ObjectCond l) b)
    {s other : String} {others : List String} (ht : dlookup s table = some others) (hoth : other ∈ others) (h1 : HasProp b l s) :
    ¬ HasProp b l other := by
  obtain ⟨_, hrun⟩ := tables_ran h hbeh hd hf hfo ho he (fun _ => noAttr_pairSets hp)
  intro h2
  obtain ⟨r, hr, _⟩ := C62_exclusive_complete_partial hso hp hrun hdep ht hoth h1 h2
  cases hr

/-- **C131** E2521: every object of a type of the tables that is not itself conditional has with a property those it requires -/
theorem C131_inclusive_partial {U : RegionSpec} {E : CondEnv} {T : TypeTables (List (String × List String))} {msg : PairReport → String}
    (h : CleanRun objs args all regions (traversed U) beh name mark print ds)
    (hbeh : ∀ r, r.info.id = "E2521" → beh r = inclusiveOf E T msg) (hso : SetOrder E.order)
    {d : Decoded} (hd : d ∈ ds) (hf : InForce objs args d.template { id := "E2521" }) (hfo : FollowedIn U d.template)
    {top : Bool} {ty : String} {p : Path} {l : List (Key × Val)} (ho : TypedObject U d.template top ty p l)
    {table : List (String × List String)} (he : EntryOf T top ty table) (hp : PlainObject l)
    {H : Val → String} {fuel : Nat} {t : List (Key × Val)} {b : String → Bool}
    (hdep : Deployment H fuel E.enum t (E.tb d.template) (ObjectCond l) b)
    {s other : String} {others : List String} (ht : dlookup s table = some others) (hoth : other ∈ others) (h1 : HasProp b l s) :
    HasProp b l other := by
  obtain ⟨_, hrun⟩ := tables_ran h hbeh hd hf hfo ho he (fun _ => noAttr_inclusive hp)
  by_contra h2
  obtain ⟨r, hr, _⟩ := C62_inclusive_complete_partial hso hp hrun hdep ht hoth h1 h2
  cases hr

/-- **C131** E3032: the lists that are values of properties have as many elements as the specification allows -/
theorem C131_sizes_partial {U R : RegionSpec} {E : CondEnv} {msg : ListReport → String}
    (h : CleanRun objs args all regions (traversed U) beh name mark print ds)
    (hbeh : ∀ r, r.info.id = "E3032" → beh r = sizesOf E R msg) (hso : SetOrder E.order)
    {d : Decoded} (hd : d ∈ ds) (hf : InForce objs args d.template { id := "E3032" }) (hfo : FollowedIn U d.template)
    {top : Bool} {ty : String} {p : Path} {kvs : List (Key × Val)} (ho : TypedObject U d.template top ty p kvs)
    {spec : Val} (hs : DeclaredIn R top ty spec) (hb : PlainBranches (.dict kvs))
    {q : Path} {l : List (Key × Val)} (hl : Leaf (.dict kvs) q (.dict l)) {prop : String} {decl : List (Key × Val)} (hrow : DeclaredProp spec prop decl)
    {lo hi : Int} (hbd : SizeBetween R decl lo hi) {v : Val} (hv : (Key.str prop, v) ∈ l)
    {H : Val → String} {fuel : Nat} {t : List (Key × Val)} {b : String → Bool}
    (hdep : Deployment H fuel E.enum t (E.tb d.template) (ObjectCond l) b) {n : Nat} (hn : ListOf b v n)
    (hg : (∃ c, ObjectCond l c) ∨ NoGaps v) : lo ≤ n ∧ n ≤ hi := by
  obtain ⟨hwk, hrun⟩ := tables_ran h hbeh hd hf hfo ho (dlookup_listTables hs) (fun hwk => noAttr_sizeRule hwk hb)
  by_contra hbad
  obtain ⟨r, hr, _⟩ := C82_complete_partial hso hwk hb hrun hl hdep (declared_row hrow) (bounds_row hbd) hv hn hbad hg
  cases hr

/-- **C131** E3037: a list whose elements may not be repeated has no element twice -/
theorem C131_repeats_partial {U R : RegionSpec} {E : CondEnv} {msg : ListReport → String}
    (h : CleanRun objs args all regions (traversed U) beh name mark print ds)
    (hbeh : ∀ r, r.info.id = "E3037" → beh r = repeatsOf E R msg)
    {d : Decoded} (hd : d ∈ ds) (hf : InForce objs args d.template { id := "E3037" }) (hfo : FollowedIn U d.template)
    {top : Bool} {ty : String} {p : Path} {kvs : List (Key × Val)} (ho : TypedObject U d.template top ty p kvs)
    {spec : Val} (hs : DeclaredIn R top ty spec) (hb : ∀ q u, Leaf (.dict kvs) q u → ∃ l, u = .dict l)
    {q : Path} {l : List (Key × Val)} (hl : Leaf (.dict kvs) q (.dict l)) {prop : String} {decl : List (Key × Val)} (hrow : DeclaredProp spec prop decl)
    (ht : MayNotRepeat decl) {xs : List Val} (hv : (Key.str prop, .list xs) ∈ l) (i : Nat) : ¬ Repeats xs i := by
  obtain ⟨hwk, hrun⟩ := tables_ran h hbeh hd hf hfo ho (dlookup_listTables hs) (fun hwk => noAttr_dupRule hwk hb)
  intro hi
  cases C83_forbidden_lists hwk hb hrun hl hv (declared_row hrow) (forbids_row ht) hi

/-- **C131** E3037, for a list under conditions: nor has the list a deployment chooses -/
theorem C131_branches_partial {U R : RegionSpec} {E : CondEnv} {msg : ListReport → String}
    (h : CleanRun objs args all regions (traversed U) beh name mark print ds)
    (hbeh : ∀ r, r.info.id = "E3037" → beh r = repeatsOf E R msg) (hso : SetOrder E.order)
    {d : Decoded} (hd : d ∈ ds) (hf : InForce objs args d.template { id := "E3037" }) (hfo : FollowedIn U d.template)
    {top : Bool} {ty : String} {p : Path} {kvs : List (Key × Val)} (ho : TypedObject U d.template top ty p kvs)
    {spec : Val} (hs : DeclaredIn R top ty spec) (hb : ∀ q u, Leaf (.dict kvs) q u → ∃ l, u = .dict l)
    {q : Path} {l : List (Key × Val)} (hl : Leaf (.dict kvs) q (.dict l)) {prop : String} {decl : List (Key × Val)} (hrow : DeclaredProp spec prop decl)
    (ht : MayNotRepeat decl) {v : Val} (hv : (Key.str prop, v) ∈ l) (hif : IsIf v) (hst : SteadyLists v)
    {H : Val → String} {fuel : Nat} {t : List (Key × Val)} {b : String → Bool}
    (hdep : Deployment H fuel E.enum t (E.tb d.template) (fun c => Branches c v) b) : ¬ RepeatsUnder b v := by
  obtain ⟨hwk, hrun⟩ := tables_ran h hbeh hd hf hfo ho (dlookup_listTables hs) (fun hwk => noAttr_dupRule hwk hb)
  intro hr
  obtain ⟨r, hr, _⟩ := C83_branches_partial hso hwk hb hrun hl hv (declared_row hrow) (forbids_row ht) hif hst hdep hr
  cases hr

/-- **C131** the four rules with the tables they are shipped with: under the truth of the conditions of a deployment the properties of an
object that is not itself conditional and not empty are a choice the tables allow -/
theorem C131_tables_partial {U : RegionSpec} {E : CondEnv} {msg : SetReport → String} {msg' : PairReport → String}
    (h : CleanRun objs args all regions (traversed U) beh name mark print ds)
    (hat : ∀ r, r.info.id = "E2522" → beh r = atLeastOneOf E atLeastOneTables msg)
    (hon : ∀ r, r.info.id = "E2523" → beh r = onlyOneOf E onlyOneTables msg)
    (hex : ∀ r, r.info.id = "E2520" → beh r = exclusiveOf E exclusiveTables msg')
    (hin : ∀ r, r.info.id = "E2521" → beh r = inclusiveOf E inclusiveTables msg') (hso : SetOrder E.order)
    {d : Decoded} (hd : d ∈ ds) (hf : ∀ id ∈ ["E2520", "E2521", "E2522", "E2523"], InForce objs args d.template { id := id })
    (hfo : FollowedIn U d.template)
    {top : Bool} {ty : String} {p : Path} {l : List (Key × Val)} (ho : TypedObject U d.template top ty p l) (hp : PlainObject l)
    {H : Val → String} {fuel : Nat} {t : List (Key × Val)} {b : String → Bool}
    (hdep : ∀ P : String → Prop, (∀ c, P c → ObjectCond l c) → Deployment H fuel E.enum t (E.tb d.template) P b)
    (hne : ∃ n, HasProp b l n) :
    ∃ S, (∀ n, n ∈ S ↔ HasProp b l n) ∧ AllowedSet atLeastOneTables onlyOneTables exclusiveTables inclusiveTables top ty S := by
  classical
  have hni : ¬ IsIf (.dict l) := by
    rintro ⟨v, e⟩
    cases e
    exact hp.noIf List.mem_cons_self
  have hl : Leaf (.dict l) [] (.dict l) := .here hni (plain_ne hp)
  have hb : PlainBranches (.dict l) := by
    intro q u hq
    obtain ⟨_, rfl, _⟩ := (leaf_of_notIf hni).1 hq
    exact ⟨l, rfl, hp⟩
  have hg : ∀ g c, GroupCond l g c → ObjectCond l c := fun g c ⟨n, _, v, hv, ha⟩ => ⟨_, hv, ha⟩
  have entry : ∀ {α : Type} (T : TypeTables α), (tableTypes T).Nodup → ∀ a ∈ entriesOf T top ty, EntryOf T top ty a := by
    intro α T hn a ha
    obtain ⟨kv, hkv, rfl⟩ := List.mem_map.1 ha
    obtain ⟨h1, h2⟩ := List.mem_filter.1 hkv
    have h2 : kv.1 = ty := of_decide_eq_true h2
    subst h2
    unfold tableTypes at hn
    obtain ⟨n1, n2, _⟩ := List.nodup_append.1 hn
    have n1' : (T.resourceTypes.map Prod.fst).Nodup := by
      have := n1
      rw [show (fun kv : String × α => (true, kv.1)) = (fun k => (true, k)) ∘ Prod.fst from rfl, ← List.map_map] at this
      exact this.of_map
    have n2' : (T.propertyTypes.map Prod.fst).Nodup := by
      have := n2
      rw [show (fun kv : String × α => (false, kv.1)) = (fun k => (false, k)) ∘ Prod.fst from rfl, ← List.map_map] at this
      exact this.of_map
    unfold EntryOf
    cases top
    · exact dlookup_of_mem n2' h1
    · exact dlookup_of_mem n1' h1
  have keys : ∀ x, x = exclusiveTables ∨ x = inclusiveTables → ∀ table ∈ entriesOf x top ty, (table.map Prod.fst).Nodup := by
    have h0 : ∀ kv ∈ exclusiveTables.resourceTypes ++ exclusiveTables.propertyTypes ++ inclusiveTables.resourceTypes ++
        inclusiveTables.propertyTypes, (kv.2.map Prod.fst).Nodup := by decide +kernel
    rintro x (rfl | rfl) table ht <;> obtain ⟨kv, hkv, rfl⟩ := List.mem_map.1 ht <;> have h1 := (List.mem_filter.1 hkv).1 <;>
      cases top <;> refine h0 kv ?_ <;> simp_all
  obtain ⟨hgood, hn1, hn2, hn3, hn4⟩ := C131_groups
  have mem : ∀ n, n ∈ (l.filterMap (fun kv => match kv.1 with | .str s => some s | .int _ => none)).filter (fun n => HasProp b l n) ↔ HasProp b l n := by
    intro n
    simp only [List.mem_filter, decide_eq_true_eq, and_iff_right_iff_imp]
    rintro ⟨v, hv, _⟩
    exact List.mem_filterMap.2 ⟨_, hv, rfl⟩
  refine ⟨_, mem, ?_, ?_, ?_, ?_⟩
  · intro groups hgr g hgm
    have he := entry _ hn1 _ hgr
    obtain ⟨n, hn, hh⟩ := C131_at_least_one_partial h hat hso hd (hf _ (by simp)) hfo ho he (hgood _ _ _ (.inl he)) hb hl hgm
      (hdep _ (hg g)) (.inl hne)
    exact ⟨n, hn, (mem n).2 hh⟩
  · intro groups hgr g hgm
    have he := entry _ hn2 _ hgr
    obtain ⟨n, hn, hh, hu⟩ := C131_only_one_partial h hon hso hd (hf _ (by simp)) hfo ho he (hgood _ _ _ (.inr he)) hb hl hgm
      (hdep _ (hg g)) (.inl hne)
    exact ⟨n, hn, (mem n).2 hh, fun m hm hs => hu m hm ((mem m).1 hs)⟩
  · intro table htb e he h1 o ho' h2
    exact C131_exclusive_partial h hex hso hd (hf _ (by simp)) hfo ho (entry _ hn3 _ htb) hp (hdep _ fun _ h => h)
      (dlookup_of_mem (keys _ (.inl rfl) _ htb) he) ho' ((mem _).1 h1) ((mem _).1 h2)
  · intro table htb e he h1 o ho'
    exact (mem _).2 (C131_inclusive_partial h hin hso hd (hf _ (by simp)) hfo ho (entry _ hn4 _ htb) hp (hdep _ fun _ h => h)
      (dlookup_of_mem (keys _ (.inr rfl) _ htb) he) ho' ((mem _).1 h1))

end Run

/-! ### witnesses -/

/-- a template with two related conditions and one resource with these properties -/
def exGroupRes (ty : String) (o : List (Key × Val)) : List (Key × Val) :=
  [(.str "R", .dict [(.str "Type", .str ty), (.str "Properties", .dict o)])]

def exGroup (o : List (Key × Val)) (ty : String := "T") : Val := .dict (exRel (exGroupRes ty o))

theorem exGroupRes_wf {ty : String} {o : List (Key × Val)} (h : (Val.dict o).WF) : (Val.dict (exGroupRes ty o)).WF := by
  simp only [Val.WF] at h
  simp [exGroupRes, Val.WF, Val.WFDict, h]

theorem exGroup_object (U : RegionSpec) (ty : String) (o : List (Key × Val)) :
    TypedObject U (exGroup o ty) true ty [.str "Resources", .str "R", .str "Properties"] o :=
  .resource ⟨exRel (exGroupRes ty o), exGroupRes ty o, _, rfl, by simp [exRel], List.mem_cons_self, rfl, rfl⟩

theorem exGroup_followed (t : Val) : FollowedIn ⟨[], [], []⟩ t := fun _ _ _ _ _ h => by cases h

def exGroupEnv : CondEnv := ⟨fun _ s => s, List.eraseDups, fun t => (Conditions.init exHash 5 t).1⟩

theorem exGroup_run {id : String} {b : Behaviour} {o : List (Key × Val)} (hid : ∃ cs, id.toList = 'E' :: cs) (hb : ∀ t, b.setUp t = .ok ())
    (hw : (Val.dict o).WF) (ha : setTemplateArgs (exGroup o) = .ok []) (hd : getDirectives (markAll default (exGroup o)) = .ok [])
    (h : runCommand .script [{ info := { id := id } }] (c50Args [] false []) (checkWith [] [] (traversed ⟨[], [], []⟩) (fun _ => b) (fun _ => "t") (markAll default))
      (fun _ => .ok ()) [⟨exGroup o, []⟩] = 0) :
    CleanRun [{ info := { id := id } }] (c50Args [] false []) [] [] (traversed ⟨[], [], []⟩) (fun _ => b) (fun _ => "t") (markAll default)
      (fun _ => .ok ()) [⟨exGroup o, []⟩] :=
  oneRule_clean hid hb (exRel_wf (exGroupRes_wf hw)) ⟨rfl, _, rfl⟩ ha hd h

def exGroupTable {α : Type} (a : α) : TypeTables α := ⟨[("T", a)], []⟩

/-- the full statement does not hold: an object that is left without properties is passed over -/
theorem C131_empty_violated : ¬ C131_statement := by
  intro h
  have ha : setTemplateArgs (exGroup exSetOnly) = .ok [] := by decide
  obtain ⟨n, _, v, hv, hr⟩ := h _ _ _ _ _ _ _ _ _ _ exGroupEnv (exGroupTable [["A", "B"]]) (fun _ => "m")
    (exGroup_run (id := "E2522") (b := atLeastOneOf exGroupEnv (exGroupTable [["A", "B"]]) (fun _ => "m")) ⟨_, rfl⟩ (fun _ => rfl)
      (by simp [exSetOnly, fnIf, noValue, Val.WF, Val.WFDict, Val.WFList]) ha (by decide +kernel) (by decide +kernel))
    (fun _ _ => rfl) setOrder_eraseDups _ List.mem_cons_self (oneRule_inForce ha (by decide)) (exGroup_followed _) _ _ _ _ [["A", "B"]]
    (exGroup_object _ _ _) rfl exSet_groups
    (by
      intro q u hl
      obtain ⟨_, rfl, _⟩ := (leaf_of_notIf exSetOnly_notIf).1 hl
      exact ⟨_, rfl, exSetOnly_plain⟩)
    [] exSetOnly ["A", "B"] exHash 5 (exRel (exGroupRes "T" exSetOnly)) (fun _ => false)
    (.here exSetOnly_notIf (plain_ne exSetOnly_plain)) List.mem_cons_self
    (exRel_deployment (s := "b") (exGroupRes_wf (by simp [exSetOnly, fnIf, noValue, Val.WF, Val.WFDict, Val.WFList])) (by decide) (.inr rfl)
      (by
        rintro c ⟨n, hn, v, hv, hr⟩
        exact exSet_groupCond (g := ["A", "B"]) ⟨n, hn, v, by simp [exSetOnly] at hv; simp [exSet, hv], hr⟩) rfl)
  simp only [exSetOnly, List.mem_singleton, Prod.mk.injEq] at hv
  obtain ⟨_, rfl⟩ := hv
  exact hr (.right rfl .here)

theorem exSet_leaf : Leaf (.dict exSet) [] (.dict exSet) := .here exSet_notIf (plain_ne exSet_plain)

theorem exGroup_deployment {o : List (Key × Val)} (hw : (Val.dict o).WF) (hi : (Conditions.init exHash 5 (exGroup o)).2 = none)
    {P : String → Prop} (hP : ∀ c, P c → c = "C1") {b : String → Bool} (hb : b "C1" = true) :
    Deployment exHash 5 exGroupEnv.enum (exRel (exGroupRes "T" o)) (exGroupEnv.tb (exGroup o)) P b :=
  exRel_deployment (s := "a") (exGroupRes_wf hw) hi (.inl rfl) hP hb

theorem exSet_args : setTemplateArgs (exGroup exSet) = .ok [] := by decide

theorem exSet_inForce {id : String} (hen : isRuleEnabled { incl := addDefaults [.str "W", .str "E"] } { id := id } = .ok true) :
    InForce [{ info := { id := id } }] (c50Args [] false []) (exGroup exSet) { id := id } := oneRule_inForce exSet_args hen

/-- the hypotheses of `C131_at_least_one_partial` are met -/
example (b : String → Bool) (hb : b "C1" = true) : ∃ n ∈ ["A", "B"], HasProp b [(.str "A", .int 1), (.str "D", .int 2)] n :=
  have hw : (Val.dict [(.str "A", .int 1), (.str "D", .int 2)]).WF := by simp [Val.WF, Val.WFDict]
  have hp : PlainObject [(.str "A", .int 1), (.str "D", .int 2)] := ⟨by decide, by decide, by simp [Proper]⟩
  have hi : ¬ IsIf (.dict [(.str "A", .int 1), (.str "D", .int 2)]) := by simp [IsIf]
  have ha : setTemplateArgs (exGroup [(.str "A", .int 1), (.str "D", .int 2)]) = .ok [] := by decide
  C131_at_least_one_partial (exGroup_run (id := "E2522") (b := atLeastOneOf exGroupEnv (exGroupTable [["A", "B"]]) (fun _ => "m")) ⟨_, rfl⟩
      (fun _ => rfl) hw ha (by decide +kernel) (by decide +kernel)) (fun _ _ => rfl) setOrder_eraseDups List.mem_cons_self
    (oneRule_inForce ha (by decide)) (exGroup_followed _) (exGroup_object _ _ _) rfl exSet_groups
    (fun _ _ h => ⟨_, ((leaf_of_notIf hi).1 h).2.1, hp⟩) (.here hi (plain_ne hp)) List.mem_cons_self
    (exGroup_deployment hw (by decide) (by
      rintro c ⟨n, _, v, hv, hr⟩
      have := (mem_propConds c v).2 hr
      simp only [List.mem_cons, Prod.mk.injEq, List.not_mem_nil, or_false] at hv
      rcases hv with ⟨_, rfl⟩ | ⟨_, rfl⟩ <;> simp [propConds] at this) hb)
    (.inl ⟨"D", .int 2, by simp, fun h => by cases h⟩)

theorem exSet_groups' : GoodGroups [["D", "B"]] := by
  intro g hg
  cases List.mem_singleton.1 hg
  decide

/-- the hypotheses of `C131_only_one_partial` are met -/
example (b : String → Bool) (hb : b "C1" = true) : ExactlyOne b exSet ["D", "B"] :=
  C131_only_one_partial (exGroup_run (id := "E2523") (b := onlyOneOf exGroupEnv (exGroupTable [["D", "B"]]) (fun _ => "m")) ⟨_, rfl⟩
      (fun _ => rfl) exSet_wf exSet_args (by decide +kernel) (by decide +kernel)) (fun _ _ => rfl) setOrder_eraseDups List.mem_cons_self
    (exSet_inForce (by decide)) (exGroup_followed _) (exGroup_object _ _ _) rfl exSet_groups' exSet_branches exSet_leaf List.mem_cons_self
    (exGroup_deployment exSet_wf (by decide) (fun _ => exSet_groupCond) hb) (.inl ⟨_, exSet_hasD b⟩)

/-- the hypotheses of `C131_exclusive_partial` are met -/
example (b : String → Bool) (hb : b "C1" = true) : ¬ HasProp b exSet "B" :=
  C131_exclusive_partial (exGroup_run (id := "E2520") (b := exclusiveOf exGroupEnv (exGroupTable [("A", ["B"])]) (fun _ => "m")) ⟨_, rfl⟩
      (fun _ => rfl) exSet_wf exSet_args (by decide +kernel) (by decide +kernel)) (fun _ _ => rfl) setOrder_eraseDups List.mem_cons_self
    (exSet_inForce (by decide)) (exGroup_followed _) (exGroup_object _ _ _) rfl exSet_plain
    (exGroup_deployment exSet_wf (by decide) (fun _ => exSet_cond) hb) (s := "A") rfl List.mem_cons_self (exSet_hasA hb)

/-- the hypotheses of `C131_inclusive_partial` are met -/
example (b : String → Bool) (hb : b "C1" = true) : HasProp b exSet "D" :=
  C131_inclusive_partial (exGroup_run (id := "E2521") (b := inclusiveOf exGroupEnv (exGroupTable [("A", ["D"])]) (fun _ => "m")) ⟨_, rfl⟩
      (fun _ => rfl) exSet_wf exSet_args (by decide +kernel) (by decide +kernel)) (fun _ _ => rfl) setOrder_eraseDups List.mem_cons_self
    (exSet_inForce (by decide)) (exGroup_followed _) (exGroup_object _ _ _) rfl exSet_plain
    (exGroup_deployment exSet_wf (by decide) (fun _ => exSet_cond) hb) (s := "A") rfl List.mem_cons_self (exSet_hasA hb)

/-- a specification with a list of at most two elements that are not repeated -/
def exListSpec : RegionSpec where
  resourceTypes := [("T", .dict [(.str "Properties", .dict [(.str "A", .dict [(.str "Type", .str "List"), (.str "DuplicatesAllowed", .bool false),
    (.str "Value", .dict [(.str "ListValueType", .str "V")])])])])]
  propertyTypes := []
  valueTypes := [("V", .dict [(.str "ListMin", .int 0), (.str "ListMax", .int 2)])]

theorem exListSpec_declared : ∃ spec decl, DeclaredIn exListSpec true "T" spec ∧ DeclaredProp spec "A" decl ∧ MayNotRepeat decl ∧
    SizeBetween exListSpec decl 0 2 :=
  ⟨_, _, rfl, ⟨_, rfl, rfl⟩, ⟨rfl, rfl⟩, rfl, _, _, _, by decide, rfl, rfl, rfl, rfl, rfl⟩

theorem exSized_cond {c : String} (h : ObjectCond exSized c) : c = "C1" := by
  obtain ⟨kv, hm, h⟩ := h
  have := (mem_propConds c kv.2).2 h
  simp only [exSized, List.mem_cons, List.not_mem_nil, or_false] at hm
  rcases hm with rfl | rfl
  · simpa [propConds, propListConds, propIfConds, fnIf, noValue] using this
  · simp [propConds] at this

/-- the hypotheses of `C131_sizes_partial` are met -/
example (b : String → Bool) (hb : b "C1" = true) (n : Nat) (hn : ListOf b (.list [.int 1, fnIf (.str "C1") (.int 1) noValue]) n) : (n : Int) ≤ 2 := by
  obtain ⟨spec, decl, h1, h2, _, h4⟩ := exListSpec_declared
  have ha : setTemplateArgs (exGroup exSized) = .ok [] := by decide
  have hi : ¬ IsIf (.dict exSized) := by simp [IsIf, exSized]
  exact (C131_sizes_partial (exGroup_run (id := "E3032") (b := sizesOf exGroupEnv exListSpec (fun _ => "m")) ⟨_, rfl⟩
      (fun _ => rfl) exSized_wf ha (by decide +kernel) (by decide +kernel)) (fun _ _ => rfl) setOrder_eraseDups List.mem_cons_self
    (oneRule_inForce ha (by decide)) (exGroup_followed _) (exGroup_object _ _ _) h1 (fun q u h => ⟨exSized, leaf_of_two h, exSized_plain⟩)
    (.here hi (plain_ne exSized_plain)) h2 h4 List.mem_cons_self (exGroup_deployment exSized_wf (by decide) (fun _ => exSized_cond) hb) hn
    (.inl ⟨"C1", _, List.mem_cons_self, .item (List.mem_cons_of_mem _ List.mem_cons_self) .here⟩)).2

/-- the hypotheses of `C131_repeats_partial` are met -/
example (i : Nat) : ¬ Repeats [.str "x", .str "y"] i := by
  obtain ⟨spec, decl, h1, h2, h3, _⟩ := exListSpec_declared
  have ha : setTemplateArgs (exGroup (exRepeat (.list [.str "x", .str "y"]))) = .ok [] := by decide
  have hi : ¬ IsIf (.dict (exRepeat (.list [.str "x", .str "y"]))) := by simp [IsIf, exRepeat]
  exact C131_repeats_partial (exGroup_run (id := "E3037") (b := repeatsOf exGroupEnv exListSpec (fun _ => "m")) ⟨_, rfl⟩
      (fun _ => rfl) (by simp [exRepeat, Val.WF, Val.WFDict, Val.WFList]) ha (by decide +kernel) (by decide +kernel)) (fun _ _ => rfl) List.mem_cons_self
    (oneRule_inForce ha (by decide)) (exGroup_followed _) (exGroup_object _ _ _) h1 (fun q u h => ⟨_, leaf_of_two h⟩)
    (.here hi (by simp [exRepeat, noValue])) h2 h3 List.mem_cons_self i

/-- a list under a condition without equal elements -/
def exChoice : Val := fnIf (.str "C1") (.list [.str "x", .str "y"]) (.list [.str "x"])

theorem exChoice_steady : SteadyLists exChoice := by
  have hx : ∀ s : String, Steady (.str s) := fun s => ⟨by simp [IsIf], by simp [noValue], by simp, by simp⟩
  have hleaf : ∀ q u, Leaf exChoice q u → u = .list [.str "x", .str "y"] ∨ u = .list [.str "x"] := by
    intro q u h
    generalize hv : exChoice = v at h
    cases h with
    | here hn => exact absurd ⟨_, hv.symm⟩ hn
    | left h =>
      simp only [exChoice, fnIf, Val.dict.injEq, List.cons.injEq, Prod.mk.injEq, true_and, and_true, Val.list.injEq] at hv
      obtain ⟨-, rfl, rfl⟩ := hv
      exact .inl ((leaf_of_notIf (by simp [IsIf])).1 h).2.1
    | right h =>
      simp only [exChoice, fnIf, Val.dict.injEq, List.cons.injEq, Prod.mk.injEq, true_and, and_true, Val.list.injEq] at hv
      obtain ⟨-, rfl, rfl⟩ := hv
      exact .inr ((leaf_of_notIf (by simp [IsIf])).1 h).2.1
  refine ⟨by simp [exChoice, fnIf, Proper, ProperIf, ProperItems], fun q xs h x hm => ?_, fun q kvs h => ?_⟩
  · rcases hleaf q _ h with e | e
    · cases e
      simp only [List.mem_cons, List.not_mem_nil, or_false] at hm
      rcases hm with rfl | rfl <;> exact hx _
    · cases e
      simp only [List.mem_cons, List.not_mem_nil, or_false] at hm
      subst hm
      exact hx _
  · rcases hleaf q _ h with e | e <;> cases e

/-- the hypotheses of `C131_branches_partial` are met -/
example (b : String → Bool) (hb : b "C1" = true) : ¬ RepeatsUnder b exChoice := by
  obtain ⟨spec, decl, h1, h2, h3, _⟩ := exListSpec_declared
  have ha : setTemplateArgs (exGroup (exRepeat exChoice)) = .ok [] := by decide
  have hi : ¬ IsIf (.dict (exRepeat exChoice)) := by simp [IsIf, exRepeat]
  have hw : (Val.dict (exRepeat exChoice)).WF := by simp [exRepeat, exChoice, fnIf, Val.WF, Val.WFDict, Val.WFList]
  refine C131_branches_partial (exGroup_run (id := "E3037") (b := repeatsOf exGroupEnv exListSpec (fun _ => "m")) ⟨_, rfl⟩
      (fun _ => rfl) hw ha (by decide +kernel) (by decide +kernel)) (fun _ _ => rfl) setOrder_eraseDups List.mem_cons_self
    (oneRule_inForce ha (by decide)) (exGroup_followed _) (exGroup_object _ _ _) h1 (fun q u h => ⟨_, leaf_of_two h⟩)
    (.here hi (by simp [exRepeat, noValue])) h2 h3 List.mem_cons_self ⟨_, rfl⟩ exChoice_steady
    (exGroup_deployment hw (by decide) ?_ hb)
  intro c hc
  have := (mem_propConds c _).2 ((asks_branches exChoice_steady).2 hc)
  simpa [propConds, propListConds, propIfConds, fnIf, exChoice] using this

/-- an instance with an image and, under a condition, a launch template -/
def exInstance : List (Key × Val) := [(.str "ImageId", .str "i"), (.str "LaunchTemplate", fnIf (.str "C1") (.str "l") noValue)]

/-- the four rules with the shipped tables -/
def exTableRules (r : RuleObj) : Behaviour :=
  if r.info.id = "E2522" then atLeastOneOf exGroupEnv atLeastOneTables (fun _ => "m")
  else if r.info.id = "E2523" then onlyOneOf exGroupEnv onlyOneTables (fun _ => "m")
  else if r.info.id = "E2520" then exclusiveOf exGroupEnv exclusiveTables (fun _ => "m")
  else inclusiveOf exGroupEnv inclusiveTables (fun _ => "m")

theorem exTableRules_setUp (r : RuleObj) (t : Val) : (exTableRules r).setUp t = .ok () := by
  unfold exTableRules
  repeat' split
  all_goals rfl

theorem exInstance_cond {c : String} (h : ObjectCond exInstance c) : c = "C1" := by
  obtain ⟨kv, hm, h⟩ := h
  have := (mem_propConds c kv.2).2 h
  simp only [exInstance, List.mem_cons, List.not_mem_nil, or_false] at hm
  rcases hm with rfl | rfl
  · simp [propConds] at this
  · simpa [propConds, propListConds, propIfConds, fnIf, noValue] using this

/-- the hypotheses of `C131_tables_partial` are met -/
example (b : String → Bool) (hb : b "C1" = true) : ∃ S, (∀ n, n ∈ S ↔ HasProp b exInstance n) ∧
    AllowedSet atLeastOneTables onlyOneTables exclusiveTables inclusiveTables true "AWS::EC2::Instance" S := by
  have ha : setTemplateArgs (exGroup exInstance "AWS::EC2::Instance") = .ok [] := by decide
  have hw : (Val.dict exInstance).WF := by simp [exInstance, fnIf, noValue, Val.WF, Val.WFDict, Val.WFList]
  have hp : PlainObject exInstance := by
    refine ⟨by decide, by decide, ?_⟩
    simp [exInstance, fnIf, noValue, Proper, ProperIf]
  refine C131_tables_partial (rules_clean (S := traversed ⟨[], [], []⟩) (ids := ["E2520", "E2521", "E2522", "E2523"]) (beh := exTableRules)
      (t := exGroup exInstance "AWS::EC2::Instance") (severity_ids (by decide)) exTableRules_setUp (exRel_wf (exGroupRes_wf hw)) ⟨rfl, _, rfl⟩ ha
      (by decide +kernel) (by decide +kernel)) (E := exGroupEnv) (msg := fun _ => "m") (msg' := fun _ => "m")
    (fun r hr => by simp [exTableRules, hr]) (fun r hr => by simp [exTableRules, hr]) (fun r hr => by simp [exTableRules, hr])
    (fun r hr => by simp [exTableRules, hr]) setOrder_eraseDups List.mem_cons_self ?_ (exGroup_followed _) (exGroup_object _ _ _) hp
    (fun P hP => exRel_deployment (s := "a") (exGroupRes_wf hw) (by decide) (.inl rfl) (fun c hc => exInstance_cond (hP c hc)) hb)
    ⟨"ImageId", .str "i", by simp [exInstance], fun h => by cases h⟩
  intro id hid
  refine rules_inForce hid ha ?_
  simp only [List.mem_cons, List.not_mem_nil, or_false] at hid
  rcases hid with rfl | rfl | rfl | rfl <;> decide

/-- the hypotheses of `C131_satisfiable` are met -/
example : ∃ S, "SubnetId" ∈ S ∧ AllowedSet atLeastOneTables onlyOneTables exclusiveTables inclusiveTables true "AWS::EC2::Instance" S :=
  C131_satisfiable _ _ _ (by decide +kernel)

end CfnLint
