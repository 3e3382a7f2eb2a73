import Verif.Props.Closed
import Verif.Props.Policies
import Verif.Props.Modules
import Verif.Props.RefRules
import Verif.Props.UpdatePolicy
import Verif.Props.Aliases
import Verif.Props.Ebs
import Verif.Props.Elb
import Verif.Props.NoEcho
import Verif.Props.RouteTable
/-
Property C134: what status 0 says of resources of particular types, and of policies, transforms, mappings and conditions, when the
rules on them are in force.
-/
namespace CfnLint

open Spec

/-- the rules on particular resources that are called on the whole template, each with its function; the messages are arbitrary, and
so is how the paths of W4002 and E3022 are made. The ids are those of DeletionPolicy.py:14, UpdateReplacePolicy.py:14,
BothUpdateReplacePolicyDeletionPolicyNeeded.py:11, ServerlessTransform.py:13, RefInCondition.py:12, KeyName.py:14,
updatepolicy/Configuration.py:12, TaskDefinitionEssentialContainer.py:11, cloudfront/Aliases.py:13, ectwo/Ebs.py:13,
SecurityGroupIngress.py:11, EventsLogGroupName.py:12, Elb.py:12, NoEcho.py:12 and RouteTableAssociation.py:14 -/
structure KindRules (beh : RuleObj → Behaviour) (n : Nat) (echo : List Val × Key → Path) (route : Key × List Key → Path) : Prop where
  E3035 : ∀ r, r.info.id = "E3035" → ∃ msg, (beh r).whole = some (fun t => withText Prod.fst msg (policyRule "DeletionPolicy" t))
  E3036 : ∀ r, r.info.id = "E3036" → ∃ msg, (beh r).whole = some (fun t => withText Prod.fst msg (policyRule "UpdateReplacePolicy" t))
  W3011 : ∀ r, r.info.id = "W3011" → ∃ msg, (beh r).whole = some (fun t => withText id msg (bothRule t))
  E3038 : ∀ r, r.info.id = "E3038" → ∃ msg, (beh r).whole = some (fun t => withText id msg (serverlessRule t))
  E1026 : ∀ r, r.info.id = "E1026" → ∃ msg, (beh r).whole = some (fun t => withText id msg (refInConditionRule t (.dict [])))
  E7003 : ∀ r, r.info.id = "E7003" → ∃ msg, (beh r).whole = some (fun t => withText id msg (keyNameRule t))
  E3016 : ∀ r, r.info.id = "E3016" → ∃ msg, (beh r).whole = some (fun t => withText Prod.fst msg (updatePolicyRule (n + 2) t))
  E3042 : ∀ r, r.info.id = "E3042" → ∃ msg, (beh r).whole = some (fun t => withText id msg (essentialRule (n + 2) t))
  E3013 : ∀ r, r.info.id = "E3013" → ∃ msg, (beh r).whole = some (fun t => withText Prod.fst msg (aliasRule (n + 2) t))
  E2504 : ∀ r, r.info.id = "E2504" → ∃ msg, (beh r).whole = some (fun t => withText id msg (ebsRule (n + 2) t))
  E2506 : ∀ r, r.info.id = "E2506" → ∃ msg, (beh r).whole = some (fun t => withText id msg (ingressRule t))
  E2529 : ∀ r, r.info.id = "E2529" → ∃ msg, (beh r).whole = some (fun t => withText id msg (filtersRule t))
  E2503 : ∀ r, r.info.id = "E2503" → ∃ msg, (beh r).whole = some (fun t => withText id msg (listenerRule (n + 2) t))
  W4002 : ∀ r, r.info.id = "W4002" → ∃ msg, (beh r).whole = some (fun t => withText echo msg (noEchoRule t (.dict [])))
  E3022 : ∀ r, r.info.id = "E3022" → ∃ msg, (beh r).whole = some (fun t => withText route msg (routeTableRule t))

section Clean

variable {objs : List RuleObj} {args : Sources} {all : List String} {regions : List Val} {S : TypeSpecs} {beh : RuleObj → Behaviour}
  {name : Val → String} {mark : Val → MVal} {print : List Match → PyM Unit} {ds : List Decoded} {n : Nat} {echo : List Val × Key → Path}
  {route : Key × List Key → Path}

theorem goodPolicy_of {r v : Val} (h : ∀ kind, ¬ PolicyFault r v kind) : GoodPolicy r v := by
  cases v with
  | str s =>
    by_cases h1 : s = "Delete"
    · subst h1; exact .delete
    by_cases h2 : s = "Retain"
    · subst h2; exact .retain
    by_cases h3 : s = "Snapshot"
    · subst h3
      refine .snapshot ?_
      by_contra hc
      exact h _ (.snapshot hc)
    exact absurd (.unknown h1 h2 h3) (h _)
  | list xs => exact absurd .several (h _)
  | _ => exact absurd (.notText (by simp) (by simp)) (h _)

/-- **C134** If the command ends with status 0 and E3035 or E3036 is in force, each policy of that kind that a resource states is `Delete`, `Retain`,
or `Snapshot` on a resource that can have snapshots. -/
theorem C134_policies (h : CleanRun objs args all regions S beh name mark print ds) (hb : KindRules beh n echo route) {d : Decoded} (hd : d ∈ ds)
    {attr : String} (hf : attr = "DeletionPolicy" ∧ InForce objs args d.template { id := "E3035" } ∨
      attr = "UpdateReplacePolicy" ∧ InForce objs args d.template { id := "E3036" })
    {k : Key} {r v : Val} (hr : ResourceAt d.template k r) (hs : StatesPolicy r attr v) : GoodPolicy r v := by
  obtain ⟨l, h1, h2⟩ := C84_kinds (attr := attr) (clean_wf h hd) (clean_object h hd)
  have hl : l = [] := by
    rcases hf with ⟨rfl, hf⟩ | ⟨rfl, hf⟩
    · exact whole_found h hd hf hb.E3035 h1
    · exact whole_found h hd hf hb.E3036 h1
  subst hl
  exact goodPolicy_of fun kind hk => by cases (h2 _ kind).2 ⟨k, r, v, rfl, hr, hs, hk⟩

/-- **C134** … and W3011 is in force, no resource but a version of a function or a layer is kept in one case only. -/
theorem C134_both (h : CleanRun objs args all regions S beh name mark print ds) (hb : KindRules beh n echo route) {d : Decoded} (hd : d ∈ ds)
    (hf : InForce objs args d.template { id := "W3011" }) {k : Key} {r : Val} (hr : ResourceAt d.template k r) (hv : ¬ TypedAs r versions) :
    ¬ HalfKept r := by
  obtain ⟨l, h1, h2⟩ := C84_both (clean_wf h hd) (clean_object h hd)
  cases whole_found h hd hf hb.W3011 h1
  intro hk
  cases (h2 _).2 ⟨k, r, rfl, hr, hv, hk⟩

/-- **C134** … and E3038 is in force, a template with serverless resources names the transform. -/
theorem C134_serverless (h : CleanRun objs args all regions S beh name mark print ds) (hb : KindRules beh n echo route) {d : Decoded} (hd : d ∈ ds)
    (hf : InForce objs args d.template { id := "E3038" }) (hu : UsesServerless d.template) : HasServerless d.template := by
  have hw := clean_wf h hd
  obtain ⟨top, ht⟩ := clean_object h hd
  rw [ht] at hw hu ⊢
  obtain ⟨l, h1, h2⟩ := C115_serverless hw
  cases whole_found h hd hf hb.E3038 (by rw [ht]; exact h1)
  by_contra hc
  cases (h2 _).2 ⟨rfl, hu, hc⟩

/-- **C134** … and E1026 is in force, no reference in a condition names a resource. -/
theorem C134_conditions (h : CleanRun objs args all regions S beh name mark print ds) (hb : KindRules beh n echo route) {d : Decoded} (hd : d ∈ ds)
    (hf : InForce objs args d.template { id := "E1026" }) {q : Path} {w : Val}
    (hat : At d.template (.str "Conditions" :: q ++ [.str "Ref"]) w) : ¬ NamesResource d.template w := by
  have hw := clean_wf h hd
  obtain ⟨top, ht⟩ := clean_object h hd
  rw [ht] at hw hat ⊢
  obtain ⟨l, h1, h2⟩ := C116_conditions hw (.dict [])
  cases whole_found h hd hf hb.E1026 (by rw [ht]; exact h1)
  intro hc
  cases (h2 (.str "Conditions" :: q ++ [.str "Ref"])).2 ⟨q ++ [.str "Ref"], w, rfl, ⟨⟨.str "Conditions" :: q, rfl⟩, .inl hat⟩, hc⟩

/-- **C134** … and E7003 is in force, the keys of the mappings are texts, and those of the second level are letters and digits. -/
theorem C134_mappings (h : CleanRun objs args all regions S beh name mark print ds) (hb : KindRules beh n echo route) {d : Decoded} (hd : d ∈ ds)
    (hf : InForce objs args d.template { id := "E7003" }) {ms : List (Key × Val)} (hm : At d.template [.str "Mappings"] (.dict ms))
    {m : Key} {rows : List (Key × Val)} (hrows : (m, .dict rows) ∈ ms) {r : Key} {v : Val} (hr : (r, v) ∈ rows) :
    (∃ s, r = .str s) ∧ ∀ cells k w, v = .dict cells → (k, w) ∈ cells → ∃ s, k = .str s ∧ MaybeBreak Alnum s := by
  have hw := clean_wf h hd
  obtain ⟨top, ht⟩ := clean_object h hd
  rw [ht] at hw hm
  obtain ⟨l, h1, h2⟩ := C116_mappings hw fun v hv => ⟨ms, at_det hw (at_dict_one.2 hv) hm⟩
  cases whole_found h hd hf hb.E7003 (by rw [ht]; exact h1)
  have hat : At (.dict top) [.str "Mappings", m] (.dict rows) := at_cons.2 ⟨_, hm, at_dict_one.2 hrows⟩
  constructor
  · cases r with
    | str s => exact ⟨s, rfl⟩
    | int i => cases (h2 _).2 (.row hat hr)
  · rintro cells k w rfl hk
    by_contra hc
    cases (h2 _).2 (.cell hat hr hk fun s e hs => hc ⟨s, e, hs⟩)

/-- **C134** … and E3016 is in force, the update policies are right. Missing: choices between values that are no objects. -/
theorem C134_update_partial (h : CleanRun objs args all regions S beh name mark print ds) (hb : KindRules beh n echo route) {d : Decoded} (hd : d ∈ ds)
    (hf : InForce objs args d.template { id := "E3016" }) (hc : PolicyChoices d.template) (x : Path × UpFault) : ¬ UpdateFinding false d.template x := by
  have hw := clean_wf h hd
  obtain ⟨top, ht⟩ := clean_object h hd
  rw [ht] at hw hc ⊢
  obtain ⟨l, h1, h2⟩ := C120_update hw hc n
  cases whole_found h hd hf hb.E3016 (by rw [ht]; exact h1)
  intro hx
  cases (h2 x).2 hx

/-- **C134** … and E3042 is in force, each list of the containers of a task has an essential one. Missing: tasks whose containers are not listed as objects. -/
theorem C134_essential_partial (h : CleanRun objs args all regions S beh name mark print ds) (hb : KindRules beh n echo route) {d : Decoded} (hd : d ∈ ds)
    (hf : InForce objs args d.template { id := "E3042" })
    (ho : ∀ name props, HasProps d.template "AWS::ECS::TaskDefinition" name props → props.truthy = true → ∃ kvs, props = .dict kvs ∧
      ∀ v, (Key.str "ContainerDefinitions", v) ∈ kvs → ∃ cs, v = .list cs ∧ ∀ c ∈ cs, ∃ es, c = .dict es)
    {k : Key} {kvs : List (Key × Val)} {cs : List Val} (hp : HasProps d.template "AWS::ECS::TaskDefinition" k (.dict kvs))
    (hcs : (Key.str "ContainerDefinitions", Val.list cs) ∈ kvs) : ∃ c ∈ cs, Essential c := by
  obtain ⟨l, h1, h2⟩ := C113_containers n (clean_wf h hd) ho
  cases whole_found h hd hf hb.E3042 h1
  by_contra hc
  cases (h2 _).2 ⟨k, kvs, cs, hp, hcs, fun c hm he => hc ⟨c, hm, he⟩, rfl⟩

/-- **C134** … and E3013 is in force, the aliases of distributions are domain names, with an asterisk at the front only. Missing: other forms of the
distributions, and aliases with braces. -/
theorem C134_aliases_partial (h : CleanRun objs args all regions S beh name mark print ds) (hb : KindRules beh n echo route) {d : Decoded} (hd : d ∈ ds)
    (hf : InForce objs args d.template { id := "E3013" })
    (ho : ∀ name props, HasProps d.template "AWS::CloudFront::Distribution" name props → props.truthy = true → ∃ kvs, props = .dict kvs ∧
      ∀ v, (Key.str "DistributionConfig", v) ∈ kvs → ∃ conf, v = .dict conf ∧ ∀ a, (Key.str "Aliases", a) ∈ conf → a = .none ∨ ∃ xs, a = .list xs)
    (hn : ∀ p s, AliasAt d.template p s → NoBraces s) {p : Path} {s : String} (hs : AliasAt d.template p s) (hj : s ∉ jsonFunctions) :
    DomainLine s ∧ ¬ LaterStar s := by
  obtain ⟨l, h1, h2⟩ := C113_aliases n (clean_wf h hd) ho hn
  cases whole_found h hd hf hb.E3013 h1
  constructor
  · by_contra hc
    cases (h2 p .invalid).2 ⟨s, hs, hj, .inr ⟨rfl, hc⟩⟩
  · intro hc
    cases (h2 p .wildcard).2 ⟨s, hs, hj, .inl ⟨rfl, hc⟩⟩

/-- **C134** … and E2504 is in force, the devices of instances have no faults. Missing: other forms of the devices. -/
theorem C134_devices_partial (h : CleanRun objs args all regions S beh name mark print ds) (hb : KindRules beh n echo route) {d : Decoded} (hd : d ∈ ds)
    (hf : InForce objs args d.template { id := "E2504" })
    (ho : ∀ ty name props, (ty = "AWS::EC2::Instance" ∨ ty = "AWS::AutoScaling::LaunchConfiguration") → HasProps d.template ty name props →
      props.truthy = true → ∃ kvs, props = .dict kvs)
    (hp : ∀ name xs, DeviceList d.template name xs → ∀ x ∈ xs, DevicePlain x) {k : Key} {xs : List Val} (hx : DeviceList d.template k xs)
    {kvs : List (Key × Val)} (hk : Val.dict kvs ∈ xs) (r : Path) : ¬ DeviceFault kvs r := by
  obtain ⟨l, h1, h2⟩ := C114_devices n (clean_wf h hd) ho hp
  cases whole_found h hd hf hb.E2504 h1
  intro hc
  obtain ⟨i, hi⟩ := List.getElem?_of_mem hk
  cases (h2 _).2 ⟨k, xs, i, kvs, r, hx, hi, hc, rfl⟩

/-- **C134** … and E2506 is in force, the rules of security groups name their source in the way that fits. Missing: other forms of the groups. -/
theorem C134_ingress_partial (h : CleanRun objs args all regions S beh name mark print ds) (hb : KindRules beh n echo route) {d : Decoded} (hd : d ∈ ds)
    (hf : InForce objs args d.template { id := "E2506" })
    (hg : ∀ name props, HasProps d.template "AWS::EC2::SecurityGroup" name props → props.truthy = true → ∃ kvs, props = .dict kvs ∧
      ∀ xs, (Key.str "SecurityGroupIngress", Val.list xs) ∈ kvs → ∀ x ∈ xs, ∃ es, x = .dict es)
    (ho : ∀ name props, HasProps d.template "AWS::EC2::SecurityGroupIngress" name props → ∃ kvs, props = .dict kvs) (p : Path) :
    ¬ IngressFault d.template p := by
  obtain ⟨l, h1, h2⟩ := C114_ingress (clean_wf h hd) hg ho
  cases whole_found h hd hf hb.E2506 h1
  intro hc
  cases (h2 _).2 hc

/-- **C134** … and E2529 is in force, no group of logs has three filters. Missing: other forms of the filters. -/
theorem C134_filters_partial (h : CleanRun objs args all regions S beh name mark print ds) (hb : KindRules beh n echo route) {d : Decoded} (hd : d ∈ ds)
    (hf : InForce objs args d.template { id := "E2529" }) (hp : FiltersPlain d.template) (k : Key) : ¬ ThirdFilter d.template k := by
  obtain ⟨l, h1, h2⟩ := C115_filters (clean_wf h hd) hp
  cases whole_found h hd hf hb.E2529 h1
  intro hc
  cases (h2 _).2 ⟨k, hc, rfl⟩

/-- **C134** … and E2503 is in force, the protocols of listeners exist, and those that need a certificate have one. Missing: other forms of the listeners. -/
theorem C134_listeners_partial (h : CleanRun objs args all regions S beh name mark print ds) (hb : KindRules beh n echo route) {d : Decoded} (hd : d ∈ ds)
    (hf : InForce objs args d.template { id := "E2503" })
    (h2 : ∀ name props, HasProps d.template "AWS::ElasticLoadBalancingV2::Listener" name props → props.truthy = true →
      ∃ kvs, props = .dict kvs ∧ ProtocolSet kvs)
    (h1 : ∀ name props, HasProps d.template "AWS::ElasticLoadBalancing::LoadBalancer" name props → props.truthy = true → ∃ kvs, props = .dict kvs ∧
      ∀ xs x, (Key.str "Listeners", Val.list xs) ∈ kvs → x ∈ xs → ∃ es, x = .dict es ∧ ProtocolSet es) (r : Path) :
    (∀ name kvs, HasProps d.template "AWS::ElasticLoadBalancingV2::Listener" name (.dict kvs) →
      ¬ ListenerFault ["GENEVE", "HTTP", "HTTPS", "TCP", "TCP_UDP", "TLS", "UDP"] ["HTTPS", "TLS"] "Certificates" kvs r) ∧
    ∀ name kvs xs es, HasProps d.template "AWS::ElasticLoadBalancing::LoadBalancer" name (.dict kvs) → (Key.str "Listeners", Val.list xs) ∈ kvs →
      Val.dict es ∈ xs → ¬ ListenerFault ["HTTP", "HTTPS", "TCP", "SSL"] ["HTTPS", "SSL"] "SSLCertificateId" es r := by
  have hw := clean_wf h hd
  obtain ⟨l, g1, g2⟩ := C104_v2 n hw h2
  obtain ⟨l', g3, g4⟩ := C104_v1 n hw h1
  obtain ⟨l'', g5, g6⟩ := C104_rule g1 g3
  cases whole_found h hd hf hb.E2503 g5
  constructor
  · intro name kvs hp hc
    cases (g6 _).2 (.inl ((g2 _).2 ⟨name, kvs, r, hp, hc, rfl⟩))
  · intro name kvs xs es hp hx hm hc
    obtain ⟨i, hi⟩ := List.getElem?_of_mem hm
    cases (g6 _).2 (.inr ((g4 _).2 ⟨name, kvs, xs, es, i, r, hp, hx, hi, hc, rfl⟩))

/-- **C134** … and W4002 is in force, the metadata of resources do not show a secret parameter. Missing: other forms of parameters and of `Fn::Sub`. -/
theorem C134_secrets_partial (h : CleanRun objs args all regions S beh name mark print ds) (hb : KindRules beh n echo route) {d : Decoded} (hd : d ∈ ds)
    (hf : InForce objs args d.template { id := "W4002" }) (hp : Entries d.template "Parameters" (fun v => ∃ d, v = .dict d)) (hs : SubShape d.template)
    {k : Key} {x : String} (hx : SecretParam d.template (.str x)) :
    (∀ q, ¬ At d.template (metadataPath k (q ++ [.str "Ref"])) (.str x)) ∧
    ∀ q s, At d.template (metadataPath k (q ++ [.str "Fn::Sub"])) (.str s) → ¬ SubVar s x := by
  obtain ⟨l, h1, h2⟩ := C85_reports (clean_wf h hd) hp hs
  cases whole_found h hd hf hb.W4002 h1
  constructor
  · intro q hq
    obtain ⟨q', hc | hc⟩ := (h2 k x).2 ⟨hx, .inl ⟨q, hq⟩⟩ <;> cases hc
  · intro q s hq hv
    obtain ⟨q', hc | hc⟩ := (h2 k x).2 ⟨hx, .inr ⟨q, s, hq, hv⟩⟩ <;> cases hc

/-- **C134** … and E3022 is in force, no two associations are of the same subnet, when both are made and decided under the same condition or the second under none. Missing: other forms of the associations. -/
theorem C134_routes_partial (h : CleanRun objs args all regions S beh name mark print ds) (hb : KindRules beh n echo route) {d : Decoded} (hd : d ∈ ds)
    (hf : InForce objs args d.template { id := "E3022" }) (ht : TidyAssociations d.template) {a b : Key} {c e : Option Val} {v w : Val}
    {xs ys : List (Val × Bool)} {s : String} (ha : Associates d.template a c v) (hv : Names v xs s) (hb' : Associates d.template b e w) (hw : Names w ys s)
    (hce : (c = e ∧ innermost .none xs = innermost .none ys) ∨ (e = none ∧ ys = [])) : a = b := by
  obtain ⟨l, h1, -, h2⟩ := C87_exact (clean_wf h hd) ht
  cases whole_found h hd hf hb.E3022 h1
  by_contra hn
  obtain ⟨os, ho, -⟩ := (h2 a b).2 ⟨hn, c, v, xs, e, w, ys, s, ha, hv, hb', hw, hce⟩
  cases ho

end Clean

/-- the rules on particular resources -/
def kindIds : List String :=
  ["E3035", "E3036", "W3011", "E3038", "E1026", "E7003", "E3016", "E3042", "E3013", "E2504", "E2506", "E2529", "E2503", "W4002", "E3022"]

/-- what the rules on particular resources are for -/
structure Spec.KindsRight (t : Val) : Prop where
  policies : ∀ attr k r v, attr = "DeletionPolicy" ∨ attr = "UpdateReplacePolicy" → ResourceAt t k r → StatesPolicy r attr v → GoodPolicy r v
  both : ∀ k r, ResourceAt t k r → ¬ TypedAs r versions → ¬ HalfKept r
  serverless : UsesServerless t → HasServerless t
  conditions : ∀ q w, At t (.str "Conditions" :: q ++ [.str "Ref"]) w → ¬ NamesResource t w
  mappings : ∀ ms m rows r v, At t [.str "Mappings"] (.dict ms) → (m, Val.dict rows) ∈ ms → (r, v) ∈ rows →
    (∃ s, r = .str s) ∧ ∀ cells k w, v = .dict cells → (k, w) ∈ cells → ∃ s, k = .str s ∧ MaybeBreak Alnum s
  update : ∀ x, ¬ UpdateFinding false t x
  essential : ∀ k kvs cs, HasProps t "AWS::ECS::TaskDefinition" k (.dict kvs) → (Key.str "ContainerDefinitions", Val.list cs) ∈ kvs → ∃ c ∈ cs, Essential c
  aliases : ∀ p s, AliasAt t p s → NoBraces s → s ∉ jsonFunctions → DomainLine s ∧ ¬ LaterStar s
  devices : ∀ k xs kvs r, DeviceList t k xs → Val.dict kvs ∈ xs → ¬ DeviceFault kvs r
  ingress : ∀ p, ¬ IngressFault t p
  filters : ∀ k, ¬ ThirdFilter t k
  listeners : ∀ name kvs r, HasProps t "AWS::ElasticLoadBalancingV2::Listener" name (.dict kvs) →
    ¬ ListenerFault ["GENEVE", "HTTP", "HTTPS", "TCP", "TCP_UDP", "TLS", "UDP"] ["HTTPS", "TLS"] "Certificates" kvs r
  balancers : ∀ name kvs xs es r, HasProps t "AWS::ElasticLoadBalancing::LoadBalancer" name (.dict kvs) → (Key.str "Listeners", Val.list xs) ∈ kvs →
    Val.dict es ∈ xs → ¬ ListenerFault ["HTTP", "HTTPS", "TCP", "SSL"] ["HTTPS", "SSL"] "SSLCertificateId" es r
  secrets : ∀ k x, SecretParam t (.str x) → (∀ q, ¬ At t (metadataPath k (q ++ [.str "Ref"])) (.str x)) ∧
    ∀ q s, At t (metadataPath k (q ++ [.str "Fn::Sub"])) (.str s) → ¬ SubVar s x
  routes : ∀ a b v w s, Associates t a none v → Names v [] s → Associates t b none w → Names w [] s → a = b

/-- **C134** The full statement: if the command ends with status 0, what the rules in force are for holds of the templates, whatever the form of the
resources. -/
def C134_statement : Prop :=
  ∀ (objs : List RuleObj) (args : Sources) (all : List String) (regions : List Val) (S : TypeSpecs) (beh : RuleObj → Behaviour) (name : Val → String)
    (mark : Val → MVal) (print : List Match → PyM Unit) (ds : List Decoded) (n : Nat) (echo : List Val × Key → Path) (route : Key × List Key → Path),
    CleanRun objs args all regions S beh name mark print ds → KindRules beh n echo route → ∀ d ∈ ds,
    (∀ i ∈ kindIds, InForce objs args d.template { id := i }) → KindsRight d.template

/-- the functions of these rules -/
noncomputable def exKindWhole (i : String) : Option (Val → PyM (List (Path × String))) :=
  if i = "E3035" then some fun t => withText Prod.fst (fun _ => "deletion") (policyRule "DeletionPolicy" t)
  else if i = "E3036" then some fun t => withText Prod.fst (fun _ => "replacement") (policyRule "UpdateReplacePolicy" t)
  else if i = "W3011" then some fun t => withText id (fun _ => "both") (bothRule t)
  else if i = "E3038" then some fun t => withText id (fun _ => "transform") (serverlessRule t)
  else if i = "E1026" then some fun t => withText id (fun _ => "condition") (refInConditionRule t (.dict []))
  else if i = "E7003" then some fun t => withText id (fun _ => "key") (keyNameRule t)
  else if i = "E3016" then some fun t => withText Prod.fst (fun _ => "update") (updatePolicyRule (0 + 2) t)
  else if i = "E3042" then some fun t => withText id (fun _ => "essential") (essentialRule (0 + 2) t)
  else if i = "E3013" then some fun t => withText Prod.fst (fun _ => "alias") (aliasRule (0 + 2) t)
  else if i = "E2504" then some fun t => withText id (fun _ => "device") (ebsRule (0 + 2) t)
  else if i = "E2506" then some fun t => withText id (fun _ => "ingress") (ingressRule t)
  else if i = "E2529" then some fun t => withText id (fun _ => "filter") (filtersRule t)
  else if i = "E2503" then some fun t => withText id (fun _ => "listener") (listenerRule (0 + 2) t)
  else if i = "W4002" then some fun t => withText (fun _ => []) (fun _ => "secret") (noEchoRule t (.dict []))
  else if i = "E3022" then some fun t => withText (fun _ => []) (fun _ => "route") (routeTableRule t)
  else none

noncomputable def exKindRules (r : RuleObj) : Behaviour := { whole := exKindWhole r.info.id }

theorem exKindRules_rules : KindRules exKindRules 0 (fun _ => []) (fun _ => []) := by
  constructor <;> intro r hr <;> exact ⟨_, by simp [exKindRules, exKindWhole, hr]; rfl⟩

theorem exKind_run {t : Val} (hw : t.WF) (ht : t.truthy = true ∧ ∃ top, t = .dict top) (ha : setTemplateArgs t = .ok [])
    (hd : getDirectives (markAll default t) = .ok [])
    (hr : runCommand .script (withIds kindIds) (c50Args [] false []) (checkWith [] [] ⟨[], []⟩ exKindRules (fun _ => "t") (markAll default))
      (fun _ => .ok ()) [⟨t, []⟩] = 0) :
    CleanRun (withIds kindIds) (c50Args [] false []) [] [] ⟨[], []⟩ exKindRules (fun _ => "t") (markAll default) (fun _ => .ok ()) [⟨t, []⟩] :=
  rules_clean (severity_ids (by decide)) (fun _ _ => rfl) hw ht ha hd hr

theorem exKind_inForce {t : Val} (ha : setTemplateArgs t = .ok []) {i : String} (hi : i ∈ kindIds) :
    InForce (withIds kindIds) (c50Args [] false []) t { id := i } := by
  refine rules_inForce hi ha ?_
  revert i
  decide

/-- a template with two security groups: the rules of one are arbitrary, and the other has one rule -/
def exGroups (xs : List Val) (es : List (Key × Val)) : Val := .dict [(.str "Resources", .dict [
  (.str "A", .dict [(.str "Type", .str "AWS::EC2::SecurityGroup"), (.str "Properties", .dict [(.str "SecurityGroupIngress", .list xs)])]),
  (.str "B", .dict [(.str "Type", .str "AWS::EC2::SecurityGroup"), (.str "Properties", .dict [(.str "SecurityGroupIngress", .list [.dict es])])])])]

theorem exGroups_second (xs : List Val) (es : List (Key × Val)) :
    HasProps (exGroups xs es) "AWS::EC2::SecurityGroup" (.str "B") (.dict [(.str "SecurityGroupIngress", .list [.dict es])]) :=
  ⟨_, _, at_dict_one.2 List.mem_cons_self, List.mem_cons_of_mem _ List.mem_cons_self, List.mem_cons_self, List.mem_cons_of_mem _ List.mem_cons_self⟩

/-- the full statement does not hold: when a rule of one group is a text, those of the others are not looked at -/
theorem C134_text_violated : ¬ C134_statement := by
  intro h
  have ha : setTemplateArgs (exGroups [.str "x"] [(.str "SourceSecurityGroupId", .str "sg")]) = .ok [] := by decide
  have hrun := exKind_run (t := exGroups [.str "x"] [(.str "SourceSecurityGroupId", .str "sg")])
    (by simp [exGroups, Val.WF, Val.WFDict, Val.WFList]) ⟨rfl, _, rfl⟩ ha (by decide +kernel) (by decide +kernel)
  refine (h _ _ _ _ _ _ _ _ _ _ _ _ _ hrun exKindRules_rules _ List.mem_cons_self (fun i hi => exKind_inForce ha hi)).ingress _
    (.inner (i := 0) (exGroups_second _ _) List.mem_cons_self rfl (.inr ⟨?_, rfl⟩) ⟨_, List.mem_cons_self, rfl⟩)
  rintro ⟨v, hv, -⟩
  simp at hv

/-! ### the hypotheses are met -/

/-- a template with one resource -/
def exKind (ty : String) (props : Val) : Val :=
  .dict [(.str "Resources", .dict [(.str "R", .dict [(.str "Type", .str ty), (.str "Properties", props)])])]

theorem exKind_has (ty : String) (props : Val) : HasProps (exKind ty props) ty (.str "R") props :=
  ⟨_, _, at_dict_one.2 List.mem_cons_self, List.mem_cons_self, List.mem_cons_self, List.mem_cons_of_mem _ List.mem_cons_self⟩

theorem exKind_props {ty ty' : String} {props props' : Val} {k : Key} (h : HasProps (exKind ty props) ty' k props') : ty' = ty ∧ k = .str "R" ∧ props' = props := by
  obtain ⟨res, r, h1, h2, h3, h4⟩ := h
  have h1 := at_dict_one.1 h1
  simp at h1
  subst h1
  simp at h2
  obtain ⟨rfl, rfl⟩ := h2
  simp at h3 h4
  exact ⟨h3, rfl, h4⟩

theorem exKind_wf {ty : String} {props : Val} (h : props.WF) : (exKind ty props).WF := by simp [exKind, Val.WF, Val.WFDict, h]

theorem exKind_args (ty : String) (props : Val) : setTemplateArgs (exKind ty props) = .ok [] := rfl

theorem exKind_clean {ty : String} {props : Val} (hw : props.WF) (hd : getDirectives (markAll default (exKind ty props)) = .ok [])
    (hr : runCommand .script (withIds kindIds) (c50Args [] false []) (checkWith [] [] ⟨[], []⟩ exKindRules (fun _ => "t") (markAll default))
      (fun _ => .ok ()) [⟨exKind ty props, []⟩] = 0) :
    CleanRun (withIds kindIds) (c50Args [] false []) [] [] ⟨[], []⟩ exKindRules (fun _ => "t") (markAll default) (fun _ => .ok ()) [⟨exKind ty props, []⟩] :=
  exKind_run (exKind_wf hw) ⟨rfl, _, rfl⟩ (exKind_args ty props) hd hr

/-- containers, of which one is essential -/
def exContainers : Val := .dict [(.str "ContainerDefinitions", .list [.dict [(.str "Essential", .bool false)], .dict [(.str "Name", .str "n")]])]

/-- `C134_essential_partial` -/
example : ∃ c ∈ [Val.dict [(.str "Essential", .bool false)], .dict [(.str "Name", .str "n")]], Essential c :=
  C134_essential_partial (exKind_clean (ty := "AWS::ECS::TaskDefinition") (props := exContainers) (by simp [exContainers, Val.WF, Val.WFDict, Val.WFList])
      (by decide +kernel) (by decide +kernel))
    exKindRules_rules List.mem_cons_self (exKind_inForce (exKind_args _ _) (by decide))
    (fun name props h _ => by
      obtain ⟨-, -, rfl⟩ := exKind_props h
      refine ⟨_, rfl, fun v hv => ?_⟩
      simp at hv
      subst hv
      exact ⟨_, rfl, by simp⟩) (exKind_has _ _) List.mem_cons_self

/-- a distribution with an alias -/
def exSite : Val := .dict [(.str "DistributionConfig", .dict [(.str "Aliases", .list [.str "*.example.com"])])]

/-- `C134_aliases_partial` -/
example : DomainLine "*.example.com" ∧ ¬ LaterStar "*.example.com" := by
  have hat : ∀ {p s}, AliasAt (exKind "AWS::CloudFront::Distribution" exSite) p s → s = "*.example.com" := by
    rintro p s ⟨k, kvs, conf, xs, h1, h2, h3, h4, -⟩
    obtain ⟨-, -, e⟩ := exKind_props h1
    cases e
    simp at h2
    subst h2
    simp at h3
    subst h3
    simpa using h4
  exact C134_aliases_partial (exKind_clean (ty := "AWS::CloudFront::Distribution") (props := exSite) (by simp [exSite, Val.WF, Val.WFDict, Val.WFList])
      (by decide +kernel) (by decide +kernel))
    exKindRules_rules List.mem_cons_self (exKind_inForce (exKind_args _ _) (by decide))
    (fun name props h _ => by
      obtain ⟨-, -, rfl⟩ := exKind_props h
      refine ⟨_, rfl, fun v hv => ?_⟩
      simp at hv
      subst hv
      exact ⟨_, rfl, by simp⟩)
    (fun p s h => by rw [hat h]; exact ⟨by decide, by decide⟩)
    ⟨.str "R", _, _, _, exKind_has _ _, List.mem_cons_self, List.mem_cons_self, List.mem_cons_self, rfl⟩ (by decide)

/-- an instance with a device -/
def exDevice : Val := .dict [(.str "BlockDeviceMappings", .list [.dict [(.str "VirtualName", .str "ephemeral0")]])]

/-- `C134_devices_partial` -/
example (r : Path) : ¬ DeviceFault [(.str "VirtualName", .str "ephemeral0")] r := by
  refine C134_devices_partial (exKind_clean (ty := "AWS::EC2::Instance") (props := exDevice) (by simp [exDevice, Val.WF, Val.WFDict, Val.WFList])
      (by decide +kernel) (by decide +kernel))
    exKindRules_rules List.mem_cons_self (exKind_inForce (exKind_args _ _) (by decide)) ?_ ?_
    (k := .str "R") (xs := [.dict [(.str "VirtualName", .str "ephemeral0")]]) ⟨_, _, .inl rfl, exKind_has _ _, List.mem_cons_self⟩ List.mem_cons_self r
  · intro ty name props _ h _
    obtain ⟨-, -, rfl⟩ := exKind_props h
    exact ⟨_, rfl⟩
  · rintro name xs ⟨ty, kvs, -, h1, h2⟩ x hx
    obtain ⟨-, -, e⟩ := exKind_props h1
    cases e
    simp at h2
    subst h2
    simp at hx
    subst hx
    exact ⟨_, rfl, by simp, by simp⟩

/-- a rule for a security group in a network -/
def exRule : Val := .dict [(.str "GroupId", .str "sg"), (.str "SourceSecurityGroupId", .str "sg")]

/-- `C134_ingress_partial` -/
example (p : Path) : ¬ IngressFault (exKind "AWS::EC2::SecurityGroupIngress" exRule) p :=
  C134_ingress_partial (exKind_clean (by simp [Val.WF, Val.WFDict]) (by decide +kernel) (by decide +kernel))
    exKindRules_rules List.mem_cons_self (exKind_inForce (exKind_args _ _) (by decide))
    (fun name props h _ => absurd (exKind_props h).1 (by decide))
    (fun name props h => ⟨_, (exKind_props h).2.2⟩) p

/-- a listener with a certificate -/
def exSecured : Val := .dict [(.str "Protocol", .str "HTTPS"), (.str "Certificates", .list [.str "arn"])]

/-- `C134_listeners_partial` -/
example (r : Path) : ¬ ListenerFault ["GENEVE", "HTTP", "HTTPS", "TCP", "TCP_UDP", "TLS", "UDP"] ["HTTPS", "TLS"] "Certificates"
    [(.str "Protocol", .str "HTTPS"), (.str "Certificates", .list [.str "arn"])] r :=
  (C134_listeners_partial (exKind_clean (ty := "AWS::ElasticLoadBalancingV2::Listener") (props := exSecured)
      (by simp [exSecured, Val.WF, Val.WFDict, Val.WFList]) (by decide +kernel) (by decide +kernel))
    exKindRules_rules List.mem_cons_self (exKind_inForce (exKind_args _ _) (by decide))
    (fun name props h _ => by
      obtain ⟨-, -, rfl⟩ := exKind_props h
      refine ⟨_, rfl, fun v hv => ?_⟩
      simp at hv
      subst hv
      exact ⟨by simp, fun q h => by cases ((leaf_of_notIf (by simp [IsIf])).1 h).2.1⟩)
    (fun name props h _ => absurd (exKind_props h).1 (by decide)) r).1 _ _ (exKind_has _ _)

/-- a template with a parameter, a mapping, a condition, a transform, and a resource that is kept; another resource has metadata -/
def exKept : Val := .dict [
  (.str "Transform", .list [.str "AWS::Serverless-2016-10-31"]),
  (.str "Parameters", .dict [(.str "P", .dict [(.str "Type", .str "String"), (.str "NoEcho", .str "True")])]),
  (.str "Mappings", .dict [(.str "M", .dict [(.str "k", .dict [(.str "a", .str "x")])])]),
  (.str "Conditions", .dict [(.str "C", .dict [(.str "Fn::Equals", .list [.dict [(.str "Ref", .str "P")], .str "x"])])]),
  (.str "Resources", .dict [
    (.str "R", .dict [(.str "Type", .str "AWS::RDS::DBInstance"), (.str "DeletionPolicy", .str "Snapshot"), (.str "UpdateReplacePolicy", .str "Retain")]),
    (.str "F", .dict [(.str "Type", .str "AWS::Serverless::Function"), (.str "Metadata", .dict [(.str "Ref", .str "Q")])])])]

theorem exKept_wf : exKept.WF := by simp [exKept, Val.WF, Val.WFDict, Val.WFList]

theorem exKept_args : setTemplateArgs exKept = .ok [] := rfl

theorem exKept_clean : CleanRun (withIds kindIds) (c50Args [] false []) [] [] ⟨[], []⟩ exKindRules (fun _ => "t") (markAll default) (fun _ => .ok ()) [⟨exKept, []⟩] :=
  exKind_run exKept_wf ⟨rfl, _, rfl⟩ exKept_args (by decide +kernel) (by decide +kernel)

theorem exKept_kept : ResourceAt exKept (.str "R")
    (.dict [(.str "Type", .str "AWS::RDS::DBInstance"), (.str "DeletionPolicy", .str "Snapshot"), (.str "UpdateReplacePolicy", .str "Retain")]) :=
  ⟨by decide, _, rfl, by simp⟩

/-- `C134_policies` -/
example : GoodPolicy (.dict [(.str "Type", .str "AWS::RDS::DBInstance"), (.str "DeletionPolicy", .str "Snapshot"), (.str "UpdateReplacePolicy", .str "Retain")])
    (.str "Snapshot") :=
  C134_policies exKept_clean exKindRules_rules List.mem_cons_self (.inl ⟨rfl, exKind_inForce exKept_args (by decide)⟩) exKept_kept ⟨by decide, by decide⟩

/-- `C134_both` -/
example : ¬ HalfKept (.dict [(.str "Type", .str "AWS::RDS::DBInstance"), (.str "DeletionPolicy", .str "Snapshot"), (.str "UpdateReplacePolicy", .str "Retain")]) := by
  refine C134_both exKept_clean exKindRules_rules List.mem_cons_self (exKind_inForce exKept_args (by decide)) exKept_kept ?_
  rintro ⟨s, hs, e⟩
  rw [show look _ _ = some (Val.str "AWS::RDS::DBInstance") from rfl] at e
  cases e
  simp [versions] at hs

/-- `C134_serverless` -/
example : HasServerless exKept :=
  C134_serverless exKept_clean exKindRules_rules List.mem_cons_self (exKind_inForce exKept_args (by decide))
    ⟨.str "F", _, "AWS::Serverless::Function", ⟨_, _, _, rfl, List.mem_cons_of_mem _ (List.mem_cons_of_mem _ (List.mem_cons_of_mem _ (List.mem_cons_of_mem _ List.mem_cons_self))),
      List.mem_cons_of_mem _ List.mem_cons_self, List.mem_cons_self, by simp⟩,
      List.mem_cons_self, by decide⟩

/-- `C134_conditions` -/
example : ¬ NamesResource exKept (.str "P") :=
  C134_conditions exKept_clean exKindRules_rules List.mem_cons_self (exKind_inForce exKept_args (by decide))
    (q := [.str "C", .str "Fn::Equals", .int 0])
    (.key (List.mem_cons_of_mem _ (List.mem_cons_of_mem _ (List.mem_cons_of_mem _ List.mem_cons_self))) (.key List.mem_cons_self
      (.key List.mem_cons_self (.idx (i := 0) rfl (.key List.mem_cons_self .here)))))

/-- `C134_mappings` -/
example : ∃ s, Key.str "a" = .str s ∧ MaybeBreak Alnum s :=
  (C134_mappings exKept_clean exKindRules_rules List.mem_cons_self (exKind_inForce exKept_args (by decide))
    (at_dict_one.2 (List.mem_cons_of_mem _ (List.mem_cons_of_mem _ List.mem_cons_self))) List.mem_cons_self (r := .str "k") List.mem_cons_self).2
    _ _ (.str "x") rfl List.mem_cons_self

/-- `C134_secrets_partial` -/
example (q : Path) : ¬ At exKept (metadataPath (.str "F") (q ++ [.str "Ref"])) (.str "P") :=
  (C134_secrets_partial exKept_clean exKindRules_rules List.mem_cons_self (exKind_inForce exKept_args (by decide))
    ⟨⟨_, rfl⟩, fun w h => by
      simp [exKept, look, dlookup] at h
      subst h
      exact ⟨_, rfl, by simp⟩⟩
    (fun q v h => by
      have hm : (q ++ [.str "Fn::Sub"], v) ∈ searchDeepKeys "Fn::Sub" exKept (.dict []) := mem_deepKeys.2 ⟨⟨q, rfl⟩, .inl h⟩
      rw [show searchDeepKeys "Fn::Sub" exKept (.dict []) = [] by decide +kernel] at hm
      cases hm)
    ⟨.str "True", by decide, .text (by decide)⟩).1 q

/-- a filter -/
def exFilter : Val := .dict [(.str "LogGroupName", .str "g")]

/-- `C134_filters_partial` -/
example (k : Key) : ¬ ThirdFilter (exKind "AWS::Logs::SubscriptionFilter" exFilter) k := by
  refine C134_filters_partial (exKind_clean (by simp [exFilter, Val.WF, Val.WFDict]) (by decide +kernel) (by decide +kernel))
    exKindRules_rules List.mem_cons_self (exKind_inForce (exKind_args _ _) (by decide)) ?_ k
  intro name r hm
  rw [show resourcesOfType ["AWS::Logs::SubscriptionFilter"] (exKind "AWS::Logs::SubscriptionFilter" exFilter) =
    [(.str "R", [(.str "Type", .str "AWS::Logs::SubscriptionFilter"), (.str "Properties", exFilter)])] from rfl] at hm
  simp at hm
  obtain ⟨-, rfl⟩ := hm
  refine ⟨_, List.mem_cons_of_mem _ List.mem_cons_self, fun v hv p q h => ?_⟩
  simp at hv
  subst hv
  cases h

/-- an association -/
def exAssociation : Val := .dict [(.str "SubnetId", .str "s")]

/-- `C134_routes_partial` -/
example {a : Key} {v : Val} (ha : Associates (exKind "AWS::EC2::SubnetRouteTableAssociation" exAssociation) a none v) (hv : Names v [] "s") : a = .str "R" := by
  refine C134_routes_partial (exKind_clean (by simp [exAssociation, Val.WF, Val.WFDict]) (by decide +kernel) (by decide +kernel))
    exKindRules_rules List.mem_cons_self (exKind_inForce (exKind_args _ _) (by decide)) ?_ ha hv
    ⟨_, _, _, at_dict_one.2 List.mem_cons_self, List.mem_cons_self, List.mem_cons_self, List.mem_cons_of_mem _ List.mem_cons_self, List.mem_cons_self, by simp⟩
    .text (.inr ⟨rfl, rfl⟩)
  intro n r h
  obtain ⟨top, rs, ty, e, hr, hm, -, -⟩ := h
  unfold exKind at e
  cases e
  simp only [dlookup, if_true, Option.some.injEq, Val.dict.injEq] at hr
  subst hr
  simp at hm
  obtain ⟨-, rfl⟩ := hm
  exact ⟨_, _, List.mem_cons_of_mem _ List.mem_cons_self, List.mem_cons_self, .text, by simp⟩

/-- a template with a boolean policy -/
def exUpgrade : Val := .dict [(.str "Resources", .dict [(.str "R", .dict [(.str "Type", .str "AWS::Elasticsearch::Domain"),
  (.str "UpdatePolicy", .dict [(.str "EnableVersionUpgrade", .bool true)])])])]

theorem exUpgrade_policy {n : Key} {ty v : Val} (h : HasUpdatePolicy exUpgrade n ty v) : v = .dict [(.str "EnableVersionUpgrade", .bool true)] := by
  obtain ⟨r, ⟨top, res, ty', e, h1, h2, h3, h4⟩, h5, h6, h7⟩ := h
  cases e
  simp only [List.mem_singleton, Prod.mk.injEq, Val.dict.injEq, true_and] at h1
  subst h1
  simp only [List.mem_singleton, Prod.mk.injEq, Val.dict.injEq] at h2
  obtain ⟨rfl, rfl⟩ := h2
  simp at h6
  exact h6

theorem exUpgrade_leaf {q : Path} {u : Val} (h : Leaf (.dict [(.str "EnableVersionUpgrade", .bool true)]) q u) :
    q = [] ∧ u = .dict [(.str "EnableVersionUpgrade", .bool true)] := by
  have hi : ¬ IsIf (.dict [(.str "EnableVersionUpgrade", .bool true)]) := by
    rintro ⟨w, e⟩
    simp at e
  obtain ⟨h1, h2, -⟩ := (leaf_of_notIf hi).1 h
  exact ⟨h1, h2⟩

theorem exUpgrade_entry {n : Key} {ty : Val} {q : Path} {k : Key} {w : Val} (h : UpdateEntry exUpgrade n ty q k w) :
    k = .str "EnableVersionUpgrade" ∧ w = .bool true := by
  obtain ⟨p, o, h1, h2, h3, h4⟩ := h
  have e := exUpgrade_policy h1
  cases e
  obtain ⟨rfl, e⟩ := exUpgrade_leaf h2
  cases e
  rw [List.mem_singleton] at h3
  cases h3
  exact ⟨rfl, rfl⟩

/-- `C134_update_partial` -/
example (x : Path × UpFault) : ¬ UpdateFinding false exUpgrade x := by
  refine C134_update_partial (exKind_run (t := exUpgrade) (by simp [exUpgrade, Val.WF, Val.WFDict]) ⟨rfl, _, rfl⟩ rfl (by decide +kernel) (by decide +kernel))
    exKindRules_rules List.mem_cons_self (exKind_inForce rfl (by decide)) ?_ x
  constructor
  · intro n ty p q u h hl
    cases exUpgrade_policy h
    exact ⟨_, (exUpgrade_leaf hl).2⟩
  · intro n ty q s rt w q' u h
    cases (exUpgrade_entry h).2
  · intro n ty q s rt w q' k x q'' h ho
    cases (exUpgrade_entry h).1
    exact absurd ho not_object_upgrade
  · intro n ty q s rt w q' h _ hl
    obtain ⟨-, rfl⟩ := exUpgrade_entry h
    obtain ⟨-, e, -⟩ := (leaf_of_notIf (by rintro ⟨w, e⟩; cases e)).1 hl
    exact e.symm

end CfnLint
