import Verif.Props.SpecRules
import Verif.Props.GetAtt
import Verif.Props.SubRule
import Verif.Props.CondGrammar
import Verif.Props.Mappings
import Verif.Props.Relations
/-
Property C129: what status 0 says of the names in a template, when the rules on references are in force.
-/
namespace CfnLint

open Spec

/-- the rules on names, each with the function it calls on the template: what they need of the template is in it, but for the
table of the conditions; the messages are arbitrary -/
structure NameRules (beh : RuleObj → Behaviour) (rx : String → String → PyM Bool) (S : AttrSpecs)
    (find : List Edge → Key → Option (List CycleEdge)) (enum : String → List String → List String) (tb : Val → CondTable) : Prop where
  E1012 : ∀ r, r.info.id = "E1012" → (beh r).whole = some (fun t => refExist rx t (.dict []))
  E1010 : ∀ r, r.info.id = "E1010" → ∃ msg, (beh r).whole = some (fun t => withText Prod.fst msg (getAttRule S t (.dict [])))
  E1019 : ∀ r, r.info.id = "E1019" → ∃ msg, (beh r).whole = some (fun t => withText Prod.fst msg (subRule S t (.dict [])))
  E8002 : ∀ r, r.info.id = "E8002" → ∃ msg, (beh r).whole = some (fun t => withText Prod.fst msg (undefinedConditions t (.dict [])))
  E3004 : ∀ r, r.info.id = "E3004" → (beh r).whole = some (fun t => circularDependency find t (.dict []))
  E3005 : ∀ r, r.info.id = "E3005" → ∃ msg, (beh r).whole = some (fun t => withText Prod.fst msg (dependsOnRule enum (tb t) t))

/-- the rules on mappings -/
structure MapRules (beh : RuleObj → Behaviour) : Prop where
  E7001 : ∀ r, r.info.id = "E7001" → ∃ msg, (beh r).whole = some (fun t => withText id msg (mappingsRule t))
  E1011 : ∀ r, r.info.id = "E1011" → ∃ msg, (beh r).whole = some (fun t => withText id msg (findInMapRule t (.dict [])))
  W1011 : ∀ r, r.info.id = "W1011" → ∃ msg, (beh r).whole = some (fun t => withText id msg (findInMapKeysRule t (.dict [])))

/-- the rules on the form of conditions -/
structure CondRules (beh : RuleObj → Behaviour) (rx : String → String → PyM Bool) : Prop where
  E8001 : ∀ r, r.info.id = "E8001" → ∃ msg, (beh r).whole = some (fun t => withText id msg (configurationRule t))
  E8003 : ∀ r, r.info.id = "E8003" → ∃ msg, (beh r).whole = some (fun t => withText id msg (equalsRule rx t (.dict [])))
  E8004 : ∀ r, r.info.id = "E8004" → ∃ msg, (beh r).whole = some (fun t => withText id msg (.ok (conditionListRule "Fn::And" t (.dict []))))
  E8005 : ∀ r, r.info.id = "E8005" → ∃ msg, (beh r).whole = some (fun t => withText id msg (.ok (conditionListRule "Fn::Not" t (.dict []))))
  E8006 : ∀ r, r.info.id = "E8006" → ∃ msg, (beh r).whole = some (fun t => withText id msg (.ok (conditionListRule "Fn::Or" t (.dict []))))

theorem collectM_error {α β : Type} {f : α → PyM (List β)} {e : PyErr} : ∀ {l : List α}, collectM f l = .error e → ∃ a ∈ l, f a = .error e
  | [], h => by cases h
  | a :: l, h => by
    rw [collectM] at h
    split at h
    · rename_i e' he
      cases h
      exact ⟨a, List.mem_cons_self, he⟩
    · split at h
      · rename_i he
        cases h
        obtain ⟨b, hb, h'⟩ := collectM_error he
        exact ⟨b, List.mem_cons_of_mem _ hb, h'⟩
      · cases h

/-- E1011 does not fail on attributes of template nodes when the mappings are an object -/
theorem findInMap_plain {t : Val} (hw : t.WF) (ht : ∃ kvs, t = .dict kvs) (hm : MappingsObject t) (s : String) :
    findInMapRule t (.dict []) ≠ .error (.templateAttributeError s) := by
  obtain ⟨kvs, rfl⟩ := ht
  obtain ⟨ms, hms, _⟩ := mappingsOf_ok hw hm
  intro h
  rw [findInMapRule, hms] at h
  obtain ⟨f, _, hf⟩ := collectM_error h
  unfold findInMapOne at hf
  split at hf
  · split at hf
    · rename_i he
      cases hf
      unfold findInMapName at he
      split at he
      · cases he
      · simp [pyIn] at he
      · cases he
    · cases hf
  · cases hf
  · split at hf <;> cases hf

section Clean

variable {objs : List RuleObj} {args : Sources} {all : List String} {regions : List Val} {S : TypeSpecs}
  {beh : RuleObj → Behaviour} {name : Val → String} {mark : Val → MVal} {print : List Match → PyM Unit} {ds : List Decoded}

/-- a rule in force that is called on the template found nothing there, unless it failed on an attribute of a template node -/
theorem whole_found (h : CleanRun objs args all regions S beh name mark print ds) {d : Decoded} (hd : d ∈ ds) {info : RuleInfo}
    (hf : InForce objs args d.template info) {α : Type} {place : α → Path} {rule : Val → PyM (List α)}
    (hb : ∀ r, r.info.id = info.id → ∃ msg, (beh r).whole = some (fun t => withText place msg (rule t))) {l : List α}
    (hl : rule d.template = .ok l) : l = [] := by
  obtain ⟨r, hr, hn⟩ := clean_found h hd hf
  obtain ⟨msg, hm⟩ := hb r (by rw [hr])
  exact withText_nil hl (hn _ (.whole hm))

/-- the templates of a clean run are objects -/
theorem clean_object (h : CleanRun objs args all regions S beh name mark print ds) {d : Decoded} (hd : d ∈ ds) : ∃ top, d.template = .dict top := by
  obtain ⟨he, _⟩ := C127_clean_partial objs args all regions S beh name mark print ds h.marks h.ids h.templates h.notIgnored
    h.quietly h.levelled h.noDirectives h.settable h.failuresShown h.status d hd
  exact (h.templates d hd he).2.2

/-- the same for a rule that gives the messages itself -/
theorem told_found (h : CleanRun objs args all regions S beh name mark print ds) {d : Decoded} (hd : d ∈ ds) {info : RuleInfo}
    (hf : InForce objs args d.template info) {rule : Val → PyM (List (Path × String))}
    (hb : ∀ r, r.info.id = info.id → (beh r).whole = some rule) {l : List (Path × String)}
    (hl : rule d.template = .ok l) : l = [] := by
  obtain ⟨r, hr, hn⟩ := clean_found h hd hf
  rcases hn _ (.whole (hb r (by rw [hr]))) with e | ⟨_, e⟩
  · rw [hl] at e
    cases e
    rfl
  · rw [hl] at e
    cases e

/-- a rule in force that is called on the template was silent, if it does not fail on an attribute of a template node -/
theorem whole_silent (h : CleanRun objs args all regions S beh name mark print ds) {d : Decoded} (hd : d ∈ ds) {info : RuleInfo}
    (hf : InForce objs args d.template info) {α : Type} {place : α → Path} {rule : Val → PyM (List α)}
    (hb : ∀ r, r.info.id = info.id → ∃ msg, (beh r).whole = some (fun t => withText place msg (rule t)))
    (hn : ∀ s, rule d.template ≠ .error (.templateAttributeError s)) : rule d.template = .ok [] := by
  obtain ⟨r, hr, hq⟩ := clean_found h hd hf
  obtain ⟨msg, hm⟩ := hb r (by rw [hr])
  have := hq _ (.whole hm)
  cases e : rule d.template with
  | ok l => rw [withText_nil e this]
  | error x =>
    rw [e] at this
    rcases this with e' | ⟨s, e'⟩
    · cases e'
    · refine absurd ?_ (hn s)
      rw [e]
      simpa [withText] using e'

variable {rx : String → String → PyM Bool} {A : AttrSpecs} {find : List Edge → Key → Option (List CycleEdge)}
  {enum : String → List String → List String} {tb : Val → CondTable}

/-- **C129** When the script ends with status 0 and E1012 is in force, every reference names what may be referred to, where no
name of the template goes on as another. -/
theorem C129_refs_partial (h : CleanRun objs args all regions S beh name mark print ds) (hb : NameRules beh rx A find enum tb)
    (hrx : MatchesPrefixes rx) {d : Decoded} (hd : d ∈ ds) (hf : InForce objs args d.template { id := "E1012" })
    (ht : SectionsOk d.template) (hs : ∀ q v, At d.template (q ++ [.str "Ref"]) v → ∃ s, v = .str s) {q : Path} {s : String}
    (hat : At d.template (q ++ [.str "Ref"]) (.str s))
    (hpre : ∀ n, Declared d.template n → n.toList <+: s.toList → n = s) : Referable d.template s := by
  obtain ⟨l, hl, hx⟩ := C33_exact_partial rx _ hrx ht hs
  cases told_found h hd hf hb.E1012 hl
  by_contra hn
  cases (hx q s hat hpre).2 hn

/-- **C129** … and E1010 is in force, every `Fn::GetAtt` names an attribute that its resource has. -/
theorem C129_attributes_partial (h : CleanRun objs args all regions S beh name mark print ds) (hb : NameRules beh rx A find enum tb)
    (hA : PlainAttrs A) {d : Decoded} (hd : d ∈ ds) (hf : InForce objs args d.template { id := "E1010" })
    (ht : PlainGetAtts d.template) {q : Path} {v : Val} {R a : String} (hat : At d.template (q ++ [.str "Fn::GetAtt"]) v) (hR : R ≠ "")
    (ha : ¬ StartsAs a "*.") (hv : NamesAttr v R a) : HasAttr A d.template R a := by
  obtain ⟨l, hl, hx⟩ := C49_exact_partial hA ht
  cases whole_found h hd hf hb.E1010 hl
  by_contra hn
  obtain ⟨_, hk⟩ := (hx q v R a hat hR ha hv).2 hn
  cases hk

/-- **C129** … and E1019 is in force, nothing is wrong with any `Fn::Sub`. -/
theorem C129_subs_partial (h : CleanRun objs args all regions S beh name mark print ds) (hb : NameRules beh rx A find enum tb)
    (hA : MapAttrs A) {d : Decoded} (hd : d ∈ ds) (hf : InForce objs args d.template { id := "E1019" })
    (ht : SubSections d.template) (hc : ClosedTypes d.template) (hs : SubCalls d.template) (p : Path) (k : SubKind) :
    ¬ SubFault A d.template False p k := by
  obtain ⟨l, hl, hx⟩ := C71_exact_partial hA ht hc hs
  cases whole_found h hd hf hb.E1019 hl
  intro hk
  cases (hx p k).2 hk

/-- **C129** … and E8002 is in force, every condition that is used is defined. -/
theorem C129_conditions_partial (h : CleanRun objs args all regions S beh name mark print ds) (hb : NameRules beh rx A find enum tb)
    {d : Decoded} (hd : d ∈ ds) (hf : InForce objs args d.template { id := "E8002" }) (hs : CondShape d.template) {c : String} {q : Path}
    (hu : UsesCond d.template c q) : DefinesCond d.template c := by
  obtain ⟨l, hl, _, hx, _⟩ := C54_names_partial _ (clean_wf h hd) hs
  cases whole_found h hd hf hb.E8002 hl
  by_contra hn
  obtain ⟨_, hk⟩ := (hx c).2 ⟨⟨q, hu⟩, hn⟩
  cases hk

/-- **C129** … and E3005 is in force, every value of `DependsOn` is the name of a resource. -/
theorem C129_dependsOn_partial (h : CleanRun objs args all regions S beh name mark print ds) (hb : NameRules beh rx A find enum tb)
    {d : Decoded} (hd : d ∈ ds) (hf : InForce objs args d.template { id := "E3005" })
    (hn : ∀ s, dependsOnRule enum (tb d.template) d.template ≠ .error (.templateAttributeError s)) {k : Key} {p : Path} {v : Val}
    (hv : DependsOnAt d.template k p v) : ∃ s r, v = .str s ∧ TypedResource d.template (.str s) r := by
  have hl := whole_silent h hd hf (rule := fun t => dependsOnRule enum (tb t) t) hb.E3005 hn
  obtain ⟨h1, h2, _⟩ := C64_exact (clean_wf h hd) hl p
  by_cases hs : ∃ s, v = .str s
  · obtain ⟨s, rfl⟩ := hs
    by_contra hr
    cases h2.2 ⟨k, s, hv, fun r hr' => hr ⟨s, r, rfl, hr'⟩⟩
  · cases h1.2 ⟨k, v, hv, fun s e => hs ⟨s, e⟩⟩

/-- **C129** … and there is no deployment with a resource but without one it depends on. -/
theorem C129_deployed_partial (h : CleanRun objs args all regions S beh name mark print ds) (hb : NameRules beh rx A find enum tb)
    {d : Decoded} (hd : d ∈ ds) (hf : InForce objs args d.template { id := "E3005" })
    (hn : ∀ s, dependsOnRule enum (tb d.template) d.template ≠ .error (.templateAttributeError s)) {H : Val → String} {fuel : Nat}
    {t : List (Key × Val)} (et : d.template = .dict t) {k : Key} {p : Path} {s rc : String} {b : String → Bool}
    (hv : DependsOnAt (.dict t) k p (.str s)) (hek : EntryOk (.dict t) "Resources" k) (hes : EntryOk (.dict t) "Resources" (.str s))
    (hrc : ResourceCondition (.dict t) (.str s) rc)
    (hD : Deployment H fuel enum t (tb (.dict t)) (fun c => c = rc ∨ ResourceCondition (.dict t) k c) b)
    (hex : ∀ c, ResourceCondition (.dict t) k c → b c = true) : b rc = true := by
  obtain ⟨s', r, e, hr⟩ := C129_dependsOn_partial h hb hd hf hn (by rw [et]; exact hv)
  cases e
  have hl := whole_silent h hd hf (rule := fun t => dependsOnRule enum (tb t) t) hb.E3005 hn
  rw [et] at hl hr
  by_contra hg
  obtain ⟨_, hm, _⟩ := C64_missing_partial hl hv hr hek hes hrc hD hex (by simpa using hg)
  cases hm

/-- **C129** … and E3004 is in force, no resource depends on itself. -/
theorem C129_cycles_partial (h : CleanRun objs args all regions S beh name mark print ds) (hb : NameRules beh rx A find enum tb)
    (hc : FindsCycles find) {d : Decoded} (hd : d ∈ ds) (hf : InForce objs args d.template { id := "E3004" })
    (ht : GraphShape d.template) (hp : PlainVariables d.template) (a : Key) : ¬ Relation.TransGen (Depends d.template) a a := by
  obtain ⟨l, hl, hx⟩ := C40_reported_iff_partial hc ht empty_globals hp
  cases told_found h hd hf hb.E3004 hl
  intro ha
  exact hx.2 ⟨a, ha⟩ rfl

/-- **C129** When the script ends with status 0 and the rules on mappings are in force, every `Fn::FindInMap` with a written out map
and second key finds a value. -/
theorem C129_lookups_partial (h : CleanRun objs args all regions S beh name mark print ds) (hb : MapRules beh) {d : Decoded} (hd : d ∈ ds)
    (h1 : InForce objs args d.template { id := "E7001" }) (h2 : InForce objs args d.template { id := "E1011" })
    (h3 : InForce objs args d.template { id := "W1011" }) (hm : MappingsObject d.template) (hfl : MapsFilled d.template)
    {q : Path} {m : String} {a b : Val} {k2 : Key} (hat : At d.template (q ++ [.str "Fn::FindInMap"]) (.list [.str m, a, b]))
    (hk : KeyValue b k2) :
    (∀ k1, KeyValue a k1 → ∃ v, At d.template [.str "Mappings", .str m, k1, k2] v ∧ MapValue v) ∧
    ((∀ k, ¬ KeyValue a k) → ∀ k1 u, At d.template [.str "Mappings", .str m, k1] u →
      ∃ v, At d.template [.str "Mappings", .str m, k1, k2] v ∧ MapValue v) := by
  have hw := clean_wf h hd
  have ht := clean_object h hd
  obtain ⟨l1, e1, s1⟩ := C69_mappings hw ht hm
  cases whole_found h hd h1 hb.E7001 e1
  have e2 := whole_silent h hd h2 hb.E1011 (findInMap_plain hw ht hm)
  have hok := mapsOk_of hm hw ((nil_of_spec s1).1 rfl)
  obtain ⟨l3, e3, _⟩ := C69_keys_partial hw ht hok (find_silent hw e2) hfl
  cases whole_found h hd h3 hb.W1011 e3
  exact C70_lookup_partial hw ht hm ⟨e1, e2, e3⟩ hfl hat hk

/-- **C129** When the script ends with status 0 and the rules on conditions are in force, every condition has exactly one truth value
whatever the parameters are. -/
theorem C129_truth_partial (h : CleanRun objs args all regions S beh name mark print ds) (hb : CondRules beh rx)
    (hn : NameRules beh rx A find enum tb) (hrx : MatchesPrefixes rx) {d : Decoded} (hd : d ∈ ds)
    (hf : ∀ i ∈ ["E8001", "E8002", "E8003", "E8004", "E8005", "E8006"], InForce objs args d.template { id := i })
    {kvs : List (Key × Val)} (et : d.template = .dict kvs) (hs : SectionsOk d.template) (hsh : CondShape d.template)
    (hc : ClearRefs d.template) (hT : TextNames d.template) (hP : PlainOperands d.template) (hacy : AcyclicConds d.template)
    (hflt : NoFractions d.template) (c : Key) (v : Val) (hat : At d.template [.str "Conditions", c] v) (σ : Val → String) :
    ∃ b, Evals AnyEquals (conditionsOf kvs) σ v b ∧ ∀ b', Evals AnyEquals (conditionsOf kvs) σ v b' → b' = b := by
  have hw := clean_wf h hd
  have ho : CondsObject d.template := fun v hv => by
    obtain ⟨cs, e, _⟩ := hsh.conditions v hv
    exact ⟨cs, e⟩
  obtain ⟨l1, e1, _⟩ := C67_conditions hw ⟨_, et⟩ ho
  cases whole_found h hd (hf _ (by simp)) hb.E8001 e1
  obtain ⟨l2, e2, _⟩ := C54_names_partial _ hw hsh
  cases whole_found h hd (hf _ (by simp)) hn.E8002 e2
  obtain ⟨l3, e3, _⟩ := C67_equals_partial hrx hs hc
  cases whole_found h hd (hf _ (by simp)) hb.E8003 e3
  have e4 := whole_found h hd (hf "E8004" (by simp)) hb.E8004 rfl
  have e5 := whole_found h hd (hf "E8005" (by simp)) hb.E8005 rfl
  have e6 := whole_found h hd (hf "E8006" (by simp)) hb.E8006 rfl
  rw [et] at hs hsh hc hT hP hacy hflt hat e1 e2 e3 e4 e5 e6
  exact C68_truth_partial hrx hs hsh hc hT hP hacy hflt ⟨e1, e3, e4, e5, e6⟩ e2 c v hat σ

end Clean

/-! ### runs of several rules -/

/-- the rules with the ids, with nothing else about them -/
def withIds (ids : List String) : List RuleObj := ids.map (fun i => { info := { id := i } })

/-- a run of rules on one template meets the conditions when it ends with status 0 -/
theorem rules_clean {S : TypeSpecs} {ids : List String} {beh : RuleObj → Behaviour} {t : Val}
    (hid : ∀ i ∈ ids, ∃ c cs, i.toList = c :: cs ∧ (c = 'E' ∨ c = 'W'))
    (hb : ∀ r t, (beh r).setUp t = .ok ()) (hw : t.WF) (ht : t.truthy = true ∧ ∃ top, t = .dict top) (ha : setTemplateArgs t = .ok [])
    (hd : getDirectives (markAll default t) = .ok [])
    (h : runCommand .script (withIds ids) (c50Args [] false []) (checkWith [] [] S beh (fun _ => "t") (markAll default))
      (fun _ => .ok ()) [⟨t, []⟩] = 0) :
    CleanRun (withIds ids) (c50Args [] false []) [] [] S beh (fun _ => "t") (markAll default) (fun _ => .ok ()) [⟨t, []⟩] where
  marks := erase_markAll _
  ids := by
    intro r hr x hx
    obtain ⟨i, hi, rfl⟩ := List.mem_map.1 hr
    obtain ⟨c, cs, hc, hl⟩ := hid i hi
    have hx' : x.rule.id.toList = c :: cs := by rw [hx]; exact hc
    rcases hl with rfl | rfl
    · exact .inr (.inr ⟨'E', cs, hx', .inl rfl⟩)
    · exact .inr (.inl ⟨'W', cs, hx', .inl rfl⟩)
  templates := by
    intro d hd _
    cases List.mem_singleton.1 hd
    exact ⟨hw, ht⟩
  notIgnored := by decide
  quietly := by
    intro d hd a h
    cases List.mem_singleton.1 hd
    rw [ha] at h
    cases h
    intro n _
    rfl
  levelled := by intro d hd m hm; cases List.mem_singleton.1 hd; cases hm
  noDirectives := by intro d h; cases List.mem_singleton.1 h; exact hd
  settable := by intro d _ r; exact hb _ _
  failuresShown := by
    rintro d h cfg ⟨targs, cfg0, h1, h2, rfl⟩
    cases List.mem_singleton.1 h
    rw [ha] at h1
    cases h1
    have h2' : currentCfg { c50Args [] false [] with template := [] } = .ok { incl := [.str "W", .str "E"] } := by decide
    rw [h2'] at h2
    cases h2
    exact ⟨by decide, [], rfl⟩
  status := h

theorem severity_ids {ids : List String} (h : ids.all (fun i => i.toList.head? == some 'E' || i.toList.head? == some 'W') = true) :
    ∀ i ∈ ids, ∃ c cs, i.toList = c :: cs ∧ (c = 'E' ∨ c = 'W') := by
  intro i hi
  have := List.all_eq_true.1 h i hi
  cases e : i.toList with
  | nil => rw [e] at this; simp at this
  | cons c cs =>
    rw [e] at this
    exact ⟨c, cs, rfl, by simpa using this⟩

theorem rules_inForce {ids : List String} {i : String} {t : Val} (hi : i ∈ ids) (ha : setTemplateArgs t = .ok [])
    (hen : isRuleEnabled { incl := addDefaults [.str "W", .str "E"] } { id := i } = .ok true) :
    InForce (withIds ids) (c50Args [] false []) t { id := i } := by
  refine ⟨List.mem_map.2 ⟨_, List.mem_map.2 ⟨i, hi, rfl⟩, rfl⟩, ?_⟩
  rintro cfg ⟨targs, cfg0, h1, h2, rfl⟩
  rw [ha] at h1
  cases h1
  have h2' : currentCfg { c50Args [] false [] with template := [] } = .ok { incl := [.str "W", .str "E"] } := by decide
  rw [h2'] at h2
  cases h2
  exact hen

/-- what the names of a template are to be, by the rules on them -/
structure Spec.ClosedNames (A : AttrSpecs) (t : Val) (inForce : String → Prop) : Prop where
  refs : inForce "E1012" → ∀ q s, At t (q ++ [.str "Ref"]) (.str s) → Referable t s
  attributes : inForce "E1010" → ∀ q v R a, At t (q ++ [.str "Fn::GetAtt"]) v → NamesAttr v R a → HasAttr A t R a
  subs : inForce "E1019" → ∀ p k, ¬ SubFault A t True p k
  conditions : inForce "E8002" → ∀ c q, UsesCond t c q → DefinesCond t c
  dependsOn : inForce "E3005" → ∀ k p v, DependsOnAt t k p v → ∃ s r, v = .str s ∧ TypedResource t (.str s) r
  cycles : inForce "E3004" → ∀ a, ¬ Relation.TransGen (Depends t) a a

/-- **C129** in full: when the script ends with status 0, every template is closed: whatever it names exists, as far as the rules on
names are in force, and no resource depends on itself -/
def C129_statement : Prop :=
  ∀ (objs : List RuleObj) (args : Sources) (all : List String) (regions : List Val) (S : TypeSpecs)
    (beh : RuleObj → Behaviour) (name : Val → String) (mark : Val → MVal) (print : List Match → PyM Unit) (ds : List Decoded)
    (rx : String → String → PyM Bool) (A : AttrSpecs) (find : List Edge → Key → Option (List CycleEdge))
    (enum : String → List String → List String) (tb : Val → CondTable), MatchesPrefixes rx → PlainAttrs A → FindsCycles find →
    CleanRun objs args all regions S beh name mark print ds → NameRules beh rx A find enum tb →
    ∀ d ∈ ds, ClosedNames A d.template (fun i => InForce objs args d.template { id := i })

/-- a search for cycles, known to find none in a graph with one edge between different resources -/
noncomputable def exFind (E : List Edge) (s : Key) : Option (List CycleEdge) :=
  if E = [(.str "S", .str "R")] then none else Classical.choose findsCycles_exists E s

theorem exFind_ok : FindsCycles exFind where
  sound := by
    intro E s c h
    unfold exFind at h
    split at h
    · cases h
    · exact (Classical.choose_spec findsCycles_exists).sound E s c h
  complete := by
    intro E s h
    unfold exFind at h
    split at h
    · rename_i e
      subst e
      rintro ⟨x, _, hx⟩
      obtain ⟨y, h1, _⟩ := Relation.TransGen.head'_iff.1 hx
      obtain ⟨z, _, h2⟩ := Relation.TransGen.tail'_iff.1 hx
      simp only [Rel, List.mem_singleton, Prod.mk.injEq] at h1 h2
      rw [h1.1] at h2
      exact absurd h2.2 (by decide)
    · exact (Classical.choose_spec findsCycles_exists).complete E s h

/-- the functions of the rules on names, on mappings and conditions -/
noncomputable def exWhole (i : String) : Option (Val → PyM (List (Path × String))) :=
  if i = "E1012" then some fun t => refExist exRx t (.dict [])
  else if i = "E1010" then some fun t => withText Prod.fst (fun _ => "attribute") (getAttRule plainSpecs t (.dict []))
  else if i = "E1019" then some fun t => withText Prod.fst (fun _ => "sub") (subRule plainSpecs t (.dict []))
  else if i = "E8002" then some fun t => withText Prod.fst (fun _ => "condition") (undefinedConditions t (.dict []))
  else if i = "E3004" then some fun t => circularDependency exFind t (.dict [])
  else if i = "E3005" then some fun t => withText Prod.fst (fun _ => "dependsOn") (dependsOnRule (fun _ s => s) (Conditions.init exHash 5 t).1 t)
  else if i = "E7001" then some fun t => withText id (fun _ => "mapping") (mappingsRule t)
  else if i = "E1011" then some fun t => withText id (fun _ => "find") (findInMapRule t (.dict []))
  else if i = "W1011" then some fun t => withText id (fun _ => "keys") (findInMapKeysRule t (.dict []))
  else if i = "E8001" then some fun t => withText id (fun _ => "condition") (configurationRule t)
  else if i = "E8003" then some fun t => withText id (fun _ => "equals") (equalsRule exRx t (.dict []))
  else if i = "E8004" then some fun t => withText id (fun _ => "and") (.ok (conditionListRule "Fn::And" t (.dict [])))
  else if i = "E8005" then some fun t => withText id (fun _ => "not") (.ok (conditionListRule "Fn::Not" t (.dict [])))
  else if i = "E8006" then some fun t => withText id (fun _ => "or") (.ok (conditionListRule "Fn::Or" t (.dict [])))
  else none

/-- the rules with these functions -/
noncomputable def exNameRules (r : RuleObj) : Behaviour := { whole := exWhole r.info.id }

theorem exNameRules_names : NameRules exNameRules exRx plainSpecs exFind (fun _ s => s) (fun t => (Conditions.init exHash 5 t).1) := by
  constructor <;> intro r hr <;> first | exact ⟨_, by simp [exNameRules, exWhole, hr]; rfl⟩ | simp [exNameRules, exWhole, hr]

theorem exNameRules_maps : MapRules exNameRules := by
  constructor <;> intro r hr <;> exact ⟨_, by simp [exNameRules, exWhole, hr]; rfl⟩

theorem exNameRules_conds : CondRules exNameRules exRx := by
  constructor <;> intro r hr <;> exact ⟨_, by simp [exNameRules, exWhole, hr]; rfl⟩

theorem exNameRules_setUp (r : RuleObj) (t : Val) : (exNameRules r).setUp t = .ok () := rfl

/-- the full statement does not hold: with a parameter `Env`, a reference to `Environment` passes E1012 -/
theorem C129_prefix_violated : ¬ C129_statement := by
  intro h
  have ha : setTemplateArgs (exRefs "Environment" "Env" "Bucket" "ModThing") = .ok [] := by decide
  have hrun := rules_clean (S := ⟨[], []⟩) (ids := ["E1012"]) (beh := exNameRules) (t := exRefs "Environment" "Env" "Bucket" "ModThing")
    (severity_ids (by decide)) exNameRules_setUp
    (exRefs_ok _ _ _ _).wf ⟨rfl, _, rfl⟩ ha (by decide +kernel) (by decide +kernel)
  refine exRefs_unnamed _ _ _ _ ((h _ _ _ _ _ _ _ _ _ _ _ _ _ _ _ exRx_ok plainSpecs_plain exFind_ok hrun exNameRules_names _ List.mem_cons_self).refs
    (rules_inForce List.mem_cons_self ha (by decide)) [.str "Outputs", .str "O1", .str "Value"] _ ?_)
  rw [at_ref_iff]
  simp [exRefs, searchVal, searchDict]

/-! ### the hypotheses are met -/

/-- `C129_refs_partial` -/
example : Referable (exRefs "Env" "Bucket" "ModThing" "Env") "Bucket" := by
  have ha : setTemplateArgs (exRefs "Env" "Bucket" "ModThing" "Env") = .ok [] := by decide
  have hrun := rules_clean (S := ⟨[], []⟩) (ids := ["E1012"]) (beh := exNameRules) (t := exRefs "Env" "Bucket" "ModThing" "Env")
    (severity_ids (by decide)) exNameRules_setUp (exRefs_ok _ _ _ _).wf ⟨rfl, _, rfl⟩ ha (by decide +kernel) (by decide +kernel)
  refine C129_refs_partial hrun exNameRules_names exRx_ok List.mem_cons_self (rules_inForce List.mem_cons_self ha (by decide))
    (exRefs_ok _ _ _ _) (fun _ _ h => exRefs_refs h) (q := [.str "Outputs", .str "O2", .str "Value"]) ?_ ?_
  · rw [at_ref_iff]
    simp [exRefs, searchVal, searchDict]
  · intro n hn hp
    cases hn with
    | parameter ha => rcases exRefs_names ha with rfl | rfl | rfl <;> first | rfl | exact absurd hp (by decide)
    | resource ha _ _ => rcases exRefs_names ha with rfl | rfl | rfl <;> first | rfl | exact absurd hp (by decide)
    | pseudo hs =>
      revert hp
      revert hs
      revert n
      decide

/-- `C129_attributes_partial` -/
example : HasAttr plainSpecs (attrTemplate "A::B" (.str "R.Outs.x")) "R" "Outs.x" := by
  have ha : setTemplateArgs (attrTemplate "A::B" (.str "R.Outs.x")) = .ok [] := by decide
  have hrun := rules_clean (S := ⟨[], []⟩) (ids := ["E1010"]) (beh := exNameRules) (t := attrTemplate "A::B" (.str "R.Outs.x"))
    (severity_ids (by decide)) exNameRules_setUp plainTemplate.wf ⟨rfl, _, rfl⟩ ha (by decide +kernel) (by decide +kernel)
  exact C129_attributes_partial hrun exNameRules_names plainSpecs_plain List.mem_cons_self (rules_inForce List.mem_cons_self ha (by decide))
    plainTemplate (attrTemplate_at _ _) (by decide) (by unfold StartsAs; decide) (.inl ⟨rfl, by decide⟩)

/-- `C129_subs_partial` -/
example (p : Path) (k : SubKind) : ¬ SubFault plainSpecs (exSub "A::B" (.str "${M.Arn}")) False p k := by
  have ha : setTemplateArgs (exSub "A::B" (.str "${M.Arn}")) = .ok [] := by decide
  have hw : (Val.str "${M.Arn}").WF := by simp [Val.WF]
  have hs : searchDeepKeys "Fn::Sub" (exSub "A::B" (.str "${M.Arn}")) (.dict []) = [(exSubPath ++ [.str "Fn::Sub"], .str "${M.Arn}")] := by decide
  have hrun := rules_clean (S := ⟨[], []⟩) (ids := ["E1019"]) (beh := exNameRules) (t := exSub "A::B" (.str "${M.Arn}"))
    (severity_ids (by decide)) exNameRules_setUp (exSub_wf hw) ⟨rfl, _, rfl⟩ ha (by decide +kernel) (by decide +kernel)
  refine C129_subs_partial hrun exNameRules_names plainSpecs_maps List.mem_cons_self (rules_inForce List.mem_cons_self ha (by decide))
    (exSub_sections hw hs ?_) exSub_closed ⟨?_, ?_⟩ p k
  · rintro s (e | ⟨b, e⟩)
    · cases e
      exact ⟨_, subText_one "M.Arn" (by unfold SubName; decide) (by decide) (by decide)⟩
    · cases e
  · intro q a m h
    cases exSub_only hw hs h
  · intro q a m x v h
    cases exSub_only hw hs h

/-- two resources with the condition, one of which depends on the other -/
def exDeps : List (Key × Val) :=
  [(.str "R", .dict [(.str "Type", .str "A"), (.str "Condition", .str "C1")]),
   (.str "S", .dict [(.str "Type", .str "A"), (.str "Condition", .str "C1"), (.str "DependsOn", .str "R")])]

theorem exDeps_wf : (Val.dict exDeps).WF := by simp [exDeps, Val.WF, Val.WFDict]

theorem exDeps_args : setTemplateArgs (.dict (exRel exDeps)) = .ok [] := by decide

theorem exDeps_run : CleanRun (withIds ["E3005", "E3004", "E8002"]) (c50Args [] false []) [] [] ⟨[], []⟩ exNameRules (fun _ => "t") (markAll default)
    (fun _ => .ok ()) [⟨.dict (exRel exDeps), []⟩] :=
  rules_clean (severity_ids (by decide)) exNameRules_setUp (exRel_wf exDeps_wf) ⟨rfl, _, rfl⟩ exDeps_args (by decide +kernel) (by decide +kernel)

theorem exDeps_depends : DependsOnAt (.dict (exRel exDeps)) (.str "S") [.str "Resources", .str "S", .str "DependsOn"] (.str "R") :=
  .one (r := [(.str "Type", .str "A"), (.str "Condition", .str "C1"), (.str "DependsOn", .str "R")])
    ⟨_, exDeps, .str "A", rfl, by simp [exRel], List.mem_cons_of_mem _ List.mem_cons_self, List.mem_cons_self, by simp⟩ (by simp) rfl (by simp)

theorem exDeps_condition {k : String} {c : String} (h : ResourceCondition (.dict (exRel exDeps)) (.str k) c) : c = "C1" := by
  have := (follow_at (exRel_wf exDeps_wf)).1 h.1
  by_cases h1 : k = "R"
  · subst h1; cases this; rfl
  · by_cases h2 : k = "S"
    · subst h2; cases this; rfl
    · simp [follow, exRel, exOne, exDeps, dlookup, Ne.symm h1, Ne.symm h2] at this

theorem exDeps_never (s : String) : dependsOnRule (fun _ s => s) (Conditions.init exHash 5 (.dict (exRel exDeps))).1 (.dict (exRel exDeps)) ≠
    .error (.templateAttributeError s) := by
  have : dependsOnRule (fun _ s => s) (Conditions.init exHash 5 (.dict (exRel exDeps))).1 (.dict (exRel exDeps)) = .ok [] := by decide +kernel
  rw [this]
  simp

/-- `C129_dependsOn_partial` and `C129_deployed_partial` -/
example (b : String → Bool) (hb : b "C1" = true) : b "C1" = true :=
  C129_deployed_partial exDeps_run exNameRules_names List.mem_cons_self (rules_inForce List.mem_cons_self exDeps_args (by decide))
    exDeps_never (H := exHash) (fuel := 5) rfl exDeps_depends
    ⟨exDeps, _, .key (by simp [exRel]) .here, List.mem_cons_of_mem _ List.mem_cons_self, by simp⟩
    ⟨exDeps, _, .key (by simp [exRel]) .here, List.mem_cons_self, by simp⟩
    ⟨.key (v := .dict exDeps) (by simp [exRel]) (.key List.mem_cons_self (.key (by simp) .here)), by decide⟩
    (exRel_deployment (s := "a") exDeps_wf (by decide) (.inl rfl)
      (by rintro c (rfl | hc); · rfl
          · exact exDeps_condition hc) hb)
    (fun c hc => by rw [exDeps_condition hc, hb])

theorem exDeps_find {key : String} {q : Path} {v : Val} (h : At (.dict (exRel exDeps)) (q ++ [.str key]) v) :
    (q ++ [.str key], v) ∈ searchDeepKeys key (.dict (exRel exDeps)) (.dict []) :=
  ((C27_search_partial key _ (exRel_wf exDeps_wf)).1 _ v).2 ⟨h, q, rfl⟩

theorem exDeps_uses {a : Key} {key : String} {v : Val} (h : ResourceUses (.dict (exRel exDeps)) a key v)
    (hk : (searchDeepKeys key (.dict (exRel exDeps)) (.dict [])).all (fun f => f.1.head? != some (.str "Resources")) = true) : False := by
  obtain ⟨p, h⟩ := h
  have := List.all_eq_true.1 hk _ (exDeps_find (q := .str "Resources" :: a :: p) (by simpa using h))
  simp at this

theorem exDeps_shape : GraphShape (.dict (exRel exDeps)) where
  wf := exRel_wf exDeps_wf
  top := ⟨_, rfl⟩
  resources := by
    intro s h
    cases (follow_at (exRel_wf exDeps_wf)).1 h
    refine ⟨exDeps, rfl, ?_⟩
    intro kv hkv
    simp only [exDeps, List.mem_cons, List.not_mem_nil, or_false] at hkv
    rcases hkv with rfl | rfl <;> exact ⟨_, _, rfl⟩
  refs := fun a v h => (exDeps_uses h (by decide +kernel)).elim
  getAtts := fun a x y h => (exDeps_uses h (by decide +kernel)).elim
  subs := fun a v h => (exDeps_uses h (by decide +kernel)).elim

/-- `C129_cycles_partial` -/
example (a : Key) : ¬ Relation.TransGen (Depends (.dict (exRel exDeps))) a a :=
  C129_cycles_partial exDeps_run exNameRules_names exFind_ok List.mem_cons_self
    (rules_inForce (List.mem_cons_of_mem _ List.mem_cons_self) exDeps_args (by decide)) exDeps_shape
    (fun _ _ _ h => (exDeps_uses h (by decide +kernel)).elim) a

/-- the template with one `Fn::FindInMap` that finds a value -/
def exFound : Val := exMaps exRegions (.list [.str "Regions", .str "eu", .str "Ami"])

/-- `C129_lookups_partial` -/
example : ∃ v, At exFound [.str "Mappings", .str "Regions", .str "eu", .str "Ami"] v ∧ MapValue v := by
  have ha : setTemplateArgs exFound = .ok [] := by decide
  have hw : exFound.WF := exRegions_wf (by simp [Val.WF, Val.WFList])
  have hrun := rules_clean (S := ⟨[], []⟩) (ids := ["E7001", "E1011", "W1011"]) (beh := exNameRules) (t := exFound)
    (severity_ids (by decide)) exNameRules_setUp hw ⟨rfl, _, rfl⟩ ha (by decide +kernel) (by decide +kernel)
  refine (C129_lookups_partial hrun exNameRules_maps List.mem_cons_self (rules_inForce (by decide) ha (by decide))
    (rules_inForce (by decide) ha (by decide)) (rules_inForce (by decide) ha (by decide)) exMaps_obj ⟨?_, ?_⟩ exMaps_call .str).1 _ .str
  · intro m h
    have := (follow_at hw).1 h
    by_cases hm : m = .str "Regions"
    · subst hm; cases this
    · simp [follow, exFound, exMaps, exRegions, dlookup, Ne.symm hm] at this
  · intro m k h
    have := (follow_at hw).1 h
    by_cases hm : m = .str "Regions"
    · subst hm
      by_cases h1 : k = .str "eu"
      · subst h1; cases this
      · by_cases h2 : k = .str "us"
        · subst h2; cases this
        · simp [follow, exFound, exMaps, exRegions, dlookup, Ne.symm h1, Ne.symm h2] at this
    · simp [follow, exFound, exMaps, exRegions, dlookup, Ne.symm hm] at this

theorem exGood_args : setTemplateArgs (exConds exGoodConds) = .ok [] := by decide

theorem exGood_run : CleanRun (withIds ["E8001", "E8002", "E8003", "E8004", "E8005", "E8006"]) (c50Args [] false []) [] [] ⟨[], []⟩ exNameRules
    (fun _ => "t") (markAll default) (fun _ => .ok ()) [⟨exConds exGoodConds, []⟩] :=
  rules_clean (severity_ids (by decide)) exNameRules_setUp (exConds_ok exGood_wf).wf ⟨rfl, _, rfl⟩ exGood_args (by decide +kernel) (by decide +kernel)

/-- `C129_conditions_partial` -/
example : DefinesCond (exConds exGoodConds) "Prod" :=
  C129_conditions_partial exGood_run exNameRules_names List.mem_cons_self (rules_inForce (by decide) exGood_args (by decide)) exGood_shape
    (.cond (p := [.str "Test", .str "Fn::Not", .int 0]) (.key (List.mem_cons_of_mem _ List.mem_cons_self)
      (.key (List.mem_cons_of_mem _ List.mem_cons_self) (.key List.mem_cons_self (.idx (i := 0) rfl (.key List.mem_cons_self .here))))))

/-- `C129_truth_partial` -/
example (σ : Val → String) : ∃ b, Evals AnyEquals exGoodConds σ (.dict [(.str "Fn::Not", .list [.dict [(.str "Condition", .str "Prod")]])]) b := by
  obtain ⟨b, hb, _⟩ := C129_truth_partial exGood_run exNameRules_conds exNameRules_names exRx_ok List.mem_cons_self
    (by intro i hi; exact rules_inForce hi exGood_args (by revert i; decide)) rfl (exConds_ok exGood_wf) exGood_shape exGood_clear exGood_texts
    exGood_plain exGood_acyclic exGood_fractions (.str "Test") _ (at_exConds.2 (by simp [exGoodConds]; rfl)) σ
  exact ⟨b, hb⟩

end CfnLint
