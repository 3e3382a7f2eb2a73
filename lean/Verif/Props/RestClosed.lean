import Verif.Model.StagesRule
import Verif.Props.Closed
import Verif.Props.Stages
import Verif.Props.Pipeline
import Verif.Props.PropCheck
import Verif.Props.RecordSet
import Verif.Props.Clusters
import Verif.Props.Password
import Verif.Props.Registry
/-
Property C139: what status 0 says of pipelines, of the shapes of properties, of records, of databases, of images and of resources with schemas of their own.
-/
namespace CfnLint

open Spec

namespace Spec

/-- the pipelines the rule on stages can cope with: their stages are a list of objects with a name and actions -/
def PlainStages (t : Val) : Prop :=
  ∀ name props, HasProps t "AWS::CodePipeline::Pipeline" name props → ∃ kvs xs ss, props = .dict kvs ∧ (Key.str "Stages", Val.list xs) ∈ kvs ∧ List.Forall₂ StageOf ss xs

end Spec

/-- **C139** The findings of E2540 are exactly the faults of the stages of the pipelines, where no conditions are used. -/
theorem C139_stages_exact {below : Path → List Scenario} {t : Val} (hw : t.WF) (hp : PlainStages t) (hb : ∀ p, below p = []) (n : Nat) :
    ∃ l, stagesRule below (n + 1) t = .ok l ∧ ∀ r, r ∈ l ↔ ∃ name kvs xs ss msg q, HasProps t "AWS::CodePipeline::Pipeline" name (.dict kvs) ∧
      (Key.str "Stages", Val.list xs) ∈ kvs ∧ List.Forall₂ StageOf ss xs ∧ StageFault ss msg q ∧
      r = ⟨msg, [.str "Resources", name, .str "Properties", .str "Stages"] ++ q, none⟩ := by
  obtain ⟨ps, h1, h2⟩ := wholeProps hw "AWS::CodePipeline::Pipeline" n
  have hpw : ∀ name kvs, HasProps t "AWS::CodePipeline::Pipeline" name (.dict kvs) → (Val.dict kvs).WF := by
    rintro name kvs ⟨res, r, h3, h4, -, h5⟩
    exact at_wf (at_append h3 (.key h4 (.key h5 .here))) hw
  unfold stagesRule
  rw [h1]
  obtain ⟨l, h3, h4⟩ := collectM_spec (as := ps) (f := fun pv : Path × Val =>
      match pv.2 with
      | .dict kvs => stagesOf (below (pv.1 ++ [.str "Stages"])) ((dlookup (Key.str "Stages") kvs).getD .none) (pv.1 ++ [.str "Stages"])
      | v => .error (attrErr v "get"))
    (P := fun pv r => ∃ kvs xs ss msg q, pv.2 = .dict kvs ∧ (Key.str "Stages", Val.list xs) ∈ kvs ∧ List.Forall₂ StageOf ss xs ∧ StageFault ss msg q ∧
      r = ⟨msg, pv.1 ++ [.str "Stages"] ++ q, none⟩) (by
    rintro ⟨p, v⟩ hm
    obtain ⟨name, hv, ht, rfl⟩ := (h2 _ _).1 hm
    obtain ⟨kvs, xs, ss, rfl, hs, hss⟩ := hp name v hv
    have hkw := hpw _ _ hv
    have hkw' := hkw
    rw [Val.WF] at hkw'
    have hd := dlookup_of_mem hkw'.1 hs
    simp only [hd, Option.getD_some, hb]
    obtain ⟨res, h5, h6⟩ := C95_pipeline (path := [.str "Resources", name, .str "Properties"] ++ [.str "Stages"]) (at_wf (at_dict_one.2 hs) hkw) hss
    refine ⟨res, h5, fun r => (h6 r).trans ?_⟩
    constructor
    · rintro ⟨msg, q, hf, rfl⟩
      exact ⟨kvs, xs, ss, msg, q, rfl, hs, hss, hf, rfl⟩
    · rintro ⟨kvs', xs', ss', msg, q, e, hs', hss', hf, rfl⟩
      cases e
      have hx : Val.list xs' = Val.list xs := by
        have := dlookup_of_mem hkw'.1 hs'
        rw [hd] at this
        exact (Option.some.inj this).symm
      cases hx
      obtain ⟨res', h7, h8⟩ := C95_pipeline (path := [.str "Resources", name, .str "Properties"] ++ [.str "Stages"]) (at_wf (at_dict_one.2 hs) hkw) hss'
      rw [h5] at h7
      cases h7
      exact (h6 _).1 ((h8 _).2 ⟨msg, q, hf, rfl⟩))
  refine ⟨l, h3, fun r => (h4 r).trans ?_⟩
  constructor
  · rintro ⟨⟨p, v⟩, hm, kvs, xs, ss, msg, q, e, hs, hss, hf, rfl⟩
    obtain ⟨name, hv, ht, rfl⟩ := (h2 _ _).1 hm
    cases e
    exact ⟨name, kvs, xs, ss, msg, q, hv, hs, hss, hf, rfl⟩
  · rintro ⟨name, kvs, xs, ss, msg, q, hv, hs, hss, hf, rfl⟩
    refine ⟨([.str "Resources", name, .str "Properties"], .dict kvs), (h2 _ _).2 ⟨name, hv, ?_, rfl⟩, kvs, xs, ss, msg, q, rfl, hs, hss, hf, rfl⟩
    cases kvs with
    | nil => cases hs
    | cons => rfl

/-- what the rules are given besides the template: the scenarios below a path, the test of addresses, the table of databases, the regions, the specification of
properties, the regular expressions, the texts of values, the validator and the schemas of one's own -/
structure RestEnv where
  below : Val → Path → List Scenario
  belowM : Val → Path → PyM (List Scenario)
  v6 : String → Bool
  offers : RdsTable
  regions : List String
  rows : RowSpecs
  rx : String → String → PyM Bool
  shown : Val → String
  validate : Val → Val → PyM (Option String)
  schemas : List Val

/-- the rules are those of the model -/
structure RestRules (beh : RuleObj → Behaviour) (E : RestEnv) (n : Nat) : Prop where
  E2540 : ∀ r, r.info.id = "E2540" → ∃ msg, (beh r).whole = some (fun t => withText StageReport.path msg (stagesRule (E.below t) (n + 1) t))
  E2541 : ∀ r, r.info.id = "E2541" → ∃ msg, (beh r).whole = some (fun t => withText Prod.fst msg (stageActionsRule (n + 1) t))
  E3002 : ∀ r, r.info.id = "E3002" → ∃ msg, (beh r).whole = some (fun t => withText id msg (propertiesRule E.rows n t))
  E3020 : ∀ r, r.info.id = "E3020" → ∃ msg, (beh r).whole = some (fun t => withText id msg (recordRule E.v6 (E.belowM t) (n + 2) t))
  E3025 : ∀ r, r.info.id = "E3025" → ∃ msg, (beh r).whole = some (fun t => withText Prod.fst msg (instanceSizeRule E.offers E.regions t))
  W2506 : ∀ r, r.info.id = "W2506" → ∃ msg, (beh r).whole = some (fun t => withText id msg (imageIdRule E.rx t (.dict [])))
  E3000 : ∀ r, r.info.id = "E3000" → (beh r).whole = some (registryRule E.shown E.validate E.schemas)

section Clean

variable {objs : List RuleObj} {args : Sources} {all : List String} {regions : List Val} {S : TypeSpecs} {beh : RuleObj → Behaviour}
  {name : Val → String} {mark : Val → MVal} {print : List Match → PyM Unit} {ds : List Decoded} {E : RestEnv} {n : Nat}

/-- **C139** If the command ends with status 0 and E2540 is in force, pipelines have two stages or more, the first with source actions only, the others without any,
and no two of them have the same name. Missing: conditions; stages that are no objects with a name and actions with categories, of which the rule drops what it found. -/
theorem C139_stages_partial (h : CleanRun objs args all regions S beh name mark print ds) (hr : RestRules beh E n)
    {d : Decoded} (hd : d ∈ ds) (hf : InForce objs args d.template { id := "E2540" }) (hp : PlainStages d.template) (hb : ∀ p, E.below d.template p = [])
    {k : Key} {kvs : List (Key × Val)} {xs : List Val} {ss : List StageInfo} (hk : HasProps d.template "AWS::CodePipeline::Pipeline" k (.dict kvs))
    (hs : (Key.str "Stages", Val.list xs) ∈ kvs) (hss : List.Forall₂ StageOf ss xs) : GoodPipeline ss := by
  have hw := clean_wf h hd
  obtain ⟨l, h1, h2⟩ := C139_stages_exact hw hp hb n
  cases whole_found h hd hf hr.E2540 h1
  have hxw : (Val.list xs).WF := by
    obtain ⟨res, r, h3, h4, -, h5⟩ := hk
    exact at_wf (at_append h3 (.key h4 (.key h5 (.key hs .here)))) hw
  obtain ⟨res, h3, h4⟩ := C95_exact (path := []) (sc := none) hxw hss
  refine (C95_silent_iff (path := []) (sc := none) hxw hss).1 ?_
  rw [h3]
  cases res with
  | nil => rfl
  | cons r res =>
    obtain ⟨msg, q, hfault, -⟩ := (h4 r).1 List.mem_cons_self
    cases (h2 _).2 ⟨k, kvs, xs, ss, msg, q, hk, hs, hss, hfault, rfl⟩

/-- **C139** … and E2541 is in force, no action of a pipeline has a fault. Missing: conditions and calls in pipelines, as in C89. -/
theorem C139_actions_partial (h : CleanRun objs args all regions S beh name mark print ds) (hr : RestRules beh E n)
    {d : Decoded} (hd : d ∈ ds) (hf : InForce objs args d.template { id := "E2541" }) (hp : PlainPipelines d.template)
    {k : Key} {stages : List Val} {i j : Nat} {a : Val} (hk : PipelineOf d.template k stages) (ha : ActionAt stages i j a) (q : Path) (f : ActionFault) :
    ¬ ActionHas a (EarlierName stages i j) (EarlierOutput stages i j) q f := by
  obtain ⟨l, h1, h2⟩ := C89_exact (clean_wf h hd) hp n
  cases whole_found h hd hf hr.E2541 h1
  intro hc
  cases (h2 _ f).2 ⟨k, stages, i, j, a, q, hk, ha, rfl, hc⟩

/-- **C139** … and E3002 is in force, the properties of resources have the shape that the specification declares. Missing: what C78 asks of properties and types. -/
theorem C139_properties_partial (h : CleanRun objs args all regions S beh name mark print ds) (hr : RestRules beh E n)
    {d : Decoded} (hd : d ∈ ds) (hf : InForce objs args d.template { id := "E3002" }) (hS : (E.rows.resources.map Prod.fst).Nodup) (hn : sizeOf d.template < n)
    (htext : ∀ k r props ty, PropsOf d.template k r props → (.str "Type", ty) ∈ r → ty ≠ .none → ∃ s, ty = .str s)
    (hp : ∀ k r props ty parent row, PropsOf d.template k r props → (.str "Type", .str ty) ∈ r → DeclaredAs E.rows ty parent row →
      PlainProps E.rows d.template parent (.object "" row) props)
    {k : Key} {r : List (Key × Val)} {props : Val} {ty parent : String} {row : TypeRow} (hk : PropsOf d.template k r props) (hty : (.str "Type", .str ty) ∈ r)
    (hdecl : DeclaredAs E.rows ty parent row) (q : Path) : ¬ PropFault E.rows d.template parent (.object "" row) props q := by
  obtain ⟨l, h1, h2⟩ := C78_rule_partial (clean_wf h hd) hS hn htext hp
  cases whole_found h hd hf hr.E3002 h1
  intro hc
  cases (h2 _).2 ⟨k, r, props, ty, parent, row, q, hk, hty, hdecl, hc, rfl⟩

/-- **C139** … and E3020 is in force, the records of record sets and of groups of them are as their types want them. Missing: what C77 asks of records. -/
theorem C139_records_partial (h : CleanRun objs args all regions S beh name mark print ds) (hr : RestRules beh E n)
    {d : Decoded} (hd : d ∈ ds) (hf : InForce objs args d.template { id := "E3020" }) (hn : sizeOf d.template < n) (hg : PlainGroups d.template)
    (hp : ∀ path rs, RecordAt d.template path rs → PlainRecord rs ∧ E.belowM d.template (path ++ [.str "ResourceRecords"]) = .ok [])
    {path : Path} {rs : Val} (hk : RecordAt d.template path rs) (q : Path) : ¬ BadRecord (fun s => E.v6 s = true) path rs q := by
  obtain ⟨l, h1, h2⟩ := C77_rule_partial E.v6 (clean_wf h hd) hg hp hn
  cases whole_found h hd hf hr.E3020 h1
  intro hc
  cases (h2 _).2 ⟨path, rs, hk, hc⟩

/-- **C139** … and E3025 is in force, the classes of databases are offered in every region for the engine and the licence. Missing: databases without properties, and
properties that are no objects. -/
theorem C139_databases_partial (h : CleanRun objs args all regions S beh name mark print ds) (hr : RestRules beh E n)
    {d : Decoded} (hd : d ∈ ds) (hf : InForce objs args d.template { id := "E3025" })
    (h1 : ∃ es, dlookup "license-included" E.offers = some es) (h2 : ∃ es, dlookup "bring-your-own-license" E.offers = some es)
    (hp : ∀ k r, OfType ["AWS::RDS::DBInstance"] d.template k r → ∃ kvs, (Key.str "Properties", Val.dict kvs) ∈ r)
    (hl : ∀ k props, HasProps d.template "AWS::RDS::DBInstance" k props → ∀ q u, Leaf props q u → ∃ kvs, u = .dict kvs)
    {k : Key} {props : Val} (hk : HasProps d.template "AWS::RDS::DBInstance" k props) {region : String} (hreg : region ∈ E.regions) (q : Path) :
    ¬ NotOffered E.offers region props q := by
  obtain ⟨l, h3, h4⟩ := C117_sizes h1 h2 (clean_wf h hd) E.regions (fun k r hm => hp k r ((resourcesOfType_iff (by simp) k r).1 hm)) hl
  cases whole_found h hd hf hr.E3025 h3
  intro hc
  cases (h4 _ region).2 ⟨hreg, k, props, q, hk, hc, rfl⟩

/-- **C139** … and W2506 is in force, images are no objects but calls and refer to parameters of the types of images only. Missing: names of modules, as in C112. -/
theorem C139_images_partial (h : CleanRun objs args all regions S beh name mark print ds) (hr : RestRules beh E n)
    {d : Decoded} (hd : d ∈ ds) (hf : InForce objs args d.template { id := "W2506" }) (hrx : MatchesPrefixes E.rx) (hs : SectionsOk d.template)
    (href : ∀ p v, ImageAt d.template p (.dict [(.str "Ref", v)]) → ∃ s, v = .str s ∧
      (∀ n, Declared d.template n → n.toList <+: s.toList → Declared d.template s) ∧
      (Declared d.template s → ∀ m, IsModule d.template m → m.toList <+: s.toList → m.toList.length + 2 < s.toList.length))
    (p : Path) (f : Option String) : ¬ ImageFault d.template p f := by
  obtain ⟨l, h1, h2⟩ := C112_image_partial hrx hs href
  cases whole_found h hd hf hr.W2506 h1
  intro hc
  cases (h2 _).2 ⟨f, hc⟩

/-- **C139** … and E3000 is in force, a resource for whose type a schema was given, and which uses no syntax of templates, keeps the schema. Missing: resources that use
such syntax, which the rule passes over, and schemas that cannot be used. -/
theorem C139_schemas_partial (h : CleanRun objs args all regions S beh name mark print ds) (hr : RestRules beh E n)
    {d : Decoded} (hd : d ∈ ds) (hf : InForce objs args d.template { id := "E3000" }) (hs : GoodSchemas E.validate E.schemas)
    {s : Val} (hm : s ∈ E.schemas) {kvs : List (Key × Val)} {ty : String} (he : s = .dict kvs) (hty : (Key.str "typeName", Val.str ty) ∈ kvs)
    {k : Key} {props : Val} (hk : ResourceProps d.template ty k props) (hsyn : ¬ SyntaxIn (E.shown props)) : E.validate props s = .ok none := by
  obtain ⟨l, h1, h2⟩ := C105_exact_partial (shown := E.shown) (clean_wf h hd) hs
  cases told_found h hd hf hr.E3000 h1
  obtain ⟨o, hv⟩ := hs.valid s hm props
  cases o with
  | none => exact hv
  | some m => cases (h2 _ m).2 ⟨s, hm, kvs, ty, k, props, he, hty, hk, hsyn, hv, rfl⟩

end Clean

/-- what the rules of this property are for, each for the templates it is in force for -/
structure Spec.RestRight (E : RestEnv) (t : Val) (F : String → Prop) : Prop where
  names : F "E2540" → ∀ k stages (i j : Nat) x y s, PipelineOf t k stages → i < j → stages[i]? = some (.dict x) → stages[j]? = some (.dict y) →
    (Key.str "Name", Val.str s) ∈ x → (Key.str "Name", Val.str s) ∉ y
  inputs : F "E2541" → ∀ k stages i j a, PipelineOf t k stages → ¬ MissingInput stages i j a
  properties : F "E3002" → ∀ k r props ty parent row q, PropsOf t k r props → (.str "Type", .str ty) ∈ r → DeclaredAs E.rows ty parent row →
    ¬ PropFault E.rows t parent (.object "" row) props q
  records : F "E3020" → ∀ path rs q, RecordAt t path rs → ¬ BadRecord (fun s => E.v6 s = true) path rs q
  databases : F "E3025" → ∀ k props region q, HasProps t "AWS::RDS::DBInstance" k props → region ∈ E.regions → ¬ NotOffered E.offers region props q
  images : F "W2506" → ∀ p f, ¬ ImageFault t p f
  schemas : F "E3000" → ∀ kvs ty k props, Val.dict kvs ∈ E.schemas → (Key.str "typeName", Val.str ty) ∈ kvs → ResourceProps t ty k props → NoCallsIn props →
    E.validate props (.dict kvs) = .ok none

/-- **C139** The full statement: if the command ends with status 0, what the rules in force are for holds of the templates. -/
def C139_statement : Prop :=
  ∀ (objs : List RuleObj) (args : Sources) (all : List String) (regions : List Val) (S : TypeSpecs) (beh : RuleObj → Behaviour) (name : Val → String)
    (mark : Val → MVal) (print : List Match → PyM Unit) (ds : List Decoded) (E : RestEnv) (n : Nat),
    CleanRun objs args all regions S beh name mark print ds → RestRules beh E n → ∀ d ∈ ds,
    RestRight E d.template (fun i => InForce objs args d.template { id := i })

/-- rules for the examples -/
def exRestEnv : RestEnv where
  below _ _ := []
  belowM _ _ := .ok []
  v6 _ := false
  offers := [("license-included", []), ("bring-your-own-license", []), ("general-public-license", [("mysql", [("us-east-1", ["db.t2.micro"])])])]
  regions := ["us-east-1", "eu-west-1"]
  rows := exRowSpecs
  rx := exRx
  shown := exShown
  validate _ _ := .ok none
  schemas := [exOwnSchema]

def exRestRules (n : Nat) (r : RuleObj) : Behaviour :=
  if r.info.id = "E2540" then { whole := some (fun t => withText StageReport.path (fun _ => "m") (stagesRule (exRestEnv.below t) (n + 1) t)) }
  else if r.info.id = "E2541" then { whole := some (fun t => withText Prod.fst (fun _ => "m") (stageActionsRule (n + 1) t)) }
  else if r.info.id = "E3002" then { whole := some (fun t => withText id (fun _ => "m") (propertiesRule exRestEnv.rows n t)) }
  else if r.info.id = "E3020" then { whole := some (fun t => withText id (fun _ => "m") (recordRule exRestEnv.v6 (exRestEnv.belowM t) (n + 2) t)) }
  else if r.info.id = "E3025" then { whole := some (fun t => withText Prod.fst (fun _ => "m") (instanceSizeRule exRestEnv.offers exRestEnv.regions t)) }
  else if r.info.id = "W2506" then { whole := some (fun t => withText id (fun _ => "m") (imageIdRule exRestEnv.rx t (.dict []))) }
  else { whole := some (registryRule exRestEnv.shown exRestEnv.validate exRestEnv.schemas) }

theorem exRestRules_rules (n : Nat) : RestRules (exRestRules n) exRestEnv n := by
  constructor <;> intro r hr <;> simp [exRestRules, hr] <;> exact ⟨_, rfl⟩

theorem exRest_run {i : String} (hi : ∃ c cs, i.toList = c :: cs ∧ (c = 'E' ∨ c = 'W')) {n : Nat} {t : Val} (hw : t.WF) (ht : t.truthy = true ∧ ∃ top, t = .dict top) (ha : setTemplateArgs t = .ok [])
    (hd : getDirectives (markAll default t) = .ok [])
    (hr : runCommand .script (withIds [i]) (c50Args [] false []) (checkWith [] [] ⟨[], []⟩ (exRestRules n) (fun _ => "t") (markAll default))
      (fun _ => .ok ()) [⟨t, []⟩] = 0) :
    CleanRun (withIds [i]) (c50Args [] false []) [] [] ⟨[], []⟩ (exRestRules n) (fun _ => "t") (markAll default) (fun _ => .ok ()) [⟨t, []⟩] :=
  rules_clean (fun j hj => by cases List.mem_singleton.1 hj; exact hi) (fun r t => by
    unfold exRestRules
    split
    · rfl
    · split
      · rfl
      · split
        · rfl
        · split
          · rfl
          · split
            · rfl
            · split <;> rfl) hw ht ha hd hr

/-- **C139** fails as it stands: E2541 does not see that the action which makes what another takes runs at the same time. -/
theorem C139_inputs_violated : ¬ C139_statement := by
  intro h
  have hrun := exRest_run (i := "E2541") (n := 0) (t := exSame) ⟨'E', _, rfl, .inl rfl⟩ exSame_wf ⟨rfl, _, rfl⟩ rfl (by decide +kernel) (by decide +kernel)
  exact (h _ _ _ _ _ _ _ _ _ _ _ _ hrun (exRestRules_rules 0) _ List.mem_cons_self).inputs (rules_inForce List.mem_cons_self rfl (by decide)) _ _ 0 1 "A" (exPipeline_of _)
    (C89_order_missed 0).2

/-! ### the hypotheses are met -/

def exTwoStages : List Val := [exPipeStage "Fetch" ["Source", "Source"], exPipeStage "Build" ["Build"]]

theorem exTwoStages_of : List.Forall₂ StageOf [⟨"Fetch", ["Source", "Source"]⟩, ⟨"Build", ["Build"]⟩] exTwoStages := .cons (exStage_of _ _) (.cons (exStage_of _ _) .nil)

theorem exTwoStages_wf : (exPipeline (.list exTwoStages)).WF := by simp [exPipeline, exTwoStages, Val.WF, Val.WFList, Val.WFDict, exPipeStage, exAct]

/-- `C139_stages_exact` and `C139_stages_partial` -/
example : GoodPipeline [⟨"Fetch", ["Source", "Source"]⟩, ⟨"Build", ["Build"]⟩] := by
  have hrun := exRest_run (i := "E2540") (n := 0) (t := exPipeline (.list exTwoStages)) ⟨'E', _, rfl, .inl rfl⟩ exTwoStages_wf ⟨rfl, _, rfl⟩ rfl (by decide +kernel) (by decide +kernel)
  obtain ⟨p, h1, kvs, rfl, h2⟩ := exPipeline_of exTwoStages
  refine C139_stages_partial hrun (exRestRules_rules 0) List.mem_cons_self (rules_inForce List.mem_cons_self rfl (by decide)) ?_ (fun _ => rfl) h1 h2 exTwoStages_of
  rintro name props ⟨res, r, h3, h4, h5, h6⟩
  cases at_det exTwoStages_wf (.key List.mem_cons_self .here) h3
  simp at h4
  obtain ⟨rfl, rfl⟩ := h4
  simp at h6
  subst h6
  exact ⟨_, _, _, rfl, List.mem_cons_self, exTwoStages_of⟩

/-- `C139_actions_partial` -/
example (q : Path) (f : ActionFault) : ¬ ActionHas (exTaker 1) (EarlierName [exStage [exMaker 1, exTaker 1]] 0 1) (EarlierOutput [exStage [exMaker 1, exTaker 1]] 0 1) q f :=
  C139_actions_partial (exRest_run (i := "E2541") (n := 0) (t := exSame) ⟨'E', _, rfl, .inl rfl⟩ exSame_wf ⟨rfl, _, rfl⟩ rfl (by decide +kernel) (by decide +kernel))
    (exRestRules_rules 0) List.mem_cons_self (rules_inForce List.mem_cons_self rfl (by decide)) exSame_plain (exPipeline_of _)
    ⟨_, _, rfl, ⟨_, rfl, List.mem_cons_of_mem _ List.mem_cons_self⟩, rfl⟩ q f

/-- a template with one resource -/
def exOneOf (ty : String) (props : List (Key × Val)) : Val :=
  .dict [(.str "Resources", .dict [(.str "R", .dict [(.str "Type", .str ty), (.str "Properties", .dict props)])])]

theorem exOneOf_props {ty ty' : String} {props : List (Key × Val)} (hw : (exOneOf ty props).WF) {k : Key} {v : Val} (h : HasProps (exOneOf ty props) ty' k v) :
    ty' = ty ∧ k = .str "R" ∧ v = .dict props := by
  obtain ⟨res, r, h3, h4, h5, h6⟩ := h
  cases at_det hw (.key List.mem_cons_self .here) h3
  simp at h4
  obtain ⟨rfl, rfl⟩ := h4
  simp at h5 h6
  exact ⟨h5, rfl, h6⟩

theorem exOneOf_has (ty : String) (props : List (Key × Val)) : HasProps (exOneOf ty props) ty (.str "R") (.dict props) :=
  ⟨_, _, .key List.mem_cons_self .here, List.mem_cons_self, List.mem_cons_self, List.mem_cons_of_mem _ List.mem_cons_self⟩

def exRowGood : List (Key × Val) := [(.str "A", .str "x")]

theorem exRowGood_stands {E : Expected} {v : Val} (h : Stands exRowSpecs "AWS::X" (.object "" exRowTop) (.dict exRowGood) E v) :
    (E = .object "" exRowTop ∧ v = .dict exRowGood) ∨ (E = .prim false ∧ v = .str "x") := by
  induction h with
  | start => exact .inl ⟨rfl, rfl⟩
  | branch _ hl ih =>
    rcases ih with ⟨e, rfl⟩ | ⟨e, -⟩
    · exact .inl ⟨e, ((leaf_of_notIf (notIf_key (by simp))).1 hl).2.1⟩
    · cases e
  | member _ hk hd ih =>
    rcases ih with ⟨e, e'⟩ | ⟨e, -⟩
    · cases e
      cases e'
      simp only [List.mem_cons, Prod.mk.injEq, List.not_mem_nil, or_false, exRowTop, exRowGood] at hk hd
      obtain ⟨rfl, rfl⟩ := hk
      simp at hd
      subst hd
      exact .inr ⟨rfl, rfl⟩
    · cases e
  | element _ _ _ _ _ ih =>
    rcases ih with ⟨e, e'⟩ | ⟨e, -⟩
    · cases e'
    · cases e
  | item _ _ _ ih => rcases ih with ⟨e, e'⟩ | ⟨e, -⟩ <;> cases e
  | left _ ih => rcases ih with ⟨e, e'⟩ | ⟨e, -⟩ <;> cases e
  | right _ ih => rcases ih with ⟨e, e'⟩ | ⟨e, -⟩ <;> cases e

theorem exRowGood_plain (t : Val) : PlainProps exRowSpecs t "AWS::X" (.object "" exRowTop) (.dict exRowGood) := by
  constructor
  · intro name row v h
    rcases exRowGood_stands h with ⟨e, -⟩ | ⟨e, -⟩ <;> cases e
    exact exRow_good (.inl rfl)
  · rintro name row v q u h ⟨w, rfl⟩ -
    rcases exRowGood_stands h with ⟨e, e'⟩ | ⟨e, e'⟩ <;> simp [exRowGood] at e'
  · intro name row k u h
    rcases exRowGood_stands h with ⟨e, e'⟩ | ⟨e, e'⟩ <;> simp [exRowGood] at e'
    exact ⟨"A", e'.1, fun h' => (by rw [e'.2] at h'; simp at h')⟩
  · intro ty a h
    rcases exRowGood_stands h with ⟨e, e'⟩ | ⟨e, e'⟩ <;> cases e
  · intro ty a h
    rcases exRowGood_stands h with ⟨e, e'⟩ | ⟨e, e'⟩ <;> cases e
  · intro json kvs h
    rcases exRowGood_stands h with ⟨e, e'⟩ | ⟨e, e'⟩ <;> cases e
  · intro json r h
    rcases exRowGood_stands h with ⟨e, e'⟩ | ⟨e, e'⟩ <;> cases e

/-- `C139_properties_partial` -/
example (q : Path) : ¬ PropFault exRowSpecs (exOneOf "AWS::X" exRowGood) "AWS::X" (.object "" exRowTop) (.dict exRowGood) q := by
  have hw : (exOneOf "AWS::X" exRowGood).WF := by simp [exOneOf, exRowGood, Val.WF, Val.WFDict]
  have hrun := exRest_run (i := "E3002") (n := sizeOf (exOneOf "AWS::X" exRowGood) + 1) (t := exOneOf "AWS::X" exRowGood) ⟨'E', _, rfl, .inl rfl⟩ hw ⟨rfl, _, rfl⟩ rfl
    (by decide +kernel) (by decide +kernel)
  have hof : ∀ k r props, PropsOf (exOneOf "AWS::X" exRowGood) k r props → r = [(.str "Type", .str "AWS::X"), (.str "Properties", .dict exRowGood)] ∧ props = .dict exRowGood := by
    rintro k r props ⟨rs, h1, h2, h3⟩
    cases at_det hw (.key List.mem_cons_self .here) h1
    simp at h2
    obtain ⟨rfl, rfl⟩ := h2
    simp at h3
    exact ⟨rfl, h3⟩
  refine C139_properties_partial (E := exRestEnv) hrun (exRestRules_rules _) List.mem_cons_self (rules_inForce List.mem_cons_self rfl (by decide)) (by simp [exRestEnv, exRowSpecs]) (Nat.lt_succ_self _)
    ?_ ?_ (k := .str "R") ⟨_, .key List.mem_cons_self .here, List.mem_cons_self, List.mem_cons_of_mem _ List.mem_cons_self⟩ (ty := "AWS::X") List.mem_cons_self
    (.inl ⟨rfl, List.mem_cons_self⟩) q
  · intro k r props ty h1 h2 _
    obtain ⟨rfl, -⟩ := hof _ _ _ h1
    simp at h2
    exact ⟨_, h2⟩
  · intro k r props ty parent row h1 h2 h3
    obtain ⟨rfl, rfl⟩ := hof _ _ _ h1
    simp at h2
    subst h2
    rcases h3 with ⟨rfl, h3⟩ | ⟨-, h3, -⟩
    · simp [exRestEnv, exRowSpecs] at h3
      subst h3
      exact exRowGood_plain _
    · exact absurd List.mem_cons_self (h3 exRowTop)

/-- `C139_records_partial` -/
example (q : Path) : ¬ BadRecord (fun _ => False) [.str "Resources", .str "R", .str "Properties"] (exRecords "A" "127.0.0.1" "127.0.0.2") q := by
  have hw := exZone_wf "A" "127.0.0.1" "127.0.0.2"
  have hrun := exRest_run (i := "E3020") (n := sizeOf (exZone (exRecords "A" "127.0.0.1" "127.0.0.2") (exRecords "A" "127.0.0.1" "127.0.0.2")) + 1)
    (t := exZone (exRecords "A" "127.0.0.1" "127.0.0.2") (exRecords "A" "127.0.0.1" "127.0.0.2")) ⟨'E', _, rfl, .inl rfl⟩ hw ⟨rfl, _, rfl⟩ rfl
    (by decide +kernel) (by decide +kernel)
  have := C139_records_partial (E := exRestEnv) hrun (exRestRules_rules _) List.mem_cons_self (rules_inForce List.mem_cons_self rfl (by decide)) (Nat.lt_succ_self _)
    (fun name props h => by
      rcases exZone_props hw h with ⟨h, -⟩ | ⟨-, rfl⟩
      · exact absurd h (by decide)
      · exact ⟨⟨_, _, rfl⟩, fun hi => by obtain ⟨a, e⟩ := hi; simp at e⟩)
    (fun path rs h => by
      rcases exZone_at hw h with rfl | rfl <;> exact ⟨exRecords_plain (by decide), rfl⟩)
    (path := [.str "Resources", .str "R", .str "Properties"])
    (.inl ⟨.str "R", ⟨_, _, .key List.mem_cons_self .here, List.mem_cons_self, List.mem_cons_self, List.mem_cons_of_mem _ List.mem_cons_self⟩, rfl⟩) q
  simpa [exRestEnv] using this

def exDatabaseProps : List (Key × Val) := [(.str "Engine", .str "mysql"), (.str "DBInstanceClass", .str "db.t2.micro")]

/-- `C139_databases_partial` -/
example (q : Path) : ¬ NotOffered exRestEnv.offers "us-east-1" (.dict exDatabaseProps) q := by
  have hw : (exOneOf "AWS::RDS::DBInstance" exDatabaseProps).WF := by simp [exOneOf, exDatabaseProps, Val.WF, Val.WFDict]
  have hrun := exRest_run (i := "E3025") (n := 0) (t := exOneOf "AWS::RDS::DBInstance" exDatabaseProps) ⟨'E', _, rfl, .inl rfl⟩ hw ⟨rfl, _, rfl⟩ rfl
    (by decide +kernel) (by decide +kernel)
  refine C139_databases_partial (E := exRestEnv) hrun (exRestRules_rules _) List.mem_cons_self (rules_inForce List.mem_cons_self rfl (by decide)) ⟨_, rfl⟩ ⟨_, rfl⟩ ?_ ?_
    (exOneOf_has _ _) List.mem_cons_self q
  · intro k r h0
    have h := (resourcesOfType_iff (by simp) k r).2 h0
    have : resourcesOfType ["AWS::RDS::DBInstance"] (exOneOf "AWS::RDS::DBInstance" exDatabaseProps) =
      [(.str "R", [(.str "Type", .str "AWS::RDS::DBInstance"), (.str "Properties", .dict exDatabaseProps)])] := rfl
    rw [this] at h
    simp at h
    obtain ⟨-, rfl⟩ := h
    exact ⟨_, List.mem_cons_of_mem _ List.mem_cons_self⟩
  · intro k props h q u hu
    obtain ⟨-, -, rfl⟩ := exOneOf_props hw h
    exact ⟨_, ((leaf_of_notIf (by rintro ⟨w, e⟩; simp [exDatabaseProps] at e)).1 hu).2.1⟩

/-- `C139_images_partial` -/
example (p : Path) (f : Option String) : ¬ ImageFault (exOneOf "AWS::EC2::Instance" [(.str "ImageId", .str "ami-1")]) p f := by
  have hw : (exOneOf "AWS::EC2::Instance" [(.str "ImageId", .str "ami-1")]).WF := by simp [exOneOf, Val.WF, Val.WFDict]
  have hrun := exRest_run (i := "W2506") (n := 0) (t := exOneOf "AWS::EC2::Instance" [(.str "ImageId", .str "ami-1")]) ⟨'W', _, rfl, .inr rfl⟩ hw ⟨rfl, _, rfl⟩ rfl
    (by decide +kernel) (by decide +kernel)
  refine C139_images_partial (E := exRestEnv) hrun (exRestRules_rules _) List.mem_cons_self (rules_inForce List.mem_cons_self rfl (by decide)) exRx_ok ⟨hw, ⟨_, rfl⟩, ?_, ?_⟩ ?_ p f
  · intro s hs
    have := (follow_at hw).1 hs
    cases this
  · intro s hs
    have := (follow_at hw).1 hs
    change some _ = some s at this
    rw [Option.some.injEq] at this
    subst this
    refine ⟨_, rfl, fun kv hkv => ?_⟩
    simp only [List.mem_cons, List.not_mem_nil, or_false] at hkv
    subst hkv
    refine ⟨⟨_, rfl, by unfold PlainName; decide⟩, _, rfl, fun ty hty => ?_⟩
    simp at hty
    exact ⟨_, hty⟩
  · intro p v h
    rw [← mem_images] at h
    have : (searchDeepKeys "ImageId" (exOneOf "AWS::EC2::Instance" [(.str "ImageId", .str "ami-1")]) (.dict [])).filter (fun x => x.1[0]? == some (.str "Resources")) =
        [([.str "Resources", .str "R", .str "Properties", .str "ImageId"], .str "ami-1")] := by decide
    rw [this] at h
    simp at h

/-- `C139_schemas_partial` -/
example : exRestEnv.validate (.dict [(.str "Size", .int 1)]) exOwnSchema = .ok none :=
  C139_schemas_partial (E := exRestEnv) (exRest_run (i := "E3000") (n := 0) (t := exOwnPlain) ⟨'E', _, rfl, .inl rfl⟩ (by simp [exOwnPlain, Val.WF, Val.WFDict]) ⟨rfl, _, rfl⟩ rfl
      (by decide +kernel) (by decide +kernel))
    (exRestRules_rules 0) List.mem_cons_self (rules_inForce List.mem_cons_self rfl (by decide))
    ⟨fun s h => by cases List.mem_singleton.1 h; exact ⟨_, "My::Own::Thing", rfl, by simp, List.mem_cons_self⟩, fun s _ v => ⟨_, rfl⟩⟩
    List.mem_cons_self rfl List.mem_cons_self (k := .str "R")
    ⟨_, _, .key List.mem_cons_self .here, List.mem_cons_self, List.mem_cons_self, .inl (List.mem_cons_of_mem _ List.mem_cons_self)⟩ (by
      rw [← C105_syntax]
      decide +kernel)

end CfnLint
