import Verif.Props.Closed
import Verif.Props.RefRules
/-
Property C145: a run in which no rule finds anything ends with status 0, so that status 0 says exactly that the rules in force found nothing.
-/
namespace CfnLint

open Spec

namespace Spec

/-- what is assumed of a run that is to end with status 0: the templates could be read, the configuration can be used with each of them, the
rules can be set up and configured, the regions are supported and an empty report can be printed -/
structure ReadyRun (objs : List RuleObj) (args : Sources) (all : List String) (regions : List Val) (beh : RuleObj → Behaviour) (mark : Val → MVal)
    (print : List Match → PyM Unit) (ds : List Decoded) : Prop where
  marks : ∀ t, (mark t).erase = t
  decoded : ∀ d ∈ ds, d.errors = [] ∧ d.template.WF ∧ ∃ top, d.template = .dict top
  start : ∃ b, ignoreBadTemplate { args with template := [] } = .ok b
  configured : ∀ d ∈ ds, ∃ targs cfg b, setTemplateArgs d.template = .ok targs ∧ currentCfg { args with template := targs } = .ok cfg ∧
    ignoreBadTemplate { args with template := targs } = .ok b
  decided : ∀ d ∈ ds, ∀ cfg, ConfiguredBy args d.template cfg → isRuleEnabled cfg { id := "E0002" } = .ok true ∧
    (∃ b, isRuleEnabled cfg { id := "E0001" } = .ok b) ∧ ∀ r ∈ objs, ∃ b, isRuleEnabled cfg r.info = .ok b
  configurable : ∀ d ∈ ds, ∀ cfg, ConfiguredBy args d.template cfg → ∀ r : RuleObj, r.info ∈ objs.map RuleObj.info → ∀ o,
    dlookup r.info.id cfg.configureRules = some o → ∃ r', r.configure o = .ok r'
  settable : ∀ d ∈ ds, ∀ r, (beh r).setUp d.template = .ok ()
  supported : regions = [] ∨ regionsSupported all regions = .ok true
  printed : print [] = .ok ()

/-- the rules in force found nothing -/
def NothingFound (objs : List RuleObj) (args : Sources) (S : TypeSpecs) (beh : RuleObj → Behaviour) (t : Val) : Prop :=
  ∀ cfg, ConfiguredBy args t cfg → ∀ r : RuleObj, r.info ∈ objs.map RuleObj.info → isRuleEnabled cfg r.info = .ok true → FoundNothing S (beh r) t

end Spec

/-! ### the collection -/

/-- the rules of the collection can be registered -/
structure Registrable (infos : List RuleInfo) (cfg : Cfg) : Prop where
  decided : ∀ i ∈ infos, ∃ b, isRuleEnabled cfg i = .ok b
  configurable : ∀ r : RuleObj, r.info ∈ infos → ∀ o, dlookup r.info.id cfg.configureRules = some o → ∃ r', r.configure o = .ok r'

theorem register'_succeeds {c : Coll} (h : Registrable (c.objs.map RuleObj.info) c.cfg) {i : Nat} (hi : i < c.objs.length) : ∃ c', c.register' i = .ok c' := by
  unfold Coll.register'
  have hm : c.objs[i].info ∈ c.objs.map RuleObj.info := List.mem_map_of_mem (List.getElem_mem hi)
  obtain ⟨b, hb⟩ := h.decided _ hm
  rw [List.getElem?_eq_getElem hi]
  simp only [hb]
  cases b with
  | false => exact ⟨_, rfl⟩
  | true =>
    simp only
    cases ho : dlookup c.objs[i].info.id c.cfg.configureRules with
    | none => exact ⟨_, rfl⟩
    | some o =>
      obtain ⟨r', hr⟩ := h.configurable _ hm o ho
      simp only [hr]
      exact ⟨_, rfl⟩

theorem registerAll_succeeds : ∀ {is : List Nat} {c : Coll}, Registrable (c.objs.map RuleObj.info) c.cfg → (∀ i ∈ is, i < c.objs.length) →
    ∃ c', c.registerAll is = .ok c'
  | [], c, _, _ => ⟨c, rfl⟩
  | i :: is, c, h, hi => by
    obtain ⟨c1, h1⟩ := register'_succeeds h (hi i List.mem_cons_self)
    obtain ⟨-, a2, a3, -⟩ := register'_ok h1
    have hl : c1.objs.length = c.objs.length := by simpa using congrArg List.length a3
    rw [Coll.registerAll, h1]
    exact registerAll_succeeds (by rw [a3, a2]; exact h) (fun j hj => by rw [hl]; exact hi j (List.mem_cons_of_mem _ hj))

theorem extend_succeeds : ∀ {is : List Nat} {c : Coll}, Registrable (c.objs.map RuleObj.info) c.cfg → (∀ i ∈ is, i < c.objs.length) →
    ∃ c', c.extend is = .ok c'
  | [], c, _, _ => ⟨c, rfl⟩
  | i :: is, c, h, hi => by
    obtain ⟨c1, h1⟩ := register'_succeeds (c := { c with all := c.all ++ [i] }) h (hi i List.mem_cons_self)
    obtain ⟨-, a2, a3, -⟩ := register'_ok h1
    have hl : c1.objs.length = c.objs.length := by simpa using congrArg List.length a3
    rw [Coll.extend, Coll.register, h1]
    exact extend_succeeds (by rw [a3, a2]; exact h) (fun j hj => by rw [hl]; exact hi j (List.mem_cons_of_mem _ hj))

theorem configure_succeeds {c : Coll} {cfg : Cfg} (h : Registrable (c.objs.map RuleObj.info) { cfg with incl := addDefaults cfg.incl })
    (hi : ∀ i ∈ c.all, i < c.objs.length) : ∃ c', c.configure cfg = .ok c' := registerAll_succeeds h hi

theorem getRules_succeeds {objs : List RuleObj} {cfg : Cfg} (h : Registrable (objs.map RuleObj.info) { cfg with incl := addDefaults cfg.incl }) :
    ∃ c, getRules objs cfg = .ok c := by
  unfold getRules Coll.init
  obtain ⟨c1, h1⟩ := configure_succeeds (c := { objs := objs }) h (fun i hi => by cases hi)
  rw [h1]
  obtain ⟨-, a2, a3, -⟩ := registerAll_ok h1
  have hl : c1.objs.length = objs.length := by simpa using congrArg List.length a3
  exact extend_succeeds (by rw [a3, a2]; exact h) (fun i hi => by rw [hl]; exact List.mem_range.1 hi)

/-- an active rule is in force -/
theorem active_enabled {objs : List RuleObj} {cfg : Cfg} {c : Coll} (h : CollOK objs cfg c) {r : RuleObj} (hr : r ∈ c.active) :
    isRuleEnabled c.cfg r.info = .ok true := by
  obtain ⟨i, hi, ho⟩ := List.mem_filterMap.1 hr
  rw [h.inv, List.mem_filter] at hi
  have := hi.2
  unfold enabledB at this
  rw [ho] at this
  exact of_decide_eq_true this

/-! ### one template -/

variable {objs : List RuleObj} {args : Sources} {all : List String} {regions : List Val} {S : TypeSpecs} {beh : RuleObj → Behaviour}
  {name : Val → String} {mark : Val → MVal} {print : List Match → PyM Unit} {ds : List Decoded}

theorem check_silent (h : ReadyRun objs args all regions beh mark print ds) {d : Decoded} (hd : d ∈ ds) (hs : NothingFound objs args S beh d.template)
    {cfg0 : Cfg} {c : Coll} (hok : CollOK objs cfg0 c) (hc : ConfiguredBy args d.template c.cfg) :
    checkWith all regions S beh name mark d.template (some c) = .ok [] := by
  obtain ⟨hE, ⟨b, hb⟩, -⟩ := h.decided d hd _ hc
  obtain ⟨-, hw, top, ht⟩ := h.decoded d hd
  have hreg : (if regions.isEmpty then .ok true else regionsSupported all regions : PyM Bool) = .ok true := by
    rcases h.supported with rfl | hr
    · rfl
    · rw [hr]; split <;> rfl
  have hmk := h.marks d.template
  cases hm : mark d.template with
  | dict m mtop =>
    rw [hm] at hmk
    obtain ⟨out, r1, -, -, r4⟩ := C127_run S beh c (name d.template) m mtop (by unfold MWF; rw [hmk]; exact hw) hE
      (fun r _ => by rw [hmk]; exact h.settable d hd r)
    have hnil : out = [] := by
      rw [List.eq_nil_iff_forall_not_mem]
      intro x hx
      obtain ⟨r, hr, call, hcall, hor⟩ := r4 x hx
      obtain ⟨r0, hr0, hi⟩ := active_info hok hr
      rw [hmk] at hcall
      have hf := hs _ hc r (hi ▸ List.mem_map_of_mem hr0) (active_enabled hok hr) call hcall
      rcases hor with ⟨rs, p, msg, rfl, hp, -⟩ | ⟨-, ⟨rs, rfl, p, msg, e, hp, -⟩ | ⟨e, rfl, he⟩⟩
      · rcases hf with hf | ⟨s, hf⟩
        · cases hf; cases hp
        · cases hf
      · rcases hf with hf | ⟨s, hf⟩
        · cases hf; cases hp
        · cases hf
      · rcases hf with hf | ⟨s, hf⟩
        · cases hf
        · cases hf; exact he _ rfl
    subst hnil
    simp only [checkWith, hm, lintTemplate, runChecks, hreg, transformErrorRule, hb, r1, runnerRun]
    cases getDirectives (.dict m mtop) with
    | error e => rfl
    | ok dirs => simp [runnerFilter]
  | _ => rw [hm, ht] at hmk; cases hmk

theorem lintAll_silent {all' : List Decoded} (h : ReadyRun objs args all regions beh mark print all') (hs : ∀ d ∈ all', NothingFound objs args S beh d.template) :
    ∀ (ds : List Decoded) (st : LintState), (∀ d ∈ ds, d ∈ all') → Reach objs args st → (∃ b, ignoreBadTemplate (sourcesWith args st) = .ok b) →
      ∃ outs, lintAll objs args (checkWith all regions S beh name mark) st ds = .ok outs ∧ outs.flatten = []
  | [], st, _, _, _ => ⟨[], rfl, rfl⟩
  | d :: ds, st, hm, hr, ⟨b, hb⟩ => by
    have hd := hm d List.mem_cons_self
    obtain ⟨he, -, top, ht⟩ := h.decoded d hd
    obtain ⟨targs, cfg, b', h1, h2, h3⟩ := h.configured d hd
    have hcb : ConfiguredBy args d.template { cfg with incl := addDefaults cfg.incl } := ⟨targs, cfg, h1, h2, rfl⟩
    have hreg : Registrable (objs.map RuleObj.info) { cfg with incl := addDefaults cfg.incl } :=
      ⟨fun i hi => by obtain ⟨r, hr, rfl⟩ := List.mem_map.1 hi; exact (h.decided d hd _ hcb).2.2 r hr, h.configurable d hd _ hcb⟩
    have hcoll : ∃ c, getTemplateRules objs args st d = .ok ({ templateArgs := targs, cached := some c }, d.template, some c, []) := by
      simp only [getTemplateRules, hb, he, h1, h2]
      cases hc : st.cached with
      | none =>
        obtain ⟨c, hg⟩ := getRules_succeeds hreg
        exact ⟨c, by rw [hg]⟩
      | some c0 =>
        by_cases hemp : c0.rules.isEmpty = true
        · obtain ⟨c, hg⟩ := getRules_succeeds hreg
          exact ⟨c, by simp only [if_pos hemp, hg]⟩
        · obtain ⟨cfg0, hok⟩ := reach_cached hr c0 hc
          have hl : c0.objs.length = objs.length := by simpa using congrArg List.length hok.infos
          obtain ⟨c, hg⟩ := configure_succeeds (c := c0) (cfg := cfg) (by rw [hok.infos]; exact hreg)
            (fun i hi => by rw [hok.all] at hi; rw [hl]; exact List.mem_range.1 hi)
          exact ⟨c, by simp only [if_neg hemp, hg]⟩
    obtain ⟨c, hg⟩ := hcoll
    obtain ⟨targs', cfg', h1', h2', hok⟩ := template_coll hr hg
    have hck := check_silent (name := name) (S := S) h hd (hs d hd) hok ⟨targs', cfg', h1', h2', hok.cfg⟩
    obtain ⟨outs, ho, hf⟩ := lintAll_silent h hs ds _ (fun x hx => hm x (List.mem_cons_of_mem _ hx)) (.step hr hg) ⟨b', h3⟩
    refine ⟨[] :: outs, ?_, by simpa using hf⟩
    rw [lintAll, hg]
    simp only [hck, ho]
    split <;> simp_all

/-- **C145** When no rule in force finds anything in any template, the run ends with status 0, however it was started. -/
theorem C145_silent (h : ReadyRun objs args all regions beh mark print ds) (hs : ∀ d ∈ ds, NothingFound objs args S beh d.template) (launch : Launch) :
    runCommand launch objs args (checkWith all regions S beh name mark) print ds = 0 := by
  obtain ⟨b, hb⟩ := h.start
  obtain ⟨outs, ho, hf⟩ := lintAll_silent (name := name) h hs ds {} (fun d hd => hd) .init ⟨b, hb⟩
  simp only [runCommand, mainStatus, ho, hf, h.printed]
  rfl

/-- **C145** Status 0 of the script says exactly that no rule in force found anything, when moreover the ids of the rules begin with the letters of the
severities, errors of decoding are not ignored, no resource asks to ignore anything, and a rule does the same whatever its options. -/
theorem C145_exact (h : ReadyRun objs args all regions beh mark print ds) (hids : ∀ r ∈ objs, ∀ x : Match, x.rule = r.info → Levelled x)
    (ht : ∀ d ∈ ds, d.template.truthy = true) (hi : ignoreBadTemplate { args with template := [] } = .ok false)
    (hq : ∀ d ∈ ds, ∀ a, setTemplateArgs d.template = .ok a → quiet a) (hdir : ∀ d ∈ ds, getDirectives (mark d.template) = .ok [])
    (hmand : ∀ d ∈ ds, ∀ cfg, ConfiguredBy args d.template cfg → ∃ mand : List String, cfg.mandatory = mand.map .str)
    (hb : ∀ r r' : RuleObj, r.info = r'.info → beh r = beh r') :
    runCommand .script objs args (checkWith all regions S beh name mark) print ds = 0 ↔ ∀ d ∈ ds, NothingFound objs args S beh d.template := by
  refine ⟨fun h0 d hd cfg hc r hr hen => ?_, fun hs => C145_silent h hs _⟩
  have hrun : CleanRun objs args all regions S beh name mark print ds := {
    marks := h.marks
    ids := hids
    templates := fun d hd _ => ⟨(h.decoded d hd).2.1, ht d hd, (h.decoded d hd).2.2⟩
    notIgnored := hi
    quietly := hq
    levelled := fun d hd m hm => by rw [(h.decoded d hd).1] at hm; cases hm
    noDirectives := hdir
    settable := h.settable
    failuresShown := fun d hd cfg hc => ⟨(h.decided d hd cfg hc).1, hmand d hd cfg hc⟩
    status := h0 }
  obtain ⟨r', hi', hf⟩ := clean_found hrun hd (info := r.info) ⟨hr, fun cfg' hc' => by
    obtain ⟨t1, c1, a1, a2, rfl⟩ := hc
    obtain ⟨t2, c2, b1, b2, rfl⟩ := hc'
    rw [a1] at b1
    cases b1
    rw [a2] at b2
    cases b2
    exact hen⟩
  rw [hb r r' hi'.symm]
  exact hf

/-! ### the sections -/

namespace Spec

/-- the sections of a template -/
inductive KnownSection : Key → Prop where
  | version : KnownSection (.str "AWSTemplateFormatVersion")
  | description : KnownSection (.str "Description")
  | metadata : KnownSection (.str "Metadata")
  | parameters : KnownSection (.str "Parameters")
  | mappings : KnownSection (.str "Mappings")
  | conditions : KnownSection (.str "Conditions")
  | transform : KnownSection (.str "Transform")
  | hooks : KnownSection (.str "Hooks")
  | resources : KnownSection (.str "Resources")
  | outputs : KnownSection (.str "Outputs")
  | rules : KnownSection (.str "Rules")

/-- every key is a section, and there are resources -/
def SectionsRight (t : Val) : Prop := ∃ top, t = .dict top ∧ (∀ k v, (k, v) ∈ top → KnownSection k) ∧ ∃ v, (Key.str "Resources", v) ∈ top

end Spec

/-- E1001 -/
def BaseRule (beh : RuleObj → Behaviour) : Prop :=
  ∀ r, r.info.id = "E1001" → ∃ msg, (beh r).whole = some (fun t => withText id msg (match t with | .dict top => .ok (baseRule top) | _ => .ok []))

theorem knownSection_iff {k : Key} : KnownSection k ↔ ∃ s, k = .str s ∧ s ∈ ["AWSTemplateFormatVersion", "Description", "Metadata", "Parameters", "Mappings", "Conditions",
    "Transform", "Hooks", "Resources", "Outputs", "Rules"] := by
  constructor
  · intro h
    cases h <;> exact ⟨_, rfl, by decide⟩
  · rintro ⟨s, rfl, h⟩
    simp only [List.mem_cons, List.not_mem_nil, or_false] at h
    rcases h with rfl | rfl | rfl | rfl | rfl | rfl | rfl | rfl | rfl | rfl | rfl <;> constructor

theorem baseRule_nil {top : List (Key × Val)} : baseRule top = [] ↔ SectionsRight (.dict top) := by
  rw [List.eq_nil_iff_forall_not_mem]
  constructor
  · intro h
    refine ⟨top, rfl, fun k v hk => ?_, ?_⟩
    · rw [knownSection_iff]
      by_contra hn
      exact h [k] ((C116_sections _ _).2 (.inl ⟨k, v, hk, rfl, fun s e hs => hn ⟨s, e, hs⟩⟩))
    · by_contra hn
      exact h _ ((C116_sections _ _).2 (.inr ⟨fun v hv => hn ⟨v, hv⟩, rfl⟩))
  · rintro ⟨top', e, h1, v, h2⟩ p hp
    cases e
    rcases (C116_sections _ _).1 hp with ⟨k, v, hk, -, hs⟩ | ⟨hn, -⟩
    · obtain ⟨s, e, hm⟩ := knownSection_iff.1 (h1 k v hk)
      exact hs s e hm
    · exact hn v h2

/-- **C145** When the script ends with status 0 and E1001 is in force, a template has resources and no other keys than sections. -/
theorem C145_sections (h : CleanRun objs args all regions S beh name mark print ds) (hb : BaseRule beh) {d : Decoded} (hd : d ∈ ds)
    (hf : InForce objs args d.template { id := "E1001" }) : SectionsRight d.template := by
  obtain ⟨top, ht⟩ := clean_object h hd
  have := whole_found h hd hf (rule := fun t => match t with | .dict top => .ok (baseRule top) | _ => .ok []) hb (l := baseRule top) (by rw [ht])
  rw [ht]
  exact baseRule_nil.1 this

/-! ### the hypotheses are met -/

/-- a template that was read without errors and configures nothing -/
structure ReadPlain (d : Decoded) : Prop where
  errors : d.errors = []
  wf : d.template.WF
  object : ∃ kv top, d.template = .dict (kv :: top)
  args : setTemplateArgs d.template = .ok []
  directives : getDirectives (markAll default d.template) = .ok []

theorem plain_configured {t : Val} (ht : setTemplateArgs t = .ok []) {cfg : Cfg} (h : ConfiguredBy (c50Args [] false []) t cfg) :
    cfg = { incl := addDefaults [.str "W", .str "E"] } := by
  obtain ⟨targs, cfg0, h1, h2, rfl⟩ := h
  rw [ht] at h1
  cases h1
  have h2' : currentCfg { c50Args [] false [] with template := [] } = .ok { incl := [.str "W", .str "E"] } := by decide
  rw [h2'] at h2
  cases h2
  rfl

theorem plain_ready {ids : List String} (hen : ∀ i ∈ ids, ∃ b, isRuleEnabled { incl := addDefaults [.str "W", .str "E"] } { id := i } = .ok b)
    (hset : ∀ r t, (beh r).setUp t = .ok ()) (hd : ∀ d ∈ ds, ReadPlain d) :
    ReadyRun (withIds ids) (c50Args [] false []) [] [] beh (markAll default) (fun _ => .ok ()) ds where
  marks := erase_markAll _
  decoded := fun d h => ⟨(hd d h).errors, (hd d h).wf, by obtain ⟨kv, top, ht⟩ := (hd d h).object; exact ⟨_, ht⟩⟩
  start := ⟨false, by decide⟩
  configured := fun d h => ⟨[], { incl := [.str "W", .str "E"] }, false, (hd d h).args, by decide, by decide⟩
  decided := fun d h cfg hc => by
    cases plain_configured (hd d h).args hc
    refine ⟨by decide, ⟨true, by decide⟩, fun r hr => ?_⟩
    obtain ⟨i, hi, rfl⟩ := List.mem_map.1 hr
    exact hen i hi
  configurable := fun d h cfg hc r _ o ho => by
    cases plain_configured (hd d h).args hc
    cases ho
  settable := fun d _ r => hset r _
  supported := .inl rfl
  printed := rfl

/-- E1001 as the only rule -/
def exBase (r : RuleObj) : Behaviour :=
  if r.info.id = "E1001" then { whole := some (fun t => withText id (fun _ => "section") (match t with | .dict top => .ok (baseRule top) | _ => .ok [])) } else {}

theorem exBase_rule : BaseRule exBase := fun r hr => ⟨fun _ => "section", by simp [exBase, hr]⟩

/-- **C145** With E1001 as the only rule the status is 0 exactly if every template has resources and no other keys than sections. The hypotheses of
`C145_exact` and `C145_silent` are met. -/
theorem C145_base (S : TypeSpecs) (name : Val → String) (hd : ∀ d ∈ ds, ReadPlain d) :
    runCommand .script (withIds ["E1001"]) (c50Args [] false []) (checkWith [] [] S exBase name (markAll default)) (fun _ => .ok ()) ds = 0 ↔
      ∀ d ∈ ds, SectionsRight d.template := by
  have hset : ∀ r t, (exBase r).setUp t = .ok () := by
    intro r t
    unfold exBase
    split <;> rfl
  have hready := plain_ready (ids := ["E1001"]) (beh := exBase) (ds := ds) (by decide) hset hd
  rw [C145_exact hready
    (by
      intro r hr x hx
      cases List.mem_singleton.1 hr
      exact .inr (.inr ⟨'E', "1001".toList, by rw [hx]; rfl, .inl rfl⟩))
    (fun d h => by obtain ⟨kv, top, ht⟩ := (hd d h).object; rw [ht]; rfl) (by decide)
    (by
      intro d h a ha
      rw [(hd d h).args] at ha
      cases ha
      intro n _
      rfl)
    (fun d h => (hd d h).directives)
    (fun d h cfg hc => by cases plain_configured (hd d h).args hc; exact ⟨[], rfl⟩)
    (fun r r' e => by unfold exBase; rw [e])]
  refine forall₂_congr fun d h => ?_
  obtain ⟨kv, top, ht⟩ := (hd d h).object
  rw [ht, ← baseRule_nil]
  have hcb : ConfiguredBy (c50Args [] false []) (.dict (kv :: top)) { incl := addDefaults [.str "W", .str "E"] } :=
    ⟨[], { incl := [.str "W", .str "E"] }, ht ▸ (hd d h).args, by decide, rfl⟩
  constructor
  · intro hn
    rcases hn _ hcb { info := { id := "E1001" } } List.mem_cons_self (by decide) _ (.whole rfl) with h0 | ⟨s, h0⟩
    · simp only [withText] at h0
      injection h0 with h0
      exact List.map_eq_nil_iff.1 h0
    · simp [withText] at h0
  · intro hn cfg hc r hr hen call hcall
    obtain ⟨r0, hr0, e⟩ := List.mem_map.1 hr
    cases List.mem_singleton.1 hr0
    have hid : r.info.id = "E1001" := by rw [← e]
    cases hcall with
    | whole hf =>
      left
      simp only [exBase, hid, if_true, Option.some.injEq] at hf
      subst hf
      simp [withText, hn]
    | properties hf => simp [exBase, hid] at hf
    | subProperties hf => simp [exBase, hid] at hf

/-- a template that is right, and one that is not -/
example : SectionsRight (.dict [(.str "Resources", .dict [])]) ∧ ¬ SectionsRight (.dict [(.str "Resource", .dict [])]) := by
  have hp : ∀ k ∈ ["Resources", "Resource"], ReadPlain ⟨.dict [(.str k, .dict [])], []⟩ := by
    intro k hk
    simp only [List.mem_cons, List.not_mem_nil, or_false] at hk
    rcases hk with rfl | rfl <;> exact ⟨rfl, by simp [Val.WF, Val.WFDict], ⟨_, _, rfl⟩, by decide +kernel, by decide +kernel⟩
  constructor
  · exact (C145_base ⟨[], []⟩ (fun _ => "t") (ds := [⟨.dict [(.str "Resources", .dict [])], []⟩])
      (fun d h => by cases List.mem_singleton.1 h; exact hp _ (by simp))).1 (by decide +kernel) _ List.mem_cons_self
  · intro h
    have := (C145_base ⟨[], []⟩ (fun _ => "t") (ds := [⟨.dict [(.str "Resource", .dict [])], []⟩])
      (fun d h => by cases List.mem_singleton.1 h; exact hp _ (by simp))).2 (fun d hd => by cases List.mem_singleton.1 hd; exact h)
    revert this
    decide +kernel

/-- the hypotheses of `C145_sections` are met -/
example : SectionsRight (.dict [(.str "Resources", .dict [])]) :=
  C145_sections (d := ⟨.dict [(.str "Resources", .dict [])], []⟩)
    (rules_clean (S := ⟨[], []⟩) (ids := ["E1001"]) (beh := exBase) (severity_ids (by decide)) (fun r t => by unfold exBase; split <;> rfl)
      (by simp [Val.WF, Val.WFDict]) ⟨rfl, _, rfl⟩ (by decide +kernel) (by decide +kernel) (by decide +kernel))
    exBase_rule List.mem_cons_self (rules_inForce List.mem_cons_self (by decide +kernel) (by decide))

end CfnLint
