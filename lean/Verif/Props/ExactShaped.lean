import Verif.Props.Exact
import Verif.Props.Declared
import Verif.Props.Outputs
import Verif.Props.SectionNames
import Verif.Props.Interface
import Verif.Props.RefRules
/-
Property C149: rules that tell exactly when a template is not right as long as the sections of the template are objects of objects; status 0 for
such rules together with the fourteen of C147 is spelt out for twenty-five rules of the linter.
-/
namespace CfnLint

open Spec

namespace Spec

/-- among the templates in `D` the rule says exactly when one is not right -/
def WholeCheck.TellsOn (D : Val → Prop) (c : WholeCheck) : Prop :=
  ∀ top, (Val.dict top).WF → D (.dict top) →
    ((c.rule (.dict top) = .ok [] ∨ ∃ s, c.rule (.dict top) = .error (.templateAttributeError s)) ↔ c.right (.dict top))

/-- parameters, resources, mappings and outputs, where there are any, are objects with texts as names and objects as members -/
def SectionsOrdinary (t : Val) : Prop :=
  ∀ s ∈ ["Parameters", "Resources", "Mappings", "Outputs"], ∀ v, At t [.str s] v →
    ∃ kvs, v = .dict kvs ∧ ∀ k w, (k, w) ∈ kvs → (∃ n, k = .str n) ∧ ∃ o, w = .dict o

/-- a parameter has known properties of the right types only, and among them a type -/
structure ParamFormed (o : List (Key × Val)) : Prop where
  keys : ∀ k v, (k, v) ∈ o → ∃ s, k = .str s ∧ ParamProp s
  types : ∀ k v q, (Key.str k, v) ∈ o → ¬ WrongType k v q
  only : ∀ k v ty w, (Key.str k, v) ∈ o → NumberProp k ty → (Key.str "Type", w) ∈ o → w.truthy = true → w = .str ty
  given : ∃ w, (Key.str "Type", w) ∈ o

/-- the parameters are formed well -/
def ParametersFormed (t : Val) : Prop := ∀ n o, ParamIs t n (.dict o) → ParamFormed o

/-- the types of the parameters are types -/
def ParameterTypesKnown (t : Val) : Prop := ∀ n o v, ParamIs t n (.dict o) → (Key.str "Type", v) ∈ o → ∃ s, v = .str s ∧ ParamTypeName s

/-- the names in the section consist of letters and digits, apart from a line break at the end -/
def NamesPlain (section_ : String) (t : Val) : Prop := ∀ n v, At t [.str section_, .str n] v → MaybeBreak Alnum n

/-- an output has known properties only; its value and the name it is exported with are no lists and no objects other than calls -/
structure OutputFormed (o : List (Key × Val)) : Prop where
  keys : ∀ k w, (k, w) ∈ o → k = .str "Value" ∨ k = .str "Export" ∨ k = .str "Description" ∨ k = .str "Condition"
  value : ∀ v, (Key.str "Value", v) ∈ o → v.truthy = true → ¬ NotSingle v
  export_ : ∀ v, (Key.str "Export", v) ∈ o → v.truthy = true → ∃ w, v = .dict [(.str "Name", w)] ∧ ¬ NotSingle w

/-- the outputs are formed well -/
def OutputsFormed (t : Val) : Prop := ∀ n o, OutputIs t n (.dict o) → OutputFormed o

/-- every output has a value -/
def OutputsValued (t : Val) : Prop := ∀ n o, OutputIs t n (.dict o) → ∃ w, (Key.str "Value", w) ∈ o

/-- the descriptions of outputs are texts or void -/
def OutputsDescribed (t : Val) : Prop := ∀ n o w, OutputIs t n (.dict o) → (Key.str "Description", w) ∈ o → w.truthy = false ∨ ∃ s, w = .str s

/-- no resource has the name of a parameter -/
def NamesApart (t : Val) : Prop := ∀ k r d, TypedResource t k r → ¬ At t [.str "Parameters", k] d

/-- the keys of mappings are texts, and those of the second level consist of letters and digits -/
def MappingKeys (t : Val) : Prop :=
  ∀ m rows, At t [.str "Mappings", m] (.dict rows) → ∀ r v, (r, v) ∈ rows →
    (∃ s, r = .str s) ∧ ∀ cells k w, v = .dict cells → (k, w) ∈ cells → ∃ s, k = .str s ∧ MaybeBreak Alnum s

/-- a template that the eleven rules on sections have nothing to say about -/
structure SectionsFormed (t : Val) : Prop where
  parameters : ParametersFormed t
  types : ParameterTypesKnown t
  parameterNames : NamesPlain "Parameters" t
  resourceNames : NamesPlain "Resources" t
  outputNames : NamesPlain "Outputs" t
  mappingNames : NamesPlain "Mappings" t
  outputs : OutputsFormed t
  values : OutputsValued t
  descriptions : OutputsDescribed t
  apart : NamesApart t
  keys : MappingKeys t

end Spec

theorem tells_on {c : WholeCheck} (h : c.Tells) (D : Val → Prop) : c.TellsOn D := fun top hw _ => h top hw

section Status

variable {objs : List RuleObj} {args : Sources} {all : List String} {regions : List Val} {S : TypeSpecs} {beh : RuleObj → Behaviour}
  {name : Val → String} {mark : Val → MVal} {print : List Match → PyM Unit} {ds : List Decoded} {checks : List WholeCheck} {D : Val → Prop}

/-- **C149** The rules in force found nothing in a template of the kind `D` exactly if it is right for each of them. -/
theorem C149_found (h : ReadyRun objs args all regions beh mark print ds) (hb : BehaveAs checks beh) (htell : ∀ c ∈ checks, c.TellsOn D)
    (hobjs : ∀ r ∈ objs, ∃ c ∈ checks, r.info = { id := c.id }) {d : Decoded} (hd : d ∈ ds) (hD : D d.template) :
    NothingFound objs args S beh d.template ↔ ∀ c ∈ checks, InForce objs args d.template { id := c.id } → c.right d.template := by
  obtain ⟨-, hw, top, ht⟩ := h.decoded d hd
  obtain ⟨targs, cfg, b, h1, h2, -⟩ := h.configured d hd
  have hcb : ConfiguredBy args d.template { cfg with incl := addDefaults cfg.incl } := ⟨targs, cfg, h1, h2, rfl⟩
  constructor
  · intro hn c hc ⟨hm, hen⟩
    have hbr := hb { info := { id := c.id } } c hc rfl
    have := hn _ hcb { info := { id := c.id } } hm (hen _ hcb) _ (.whole hbr.1)
    rw [ht] at this hw hD ⊢
    exact (htell c hc top hw hD).1 this
  · intro hr cfg' hc' r hmem hen call hcall
    obtain ⟨r0, hr0, e⟩ := List.mem_map.1 hmem
    obtain ⟨c, hc, hi⟩ := hobjs r0 hr0
    have hinfo : r.info = { id := c.id } := by rw [← e, hi]
    have hbr := hb r c hc (by rw [hinfo])
    have hright := hr c hc ⟨hinfo ▸ hmem, fun cfg'' hc'' => by
      obtain ⟨t1, c1, a1, a2, rfl⟩ := hc'
      obtain ⟨t2, c2, b1, b2, rfl⟩ := hc''
      rw [a1] at b1
      cases b1
      rw [a2] at b2
      cases b2
      rw [← hinfo]
      exact hen⟩
    cases hcall with
    | whole hf =>
      rw [hbr.1] at hf
      cases hf
      rw [ht] at hw hright hD ⊢
      exact (htell c hc top hw hD).2 hright
    | properties hf => rw [hbr.2.1] at hf; cases hf
    | subProperties hf => rw [hbr.2.2] at hf; cases hf

/-- **C149** For templates of the kind `D`, status 0 of the script is the conjunction of what the rules in force ask of the templates. -/
theorem C149_status (h : ReadyRun objs args all regions beh mark print ds) (hb : BehaveAs checks beh) (htell : ∀ c ∈ checks, c.TellsOn D)
    (hobjs : ∀ r ∈ objs, ∃ c ∈ checks, r.info = { id := c.id }) (hids : ∀ r ∈ objs, ∀ x : Match, x.rule = r.info → Levelled x)
    (ht : ∀ d ∈ ds, d.template.truthy = true) (hi : ignoreBadTemplate { args with template := [] } = .ok false)
    (hq : ∀ d ∈ ds, ∀ a, setTemplateArgs d.template = .ok a → quiet a) (hdir : ∀ d ∈ ds, getDirectives (mark d.template) = .ok [])
    (hmand : ∀ d ∈ ds, ∀ cfg, ConfiguredBy args d.template cfg → ∃ mand : List String, cfg.mandatory = mand.map .str)
    (hsame : ∀ r r' : RuleObj, r.info = r'.info → beh r = beh r') (hD : ∀ d ∈ ds, D d.template) :
    runCommand .script objs args (checkWith all regions S beh name mark) print ds = 0 ↔
      ∀ d ∈ ds, ∀ c ∈ checks, InForce objs args d.template { id := c.id } → c.right d.template := by
  rw [C145_exact h hids ht hi hq hdir hmand hsame]
  exact forall₂_congr fun d hd => C149_found h hb htell hobjs hd (hD d hd)

end Status

/-! ### eleven rules on sections -/

theorem ordinary_dict {t : Val} (h : SectionsOrdinary t) {s : String} (hs : s ∈ ["Parameters", "Resources", "Mappings", "Outputs"]) :
    ∀ v, At t [.str s] v → ∃ kvs, v = .dict kvs := fun v hat => (h s hs v hat).imp fun _ h => h.1

theorem ordinary_truthy {t : Val} (h : SectionsOrdinary t) {s : String} (hs : s ∈ ["Parameters", "Resources", "Mappings", "Outputs"]) :
    ∀ v, At t [.str s] v → v.truthy = true → ∃ kvs, v = .dict kvs := fun v hat _ => ordinary_dict h hs v hat

theorem ordinary_member {t : Val} (h : SectionsOrdinary t) {s : String} (hs : s ∈ ["Parameters", "Resources", "Mappings", "Outputs"]) {n : Key} {v : Val}
    (hm : ∃ kvs, At t [.str s] (.dict kvs) ∧ (n, v) ∈ kvs) : (∃ s, n = .str s) ∧ ∃ o, v = .dict o := by
  obtain ⟨kvs, hat, hm⟩ := hm
  obtain ⟨kvs', e, hk⟩ := h s hs _ hat
  cases e
  exact hk n v hm

/-- the path of a finding whose parts are values: texts and numbers are keys -/
def keysOf (p : List Val) : Path := p.filterMap fun v => match v with | .str s => some (.str s) | .int i => some (.int i) | _ => none

theorem names_tell (s : Sect) (hs : s.key ∈ ["Parameters", "Resources", "Mappings", "Outputs"]) (msg : LimitMatch → String) :
    WholeCheck.TellsOn SectionsOrdinary ⟨"", fun t => withText (fun m => keysOf m.path) msg (alphanumericName t s), NamesPlain s.key⟩ := by
  intro top hw hD
  obtain ⟨l, h1, -, h2⟩ := C122_names hw s (fun v hat => by
    obtain ⟨kvs, e, hk⟩ := hD s.key hs v hat
    exact ⟨kvs, e, fun k w hm => (hk k w hm).1⟩)
  refine (tells_of_exact ⟨l, h1, h2⟩).trans ⟨fun h n v hat => ?_, ?_⟩
  · by_contra hc
    exact h _ ⟨n, v, hat, hc, rfl⟩
  · rintro h m ⟨n, v, hat, hc, -⟩
    exact hc (h n v hat)

/-- the eleven rules: parameters/Configuration.py, parameters/Types.py, the four Name.py, outputs/Configuration.py, outputs/Required.py,
outputs/Description.py, resources/UniqueNames.py and mappings/KeyName.py; the messages are arbitrary -/
def eleven (msg : Path → String) : List WholeCheck :=
  [⟨"E2001", fun t => withText Prod.fst (fun x => msg x.1) (parametersRule t), ParametersFormed⟩,
   ⟨"E2002", fun t => withText id msg (parameterTypesRule t), ParameterTypesKnown⟩,
   ⟨"E2003", fun t => withText (fun m => keysOf m.path) (fun m => m.message) (alphanumericName t .parameters), NamesPlain "Parameters"⟩,
   ⟨"E3006", fun t => withText (fun m => keysOf m.path) (fun m => m.message) (alphanumericName t .resources), NamesPlain "Resources"⟩,
   ⟨"E6004", fun t => withText (fun m => keysOf m.path) (fun m => m.message) (alphanumericName t .outputs), NamesPlain "Outputs"⟩,
   ⟨"E7002", fun t => withText (fun m => keysOf m.path) (fun m => m.message) (alphanumericName t .mappings), NamesPlain "Mappings"⟩,
   ⟨"E6001", fun t => withText id msg (outputsRule t), OutputsFormed⟩,
   ⟨"E6002", fun t => withText id msg (outputRequiredRule t), OutputsValued⟩,
   ⟨"E6005", fun t => withText id msg (outputTextRule t), OutputsDescribed⟩,
   ⟨"E3007", fun t => withText id msg (uniqueNames t), NamesApart⟩,
   ⟨"E7003", fun t => withText id msg (keyNameRule t), MappingKeys⟩]

/-- **C149** Where the sections are objects of objects, each of the eleven rules tells exactly when a template is not right for it. -/
theorem C149_tells (msg : Path → String) : ∀ c ∈ eleven msg, c.TellsOn SectionsOrdinary := by
  intro c hc
  simp only [eleven, List.mem_cons, List.not_mem_nil, or_false] at hc
  rcases hc with rfl | rfl | rfl | rfl | rfl | rfl | rfl | rfl | rfl | rfl | rfl <;> intro top hw hD
  · refine (tells_of_exact (C119_parameters hw (ordinary_truthy hD (by simp)) fun n v h => (ordinary_member hD (by simp) h).2)).trans ⟨fun h n o hp => ⟨?_, ?_, ?_, ?_⟩, ?_⟩
    · intro k v hm
      by_contra hc
      exact h _ (.unknown hp hm fun s e hs => hc ⟨s, e, hs⟩)
    · intro k v q hm hwt
      exact h _ (.type hp hm hwt)
    · intro k v ty w hm hn hw' htr
      by_contra hc
      exact h _ (.onlyFor hp hm hn hw' htr hc)
    · by_contra hc
      refine h _ (.missing hp fun hm => hc ?_)
      obtain ⟨⟨k, w⟩, hm, e⟩ := List.mem_map.1 hm
      exact ⟨w, by cases e; exact hm⟩
    · intro h x hx
      cases hx with
      | unknown hp hm hn =>
        obtain ⟨s, e, hs⟩ := (h _ _ hp).keys _ _ hm
        exact hn s e hs
      | type hp hm hwt => exact (h _ _ hp).types _ _ _ hm hwt
      | onlyFor hp hm hn hw' htr hne => exact hne ((h _ _ hp).only _ _ _ _ hm hn hw' htr)
      | missing hp hn =>
        obtain ⟨w, hm⟩ := (h _ _ hp).given
        exact hn (List.mem_map.2 ⟨_, hm, rfl⟩)
  · refine (tells_of_exact (C119_types hw (ordinary_truthy hD (by simp)) fun n v h => (ordinary_member hD (by simp) h).2)).trans ⟨fun h n o v hp hm => ?_, ?_⟩
    · by_contra hc
      exact h _ ⟨n, o, v, hp, hm, fun s e hs => hc ⟨s, e, hs⟩, rfl⟩
    · rintro h p ⟨n, o, v, hp, hm, hn, -⟩
      obtain ⟨s, e, hs⟩ := h n o v hp hm
      exact hn s e hs
  · exact names_tell .parameters (by simp [Sect.key]) _ top hw hD
  · exact names_tell .resources (by simp [Sect.key]) _ top hw hD
  · exact names_tell .outputs (by simp [Sect.key]) _ top hw hD
  · exact names_tell .mappings (by simp [Sect.key]) _ top hw hD
  · refine (tells_of_exact (C118_outputs_partial hw fun n v h => ordinary_member hD (by simp) h)).trans ⟨fun h n o hp => ⟨?_, ?_, ?_⟩, ?_⟩
    · intro k w hm
      by_contra hc
      push Not at hc
      exact h _ (.property hp hm hc.1 hc.2.1 hc.2.2.1 hc.2.2.2)
    · intro v hm htr hns
      exact h _ (.value hp hm htr hns)
    · intro v hm htr
      by_contra hc
      push Not at hc
      by_cases hex : ∃ w, v = .dict [(.str "Name", w)]
      · obtain ⟨w, rfl⟩ := hex
        exact h _ (.name hp hm (hc w rfl))
      · exact h _ (.export hp hm htr fun w e => hex ⟨w, e⟩)
    · intro h p hx
      cases hx with
      | outputs hat htr hne =>
        obtain ⟨kvs, e⟩ := ordinary_dict hD (by simp) _ hat
        exact hne kvs e
      | property hp hm h1 h2 h3 h4 =>
        rcases (h _ _ hp).keys _ _ hm with e | e | e | e
        · exact h1 e
        · exact h2 e
        · exact h3 e
        · exact h4 e
      | value hp hm htr hns => exact (h _ _ hp).value _ hm htr hns
      | «export» hp hm htr hne =>
        obtain ⟨w, e, -⟩ := (h _ _ hp).export_ _ hm htr
        exact hne w e
      | name hp hm hns =>
        obtain ⟨w, e, hn⟩ := (h _ _ hp).export_ _ hm rfl
        cases e
        exact hn hns
  · refine (tells_of_exact (C118_required hw (ordinary_truthy hD (by simp)) fun n v h => .inl (ordinary_member hD (by simp) h).2)).trans ⟨fun h n o hp => ?_, ?_⟩
    · by_contra hc
      refine h _ ⟨n, .dict o, hp, ?_, rfl⟩
      rintro (⟨o', w, e, hm⟩ | ⟨xs, e, -⟩ | ⟨s, e, -⟩)
      · cases e; exact hc ⟨w, hm⟩
      · cases e
      · cases e
    · rintro h p ⟨n, v, hp, hn, -⟩
      obtain ⟨o, rfl⟩ := (ordinary_member hD (by simp) hp).2
      obtain ⟨w, hm⟩ := h n o hp
      exact hn (.inl ⟨o, w, rfl, hm⟩)
  · refine (tells_of_exact (C118_texts hw (ordinary_truthy hD (by simp)) fun n v h => (ordinary_member hD (by simp) h).2)).trans ⟨fun h n o w hp hm => ?_, ?_⟩
    · by_contra hc
      push Not at hc
      exact h _ ⟨n, o, w, hp, hm, ⟨by simpa using hc.1, hc.2⟩, rfl⟩
    · rintro h p ⟨n, o, w, hp, hm, ⟨h1, h2⟩, -⟩
      rcases h n o w hp hm with h3 | ⟨s, h3⟩
      · rw [h1] at h3; cases h3
      · exact h2 s h3
  · refine (tells_of_exact (C107_unique hw ⟨top, rfl⟩ (ordinary_dict hD (by simp)))).trans ⟨fun h k r d hr hat => h _ ⟨k, r, d, hr, hat, rfl⟩, ?_⟩
    rintro h p ⟨k, r, d, hr, hat, -⟩
    exact h k r d hr hat
  · refine (tells_of_exact (C116_mappings hw fun v hm => ordinary_dict hD (by simp) v (at_dict_one.2 hm))).trans ⟨fun h m rows hat r v hm => ⟨?_, ?_⟩, ?_⟩
    · cases r with
      | str s => exact ⟨s, rfl⟩
      | int k => exact absurd (.row hat hm) (h _)
    · rintro cells k w rfl hk
      by_contra hc
      exact h _ (.cell hat hm hk fun s e hs => hc ⟨s, e, hs⟩)
    · intro h p hx
      cases hx with
      | row hat hm =>
        obtain ⟨⟨s, e⟩, -⟩ := h _ _ hat _ _ hm
        cases e
      | cell hat hm hk hn =>
        obtain ⟨s, e, hs⟩ := (h _ _ hat _ _ hm).2 _ _ _ rfl hk
        exact hn s e hs

/-- the twenty-five rules and nothing else -/
def sectionBehaviour (msg : Path → String) (r : RuleObj) : Behaviour :=
  { whole := ((fourteen msg ++ eleven msg).find? (fun c => c.id == r.info.id)).map WholeCheck.rule }

theorem section_behave (msg : Path → String) : BehaveAs (fourteen msg ++ eleven msg) (sectionBehaviour msg) := by
  intro r c hc hid
  refine ⟨?_, rfl, rfl⟩
  simp only [sectionBehaviour, hid]
  simp only [fourteen, eleven, List.cons_append, List.nil_append, List.mem_cons, List.not_mem_nil, or_false] at hc
  rcases hc with rfl | rfl | rfl | rfl | rfl | rfl | rfl | rfl | rfl | rfl | rfl | rfl | rfl | rfl | rfl | rfl | rfl | rfl | rfl | rfl | rfl | rfl | rfl | rfl | rfl <;> rfl

/-- the ids of the twenty-five rules -/
def sectionIds : List String := fourteenIds ++ ["E2001", "E2002", "E2003", "E3006", "E6004", "E7002", "E6001", "E6002", "E6005", "E3007", "E7003"]

theorem section_ids (msg : Path → String) : (fourteen msg ++ eleven msg).map WholeCheck.id = sectionIds := rfl

theorem sectionsFormed_iff (msg : Path → String) (t : Val) : (∀ c ∈ eleven msg, c.right t) ↔ SectionsFormed t := by
  simp only [eleven, List.forall_mem_cons]
  constructor
  · rintro ⟨h1, h2, h3, h4, h5, h6, h7, h8, h9, h10, h11, -⟩
    exact ⟨h1, h2, h3, h4, h5, h6, h7, h8, h9, h10, h11⟩
  · rintro ⟨h1, h2, h3, h4, h5, h6, h7, h8, h9, h10, h11⟩
    exact ⟨h1, h2, h3, h4, h5, h6, h7, h8, h9, h10, h11, fun _ h => by cases h⟩

/-- **C149** With the twenty-five rules as they stand, and templates that were read, configure nothing and have objects of objects as sections, the
script ends with status 0 exactly if all templates are well made and their sections well formed. -/
theorem C149_sections (S : TypeSpecs) (name : Val → String) (msg : Path → String) {ds : List Decoded} (hd : ∀ d ∈ ds, ReadPlain d)
    (hD : ∀ d ∈ ds, SectionsOrdinary d.template) :
    runCommand .script (withIds sectionIds) (c50Args [] false []) (checkWith [] [] S (sectionBehaviour msg) name (markAll default)) (fun _ => .ok ()) ds = 0 ↔
      ∀ d ∈ ds, WellMade d.template ∧ SectionsFormed d.template := by
  have hready := plain_ready (ids := sectionIds) (beh := sectionBehaviour msg) (ds := ds) (by decide) (fun r t => rfl) hd
  rw [C149_status hready (section_behave msg)
    (by
      intro c hc
      rcases List.mem_append.1 hc with hc | hc
      · exact tells_on (C147_tells msg c hc) SectionsOrdinary
      · exact C149_tells msg c hc)
    (by
      intro r hr
      obtain ⟨i, hi, rfl⟩ := List.mem_map.1 hr
      rw [← section_ids msg] at hi
      obtain ⟨c, hc, rfl⟩ := List.mem_map.1 hi
      exact ⟨c, hc, rfl⟩)
    (by
      intro r hr x hx
      obtain ⟨i, hi, rfl⟩ := List.mem_map.1 hr
      obtain ⟨c, cs, e, hcs⟩ := severity_ids (ids := sectionIds) (by decide) i hi
      rcases hcs with rfl | rfl
      · exact .inr (.inr ⟨'E', cs, by rw [hx]; exact e, .inl rfl⟩)
      · exact .inr (.inl ⟨'W', cs, by rw [hx]; exact e, .inl rfl⟩))
    (fun d h => by obtain ⟨kv, top, ht⟩ := (hd d h).object; rw [ht]; rfl) (by decide)
    (by
      intro d h a ha
      rw [(hd d h).args] at ha
      cases ha
      intro n _
      rfl)
    (fun d h => (hd d h).directives)
    (fun d h cfg hc => by cases plain_configured (hd d h).args hc; exact ⟨[], rfl⟩)
    (fun r r' e => by unfold sectionBehaviour; rw [e]) hD]
  refine forall₂_congr fun d h => ?_
  rw [← wellMade_iff msg, ← sectionsFormed_iff msg, ← List.forall_mem_append]
  refine forall₂_congr fun c hc => ⟨fun hr => hr ?_, fun hr _ => hr⟩
  have hi : c.id ∈ sectionIds := by rw [← section_ids msg]; exact List.mem_map_of_mem hc
  refine rules_inForce hi (hd d h).args ?_
  have : ∀ i ∈ sectionIds, isRuleEnabled { incl := addDefaults [.str "W", .str "E"] } { id := i } = .ok true := by decide
  exact this _ hi

/-- a template with a parameter, a resource and an output of the given name -/
def sectionsWith (output : String) : Val :=
  .dict [(.str "Parameters", .dict [(.str "P", .dict [(.str "Type", .str "String")])]),
    (.str "Resources", .dict [(.str "B", .dict [(.str "Type", .str "AWS::S3::Bucket")])]),
    (.str "Outputs", .dict [(.str output, .dict [(.str "Value", .dict [(.str "Ref", .str "P")])])])]

theorem sectionsWith_read {output : String} (h : output ∈ ["O", "O-1"]) : ReadPlain ⟨sectionsWith output, []⟩ := by
  simp only [List.mem_cons, List.not_mem_nil, or_false] at h
  rcases h with rfl | rfl <;>
    exact ⟨rfl, by simp [sectionsWith, Val.WF, Val.WFDict], ⟨_, _, rfl⟩, by decide +kernel, by decide +kernel⟩

theorem sectionsWith_ordinary (output : String) : SectionsOrdinary (sectionsWith output) := by
  intro s _ v hat
  have hm := at_dict_one.1 hat
  simp only [List.mem_cons, Prod.mk.injEq, List.not_mem_nil, or_false] at hm
  rcases hm with ⟨-, rfl⟩ | ⟨-, rfl⟩ | ⟨-, rfl⟩ <;> refine ⟨_, rfl, fun k w hk => ?_⟩ <;> cases List.mem_singleton.1 hk <;> exact ⟨⟨_, rfl⟩, _, rfl⟩

example : (WellMade (sectionsWith "O") ∧ SectionsFormed (sectionsWith "O")) ∧ ¬ (WellMade (sectionsWith "O-1") ∧ SectionsFormed (sectionsWith "O-1")) := by
  have key : ∀ output ∈ ["O", "O-1"], ((WellMade (sectionsWith output) ∧ SectionsFormed (sectionsWith output)) ↔
      runCommand .script (withIds sectionIds) (c50Args [] false [])
        (checkWith [] [] ⟨[], []⟩ (sectionBehaviour fun _ => "m") (fun _ => "t") (markAll default)) (fun _ => .ok ()) [⟨sectionsWith output, []⟩] = 0) := by
    intro output hp
    rw [C149_sections ⟨[], []⟩ (fun _ => "t") (fun _ => "m") (ds := [⟨sectionsWith output, []⟩]) (fun d h => by cases List.mem_singleton.1 h; exact sectionsWith_read hp)
      (fun d h => by cases List.mem_singleton.1 h; exact sectionsWith_ordinary _)]
    simp
  exact ⟨(key "O" (by simp)).2 (by decide +kernel), fun h => absurd ((key "O-1" (by simp)).1 h) (by decide +kernel)⟩

end CfnLint
