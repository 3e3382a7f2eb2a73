import Verif.Props.ExactShaped
import Verif.Props.Limits
import Verif.Props.CondGrammar
import Verif.Props.Mappings
import Mathlib.Data.List.Perm.Subperm
/-
Property C150: status 0 spelt out for thirty-nine rules: those of C149 with the rules on the numbers and lengths of names, on the length of the
description, on the forms of conditions and on the forms of mappings.
-/
namespace CfnLint

open Spec

namespace Spec

/-- the sections are ordinary, conditions are an object and the description is a text -/
structure OrdinaryTemplate (t : Val) : Prop where
  sections : SectionsOrdinary t
  conditions : ∀ v, At t [.str "Conditions"] v → ∃ cs, v = .dict cs
  description : ∀ v, At t [.str "Description"] v → ∃ s, v = .str s

/-- there are at most `limit` entries in the section -/
def AtMost (section_ : String) (limit : Nat) (t : Val) : Prop :=
  ∀ names : List Key, names.Nodup → (∀ k ∈ names, Counts t section_ k) → names.length ≤ limit

/-- the names in the section have at most 255 characters -/
def NamesShort (section_ : String) (t : Val) : Prop := ∀ n, HasEntry t section_ (.str n) → n.toList.length ≤ 255

/-- the description has at most 1024 characters -/
def DescriptionShort (t : Val) : Prop := ∀ s, At t [.str "Description"] (.str s) → s.toList.length ≤ 1024

/-- a call of a function of conditions -/
def ConditionCall (v : Val) : Prop := ∃ f ∈ grammarFunctions, ∃ w, v = .dict [(.str f, w)]

/-- every condition is a call -/
def ConditionsCalls (t : Val) : Prop := ∀ k v, At t [.str "Conditions", k] v → ConditionCall v

/-- in conditions the function has lists of calls, as many as it takes -/
def ListCalls (fn : String) (t : Val) : Prop :=
  ∀ q v, At t (.str "Conditions" :: q ++ [.str fn]) v → ∃ xs, v = .list xs ∧ SizeOk fn xs.length ∧ ∀ x ∈ xs, ConditionCall x

/-- the mappings are maps of maps of values -/
def MapsOfMaps (t : Val) : Prop :=
  ∀ m v, At t [.str "Mappings", m] v → ∃ kvs, v = .dict kvs ∧ ∀ k w, (k, w) ∈ kvs → ∃ l, w = .dict l ∧ ∀ k' x, (k', x) ∈ l → MapValue x

/-- a template that the fourteen rules on limits, conditions and mappings have nothing to say about -/
structure WithinBounds (t : Val) : Prop where
  parameters : AtMost "Parameters" 200 t
  resources : AtMost "Resources" 500 t
  outputs : AtMost "Outputs" 200 t
  mappings : AtMost "Mappings" 200 t
  parameterNames : NamesShort "Parameters" t
  resourceNames : NamesShort "Resources" t
  outputNames : NamesShort "Outputs" t
  mappingNames : NamesShort "Mappings" t
  description : DescriptionShort t
  conditions : ConditionsCalls t
  ands : ListCalls "Fn::And" t
  nots : ListCalls "Fn::Not" t
  ors : ListCalls "Fn::Or" t
  maps : MapsOfMaps t

end Spec

theorem tells_of_reports {place : LimitMatch → Path} {msg : LimitMatch → String} {r : PyM (List LimitMatch)} {P : List Val → Prop} (hok : ∃ ms, r = .ok ms)
    (h : ∀ path, Reports r path ↔ P path) :
    (withText place msg r = .ok [] ∨ ∃ s, withText place msg r = .error (.templateAttributeError s)) ↔ ∀ p, ¬ P p := by
  obtain ⟨ms, rfl⟩ := hok
  refine (tells_of_exact ⟨ms, rfl, fun m => Iff.rfl⟩).trans ⟨fun hn p hp => ?_, fun hn m hm => hn m.path ((h _).1 ⟨ms, rfl, m, hm, rfl⟩)⟩
  obtain ⟨ms', e, m, hm, -⟩ := (h p).2 hp
  cases e
  exact hn m hm

theorem ordinary_named {top : List (Key × Val)} (hw : (Val.dict top).WF) (h : SectionsOrdinary (.dict top)) {s : String}
    (hs : s ∈ ["Parameters", "Resources", "Mappings", "Outputs"]) : Named (.dict top) s := by
  refine ⟨⟨top, rfl⟩, fun v hv => ?_⟩
  obtain ⟨d, e, hm⟩ := (look_one hw).1 hv
  cases e
  obtain ⟨kvs, rfl, hk⟩ := h s hs v (at_dict_one.2 hm)
  exact ⟨kvs, rfl, fun kv hkv => (hk kv.1 kv.2 hkv).1⟩

theorem sect_listed (s : Sect) : s.key ∈ ["Parameters", "Resources", "Mappings", "Outputs"] := by cases s <;> simp [Sect.key]

theorem numbers_tell (s : Sect) (place : LimitMatch → Path) (msg : LimitMatch → String) :
    WholeCheck.TellsOn OrdinaryTemplate ⟨"", fun t => withText place msg (numberLimit t s), AtMost s.key (numberMax s)⟩ := by
  intro top hw hD
  obtain ⟨names, h1, h2, h3⟩ := count_section hw (ordinary_named hw hD.sections (sect_listed s))
  have hl : numberLimit (.dict top) s = .ok (if exceeds (numberMax s) names.length then
      [⟨[.str s.key], limitText ("The number of " ++ s.key) "exceeds" "" names.length (numberMax s)⟩] else []) := by
    rw [numberLimit, h3]
  refine (tells_of_exact ⟨_, hl, fun m => Iff.rfl⟩).trans ⟨fun h ns hnd hc => ?_, fun h m hm => ?_⟩
  · have : ¬ exceeds (numberMax s) names.length = true := by
      intro he
      rw [if_pos he] at h
      exact h _ List.mem_cons_self
    have hle := (List.Nodup.subperm hnd fun k hk => (h2 k).2 (hc k hk)).length_le
    simp only [exceeds, decide_eq_true_eq] at this
    omega
  · have := h names h1 fun k hk => (h2 k).1 hk
    rw [if_neg (by simp only [exceeds, decide_eq_true_eq]; omega)] at hm
    cases hm

theorem lengths_tell (s : Sect) (place : LimitMatch → Path) (msg : LimitMatch → String) :
    WholeCheck.TellsOn OrdinaryTemplate ⟨"", fun t => withText place msg (nameLimit t s), NamesShort s.key⟩ := by
  intro top hw hD
  obtain ⟨h1, ms, h2, -⟩ := C45_name_limit_partial (s := s) (ordinary_named hw hD.sections (sect_listed s))
  refine (tells_of_reports ⟨ms, h2⟩ h1).trans ⟨fun h n hn => ?_, ?_⟩
  · by_contra hc
    exact h _ ⟨n, hn, by simp only [Over, nameLength]; omega, rfl⟩
  · rintro h p ⟨n, hn, ho, -⟩
    have := h n hn
    simp only [Over, nameLength] at ho
    omega

theorem description_tells (place : LimitMatch → Path) (msg : LimitMatch → String) :
    WholeCheck.TellsOn OrdinaryTemplate ⟨"", fun t => withText place msg (templateDescriptionLimit overTest t), DescriptionShort⟩ := by
  intro top hw hD
  cases hl : look (.dict top) [.str "Description"] with
  | none =>
    have hno : ∀ v, ¬ At (.dict top) [.str "Description"] v := by
      intro v hat
      have := (look_one hw).2 ⟨top, rfl, at_dict_one.1 hat⟩
      rw [hl] at this
      cases this
    have hr : templateDescriptionLimit overTest (.dict top) = .ok [] := by
      have : dlookup (Key.str "Description") top = none := by
        simp only [look] at hl
        cases hk : dlookup (Key.str "Description") top with
        | none => rfl
        | some v => rw [hk] at hl; simp at hl
      unfold templateDescriptionLimit
      simp only [Val.getD, this]
      rfl
    refine ⟨fun _ s hs => absurd hs (hno _), fun _ => .inl ?_⟩
    simp only [hr]
    rfl
  | some v =>
    obtain ⟨d, e, hm⟩ := (look_one hw).1 hl
    cases e
    obtain ⟨s, rfl⟩ := hD.description v (at_dict_one.2 hm)
    have hok : ∃ ms, templateDescriptionLimit overTest (.dict top) = .ok ms := by
      have : dlookup (Key.str "Description") top = some (.str s) := by
        simp only [look] at hl
        cases hk : dlookup (Key.str "Description") top with
        | none => rw [hk] at hl; cases hl
        | some v => rw [hk] at hl; simpa [look] using hl
      unfold templateDescriptionLimit
      simp only [Val.getD, this]
      exact ⟨_, rfl⟩
    refine (tells_of_reports hok fun p => (C45_template_description hl p).1).trans ⟨fun h s' hs' => ?_, ?_⟩
    · have := (look_one hw).2 ⟨top, rfl, at_dict_one.1 hs'⟩
      rw [hl] at this
      cases this
      by_contra hc
      exact h _ ⟨by simp only [Over]; omega, rfl⟩
    · rintro h p ⟨ho, -⟩
      have := h s (at_dict_one.2 hm)
      simp only [Over] at ho
      omega

theorem lists_tell {fn : String} (hfn : fn ≠ "Conditions") (msg : Path → String) :
    WholeCheck.TellsOn OrdinaryTemplate ⟨"", fun t => withText id msg (.ok (conditionListRule fn t (.dict []))), ListCalls fn⟩ := by
  intro top hw hD
  refine (tells_of_exact ⟨_, rfl, fun p => C67_lists hw hfn p⟩).trans ⟨fun h q v hat => ?_, ?_⟩
  · by_cases hx : ∃ xs, v = .list xs ∧ SizeOk fn xs.length
    · obtain ⟨xs, rfl, hs⟩ := hx
      refine ⟨xs, rfl, hs, fun x hx => ?_⟩
      obtain ⟨i, hi⟩ := List.mem_iff_getElem?.1 hx
      by_cases hf : ∃ k w, x = .dict [(k, w)]
      · obtain ⟨k, w, rfl⟩ := hf
        by_contra hc
        refine h _ (.function hat hs hi fun f hf e => hc ?_)
        subst e
        exact ⟨f, hf, w, rfl⟩
      · exact absurd (.form hat hs hi fun k w e => hf ⟨k, w, e⟩) (h _)
    · exact absurd (.size hat fun xs e hs => hx ⟨xs, e, hs⟩) (h _)
  · intro h p hb
    cases hb with
    | size hat hn =>
      obtain ⟨xs, e, hs, -⟩ := h _ _ hat
      exact hn xs e hs
    | form hat hs hi hn =>
      obtain ⟨xs, e, -, hx⟩ := h _ _ hat
      cases e
      obtain ⟨f, -, w, e⟩ := hx _ (List.mem_of_getElem? hi)
      exact hn _ _ e
    | function hat hs hi hn =>
      obtain ⟨xs, e, -, hx⟩ := h _ _ hat
      cases e
      obtain ⟨f, hf, w, e⟩ := hx _ (List.mem_of_getElem? hi)
      cases e
      exact hn f hf rfl

/-- the fourteen rules: LimitNumber.py and LimitName.py of parameters, resources, outputs and mappings, templates/LimitDescription.py,
conditions/Configuration.py, And.py, Not.py and Or.py, and mappings/Configuration.py; the messages are arbitrary -/
def bounds (msg : Path → String) : List WholeCheck :=
  [⟨"E2010", fun t => withText (fun m => keysOf m.path) (fun m => m.message) (numberLimit t .parameters), AtMost "Parameters" 200⟩,
   ⟨"E3010", fun t => withText (fun m => keysOf m.path) (fun m => m.message) (numberLimit t .resources), AtMost "Resources" 500⟩,
   ⟨"E6010", fun t => withText (fun m => keysOf m.path) (fun m => m.message) (numberLimit t .outputs), AtMost "Outputs" 200⟩,
   ⟨"E7010", fun t => withText (fun m => keysOf m.path) (fun m => m.message) (numberLimit t .mappings), AtMost "Mappings" 200⟩,
   ⟨"E2011", fun t => withText (fun m => keysOf m.path) (fun m => m.message) (nameLimit t .parameters), NamesShort "Parameters"⟩,
   ⟨"E3011", fun t => withText (fun m => keysOf m.path) (fun m => m.message) (nameLimit t .resources), NamesShort "Resources"⟩,
   ⟨"E6011", fun t => withText (fun m => keysOf m.path) (fun m => m.message) (nameLimit t .outputs), NamesShort "Outputs"⟩,
   ⟨"E7011", fun t => withText (fun m => keysOf m.path) (fun m => m.message) (nameLimit t .mappings), NamesShort "Mappings"⟩,
   ⟨"E1003", fun t => withText (fun m => keysOf m.path) (fun m => m.message) (templateDescriptionLimit overTest t), DescriptionShort⟩,
   ⟨"E8001", fun t => withText id msg (configurationRule t), ConditionsCalls⟩,
   ⟨"E8004", fun t => withText id msg (.ok (conditionListRule "Fn::And" t (.dict []))), ListCalls "Fn::And"⟩,
   ⟨"E8005", fun t => withText id msg (.ok (conditionListRule "Fn::Not" t (.dict []))), ListCalls "Fn::Not"⟩,
   ⟨"E8006", fun t => withText id msg (.ok (conditionListRule "Fn::Or" t (.dict []))), ListCalls "Fn::Or"⟩,
   ⟨"E7001", fun t => withText id msg (mappingsRule t), MapsOfMaps⟩]

/-- **C150** Among ordinary templates, each of the fourteen rules tells exactly when a template is not right for it. -/
theorem C150_tells (msg : Path → String) : ∀ c ∈ bounds msg, c.TellsOn OrdinaryTemplate := by
  intro c hc
  simp only [bounds, List.mem_cons, List.not_mem_nil, or_false] at hc
  rcases hc with rfl | rfl | rfl | rfl | rfl | rfl | rfl | rfl | rfl | rfl | rfl | rfl | rfl | rfl <;> intro top hw hD
  · exact numbers_tell .parameters _ _ top hw hD
  · exact numbers_tell .resources _ _ top hw hD
  · exact numbers_tell .outputs _ _ top hw hD
  · exact numbers_tell .mappings _ _ top hw hD
  · exact lengths_tell .parameters _ _ top hw hD
  · exact lengths_tell .resources _ _ top hw hD
  · exact lengths_tell .outputs _ _ top hw hD
  · exact lengths_tell .mappings _ _ top hw hD
  · exact description_tells _ _ top hw hD
  · refine (tells_of_exact (C67_conditions hw ⟨top, rfl⟩ hD.conditions)).trans ⟨fun h k v hat => ?_, ?_⟩
    · by_cases hf : ∃ x w, v = .dict [(x, w)]
      · obtain ⟨x, w, rfl⟩ := hf
        by_contra hc
        refine h _ (.function hat fun f hf e => hc ?_)
        subst e
        exact ⟨f, hf, w, rfl⟩
      · exact absurd (.form hat fun x w e => hf ⟨x, w, e⟩) (h _)
    · intro h p hb
      cases hb with
      | form hat hn =>
        obtain ⟨f, -, w, e⟩ := h _ _ hat
        exact hn _ _ e
      | function hat hn =>
        obtain ⟨f, hf, w, e⟩ := h _ _ hat
        cases e
        exact hn f hf rfl
  · exact lists_tell (by decide) msg top hw hD
  · exact lists_tell (by decide) msg top hw hD
  · exact lists_tell (by decide) msg top hw hD
  · refine (tells_of_exact (C69_mappings hw ⟨top, rfl⟩ (ordinary_dict hD.sections (by simp)))).trans ⟨fun h m v hat => ?_, ?_⟩
    · by_cases hv : ∃ kvs, v = .dict kvs
      · obtain ⟨kvs, rfl⟩ := hv
        obtain ⟨a, ha, hm⟩ := at_cons.1 hat
        refine ⟨kvs, rfl, fun k w hk => ?_⟩
        have hat2 : At (.dict top) [.str "Mappings", m, k] w := at_cons.2 ⟨a, ha, at_cons.2 ⟨_, hm, at_dict_one.2 hk⟩⟩
        by_cases hl : ∃ l, w = .dict l
        · obtain ⟨l, rfl⟩ := hl
          refine ⟨l, rfl, fun k' x hx => ?_⟩
          by_contra hc
          exact h _ (.value hat hat2 (at_cons.2 ⟨a, ha, at_cons.2 ⟨_, hm, at_cons.2 ⟨_, at_dict_one.2 hk, at_dict_one.2 hx⟩⟩⟩) hc)
        · exact absurd (.first hat hat2 fun l e => hl ⟨l, e⟩) (h _)
      · exact absurd (.map hat fun kvs e => hv ⟨kvs, e⟩) (h _)
    · intro h p hb
      cases hb with
      | map hat hn =>
        obtain ⟨kvs, e, -⟩ := h _ _ hat
        exact hn kvs e
      | first _ hat hn =>
        obtain ⟨a, ha, hat⟩ := at_cons.1 hat
        obtain ⟨b, hb, hat⟩ := at_cons.1 hat
        obtain ⟨kvs, rfl, hk⟩ := h _ _ (at_cons.2 ⟨a, ha, hb⟩)
        obtain ⟨l, e, -⟩ := hk _ _ (at_dict_one.1 hat)
        exact hn l e
      | value _ _ hat hn =>
        obtain ⟨a, ha, hat⟩ := at_cons.1 hat
        obtain ⟨b, hb, hat⟩ := at_cons.1 hat
        obtain ⟨c, hc, hat⟩ := at_cons.1 hat
        obtain ⟨kvs, rfl, hk⟩ := h _ _ (at_cons.2 ⟨a, ha, hb⟩)
        obtain ⟨l, rfl, hl⟩ := hk _ _ (at_dict_one.1 hc)
        exact hn (hl _ _ (at_dict_one.1 hat))

/-- the thirty-nine rules -/
def boundsChecks (msg : Path → String) : List WholeCheck := (fourteen msg ++ eleven msg) ++ bounds msg

/-- the thirty-nine rules and nothing else -/
def boundsBehaviour (msg : Path → String) (r : RuleObj) : Behaviour :=
  { whole := ((boundsChecks msg).find? (fun c => c.id == r.info.id)).map WholeCheck.rule }

/-- the ids of the thirty-nine rules -/
def boundsIds : List String :=
  sectionIds ++ ["E2010", "E3010", "E6010", "E7010", "E2011", "E3011", "E6011", "E7011", "E1003", "E8001", "E8004", "E8005", "E8006", "E7001"]

theorem bounds_ids (msg : Path → String) : (boundsChecks msg).map WholeCheck.id = boundsIds := rfl

theorem find_first {l : List WholeCheck} (hn : (l.map WholeCheck.id).Nodup) {c : WholeCheck} (hc : c ∈ l) : l.find? (fun d => d.id == c.id) = some c := by
  induction l with
  | nil => cases hc
  | cons d l ih =>
    rw [List.map_cons, List.nodup_cons] at hn
    rcases List.mem_cons.1 hc with rfl | hc
    · simp
    · have hne : d.id ≠ c.id := fun e => hn.1 (e ▸ List.mem_map_of_mem hc)
      rw [List.find?_cons_of_neg (by simpa using hne)]
      exact ih hn.2 hc

theorem bounds_behave (msg : Path → String) : BehaveAs (boundsChecks msg) (boundsBehaviour msg) := by
  intro r c hc hid
  refine ⟨?_, rfl, rfl⟩
  simp only [boundsBehaviour, hid]
  rw [find_first (by rw [bounds_ids]; decide) hc]
  rfl

theorem withinBounds_iff (msg : Path → String) (t : Val) : (∀ c ∈ bounds msg, c.right t) ↔ WithinBounds t := by
  simp only [bounds, List.forall_mem_cons]
  constructor
  · rintro ⟨h1, h2, h3, h4, h5, h6, h7, h8, h9, h10, h11, h12, h13, h14, -⟩
    exact ⟨h1, h2, h3, h4, h5, h6, h7, h8, h9, h10, h11, h12, h13, h14⟩
  · rintro ⟨h1, h2, h3, h4, h5, h6, h7, h8, h9, h10, h11, h12, h13, h14⟩
    exact ⟨h1, h2, h3, h4, h5, h6, h7, h8, h9, h10, h11, h12, h13, h14, fun _ h => by cases h⟩

/-- **C150** With the thirty-nine rules as they stand, and ordinary templates that were read and configure nothing, the script ends with status 0
exactly if all templates are well made, their sections well formed, and all of it within bounds. -/
theorem C150_bounds (S : TypeSpecs) (name : Val → String) (msg : Path → String) {ds : List Decoded} (hd : ∀ d ∈ ds, ReadPlain d)
    (hD : ∀ d ∈ ds, OrdinaryTemplate d.template) :
    runCommand .script (withIds boundsIds) (c50Args [] false []) (checkWith [] [] S (boundsBehaviour msg) name (markAll default)) (fun _ => .ok ()) ds = 0 ↔
      ∀ d ∈ ds, WellMade d.template ∧ SectionsFormed d.template ∧ WithinBounds d.template := by
  have hready := plain_ready (ids := boundsIds) (beh := boundsBehaviour msg) (ds := ds) (by decide) (fun r t => rfl) hd
  rw [C149_status hready (bounds_behave msg)
    (by
      intro c hc
      rcases List.mem_append.1 hc with hc | hc
      · rcases List.mem_append.1 hc with hc | hc
        · exact tells_on (C147_tells msg c hc) OrdinaryTemplate
        · exact fun top hw hD => C149_tells msg c hc top hw hD.sections
      · exact C150_tells msg c hc)
    (by
      intro r hr
      obtain ⟨i, hi, rfl⟩ := List.mem_map.1 hr
      rw [← bounds_ids msg] at hi
      obtain ⟨c, hc, rfl⟩ := List.mem_map.1 hi
      exact ⟨c, hc, rfl⟩)
    (by
      intro r hr x hx
      obtain ⟨i, hi, rfl⟩ := List.mem_map.1 hr
      obtain ⟨c, cs, e, hcs⟩ := severity_ids (ids := boundsIds) (by decide) i hi
      rcases hcs with rfl | rfl
      · exact .inr (.inr ⟨'E', cs, by rw [hx]; exact e, .inl rfl⟩)
      · exact .inr (.inl ⟨'W', cs, by rw [hx]; exact e, .inl rfl⟩))
    (fun d h => by obtain ⟨kv, top, ht⟩ := (hd d h).object; rw [ht]; rfl) (by decide)
    (by
      intro d h a ha
      rw [(hd d h).args] at ha
      cases ha
      intro n _
      rfl)
    (fun d h => (hd d h).directives)
    (fun d h cfg hc => by cases plain_configured (hd d h).args hc; exact ⟨[], rfl⟩)
    (fun r r' e => by unfold boundsBehaviour; rw [e]) hD]
  refine forall₂_congr fun d h => ?_
  rw [← wellMade_iff msg, ← sectionsFormed_iff msg, ← withinBounds_iff msg, ← and_assoc, ← List.forall_mem_append, ← List.forall_mem_append]
  refine forall₂_congr fun c hc => ⟨fun hr => hr ?_, fun hr _ => hr⟩
  have hi : c.id ∈ boundsIds := by rw [← bounds_ids msg]; exact List.mem_map_of_mem hc
  refine rules_inForce hi (hd d h).args ?_
  have : ∀ i ∈ boundsIds, isRuleEnabled { incl := addDefaults [.str "W", .str "E"] } { id := i } = .ok true := by decide
  exact this _ hi

/-- a template with a condition, given by a function -/
def boundsWith (fn : String) : Val :=
  .dict [(.str "Description", .str "a bucket"), (.str "Conditions", .dict [(.str "C", .dict [(.str fn, .list [.str "a", .str "b"])])]),
    (.str "Mappings", .dict [(.str "M", .dict [(.str "k", .dict [(.str "l", .int 1)])])]),
    (.str "Resources", .dict [(.str "B", .dict [(.str "Type", .str "AWS::S3::Bucket")])])]

theorem boundsWith_read {fn : String} (h : fn ∈ ["Fn::Equals", "Fn::Same"]) : ReadPlain ⟨boundsWith fn, []⟩ := by
  simp only [List.mem_cons, List.not_mem_nil, or_false] at h
  rcases h with rfl | rfl <;>
    exact ⟨rfl, by simp [boundsWith, Val.WF, Val.WFDict, Val.WFList], ⟨_, _, rfl⟩, by decide +kernel, by decide +kernel⟩

theorem boundsWith_ordinary (fn : String) : OrdinaryTemplate (boundsWith fn) := by
  refine ⟨fun s hs v hat => ?_, fun v hat => ?_, fun v hat => ?_⟩ <;>
    (have hm := at_dict_one.1 hat; simp only [List.mem_cons, Prod.mk.injEq, List.not_mem_nil, or_false] at hm)
  · rcases hm with ⟨e, rfl⟩ | ⟨e, rfl⟩ | ⟨-, rfl⟩ | ⟨-, rfl⟩
    · cases e; simp at hs
    · cases e; simp at hs
    · refine ⟨_, rfl, fun k w hk => ?_⟩; cases List.mem_singleton.1 hk; exact ⟨⟨_, rfl⟩, _, rfl⟩
    · refine ⟨_, rfl, fun k w hk => ?_⟩; cases List.mem_singleton.1 hk; exact ⟨⟨_, rfl⟩, _, rfl⟩
  · rcases hm with ⟨e, rfl⟩ | ⟨e, rfl⟩ | ⟨e, rfl⟩ | ⟨e, rfl⟩ <;> first | exact ⟨_, rfl⟩ | simp at e
  · rcases hm with ⟨e, rfl⟩ | ⟨e, rfl⟩ | ⟨e, rfl⟩ | ⟨e, rfl⟩ <;> first | exact ⟨_, rfl⟩ | simp at e

example : (WellMade (boundsWith "Fn::Equals") ∧ SectionsFormed (boundsWith "Fn::Equals") ∧ WithinBounds (boundsWith "Fn::Equals")) ∧
    ¬ (WellMade (boundsWith "Fn::Same") ∧ SectionsFormed (boundsWith "Fn::Same") ∧ WithinBounds (boundsWith "Fn::Same")) := by
  have key : ∀ fn ∈ ["Fn::Equals", "Fn::Same"], ((WellMade (boundsWith fn) ∧ SectionsFormed (boundsWith fn) ∧ WithinBounds (boundsWith fn)) ↔
      runCommand .script (withIds boundsIds) (c50Args [] false [])
        (checkWith [] [] ⟨[], []⟩ (boundsBehaviour fun _ => "m") (fun _ => "t") (markAll default)) (fun _ => .ok ()) [⟨boundsWith fn, []⟩] = 0) := by
    intro fn hp
    rw [C150_bounds ⟨[], []⟩ (fun _ => "t") (fun _ => "m") (ds := [⟨boundsWith fn, []⟩]) (fun d h => by cases List.mem_singleton.1 h; exact boundsWith_read hp)
      (fun d h => by cases List.mem_singleton.1 h; exact boundsWith_ordinary _)]
    simp
  exact ⟨(key "Fn::Equals" (by simp)).2 (by decide +kernel), fun h => absurd ((key "Fn::Same" (by simp)).1 h) (by decide +kernel)⟩

end CfnLint
