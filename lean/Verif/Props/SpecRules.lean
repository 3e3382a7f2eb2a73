import Verif.Model.SpecRules
import Verif.Props.Lint
import Verif.Props.Required
import Verif.Props.PrimType
import Verif.Props.ValueSpecs
/-
Property C128: what status 0 says of the properties of the resources, when the rules of the specification are in force.
-/
namespace CfnLint

open Spec

namespace Spec

/-- a run of the script that ended with status 0: under the conditions of C127 on the rules (every rule can be set up, no id begins with
another letter than those of the severities), on the configuration (E0002 is in force, errors of decoding are not ignored) and on the
templates (no resource asks to ignore anything) -/
structure CleanRun (objs : List RuleObj) (args : Sources) (all : List String) (regions : List Val) (S : TypeSpecs)
    (beh : RuleObj → Behaviour) (name : Val → String) (mark : Val → MVal) (print : List Match → PyM Unit) (ds : List Decoded) : Prop where
  marks : ∀ t, (mark t).erase = t
  ids : ∀ r ∈ objs, ∀ x : Match, x.rule = r.info → Levelled x
  templates : ∀ d ∈ ds, d.errors = [] → d.template.WF ∧ d.template.truthy = true ∧ ∃ top, d.template = .dict top
  notIgnored : ignoreBadTemplate { args with template := [] } = .ok false
  quietly : ∀ d ∈ ds, ∀ a, setTemplateArgs d.template = .ok a → quiet a
  levelled : ∀ d ∈ ds, ∀ m ∈ d.errors, Levelled m
  noDirectives : ∀ d ∈ ds, getDirectives (mark d.template) = .ok []
  settable : ∀ d ∈ ds, ∀ r, (beh r).setUp d.template = .ok ()
  failuresShown : ∀ d ∈ ds, ∀ cfg, ConfiguredBy args d.template cfg →
    isRuleEnabled cfg { id := "E0002" } = .ok true ∧ ∃ mand : List String, cfg.mandatory = mand.map .str
  status : runCommand .script objs args (checkWith all regions S beh name mark) print ds = 0

/-- the rule is loaded, and in force for the template -/
def InForce (objs : List RuleObj) (args : Sources) (t : Val) (info : RuleInfo) : Prop :=
  info ∈ objs.map RuleObj.info ∧ ∀ cfg, ConfiguredBy args t cfg → isRuleEnabled cfg info = .ok true

/-- the objects among the properties that a specification knows the type of: the properties of a resource (`true`), and the
objects at the places below that the declarations give (`false`) -/
inductive TypedObject (U : RegionSpec) (t : Val) : Bool → String → Path → List (Key × Val) → Prop where
  | resource {name rt props} : ResourceWith t name rt props → TypedObject U t true rt [.str "Resources", name, .str "Properties"] props
  | below {name rt props ps ty d p kvs} : ResourceWith t name rt props → dlookup rt (traversed U).resourceTypes = some ps →
      typeOf (traversed U) rt ty = some d →
      ObjectOf (traversed U) rt ps (.dict props) [.str "Resources", name, .str "Properties"] ty p (.dict kvs) →
      TypedObject U t false (registeredName rt ty) p kvs

/-- the declaration of a type, of resources or of properties -/
def DeclaredIn (R : RegionSpec) (top : Bool) (ty : String) (spec : Val) : Prop :=
  dlookup ty (if top = true then R.resourceTypes else R.propertyTypes) = some spec

/-- the specification requires the property -/
def RequiredIn (spec : Val) (n : String) : Prop :=
  ∃ ps d r, spec.get? "Properties" = some (.dict ps) ∧ (Key.str n, Val.dict d) ∈ ps ∧ dlookup (Key.str "Required") d = some r ∧
    r.truthy = true

end Spec

/-- where the traversal follows the declarations, C44 -/
def FollowedIn (U : RegionSpec) (t : Val) : Prop :=
  ∀ name rt props ps, ResourceWith t name rt props → dlookup rt (traversed U).resourceTypes = some ps →
    Sane (traversed U) rt ps ∧ Followed (traversed U) rt ps (.dict props) [.str "Resources", name, .str "Properties"]

section Clean

variable {objs : List RuleObj} {args : Sources} {all : List String} {regions : List Val} {S : TypeSpecs}
  {beh : RuleObj → Behaviour} {name : Val → String} {mark : Val → MVal} {print : List Match → PyM Unit} {ds : List Decoded}

/-- a rule in force found nothing -/
theorem clean_found (h : CleanRun objs args all regions S beh name mark print ds) {d : Decoded} (hd : d ∈ ds) {info : RuleInfo}
    (hf : InForce objs args d.template info) : ∃ r, r.info = info ∧ FoundNothing S (beh r) d.template := by
  obtain ⟨_, cfg, hcb, hr⟩ := C127_clean_partial objs args all regions S beh name mark print ds h.marks h.ids h.templates h.notIgnored
    h.quietly h.levelled h.noDirectives h.settable h.failuresShown h.status d hd
  obtain ⟨r, hrm, hri⟩ := List.mem_map.1 hf.1
  obtain ⟨r', hi, hn⟩ := hr r hrm (by rw [hri]; exact hf.2 cfg hcb)
  exact ⟨r', by rw [hi, hri], hn⟩

/-- the templates of a clean run are well formed -/
theorem clean_wf (h : CleanRun objs args all regions S beh name mark print ds) {d : Decoded} (hd : d ∈ ds) : d.template.WF := by
  obtain ⟨he, _⟩ := C127_clean_partial objs args all regions S beh name mark print ds h.marks h.ids h.templates h.notIgnored
    h.quietly h.levelled h.noDirectives h.settable h.failuresShown h.status d hd
  exact (h.templates d hd he).1

theorem resourceWith_wf {t : Val} (hw : t.WF) {n : Key} {rt : String} {props : List (Key × Val)} (h : ResourceWith t n rt props) :
    (Val.dict props).WF := by
  obtain ⟨top, rs, kvs, rfl, h1, h2, _, h3⟩ := h
  exact at_wf (.key h1 (.key h2 (.key (dlookup_mem h3) .here))) hw

/-- a rule of the specification was called on every object of a declared type, with the declaration of the type -/
theorem bySpec_found {U R : RegionSpec} {check : Bool → String → Val → Val → Path → PyM (List (Path × String))} {t : Val} (hw : t.WF)
    (hn : FoundNothing (traversed U) (bySpec R check) t) (hfo : FollowedIn U t) {top : Bool} {ty : String} {p : Path}
    {kvs : List (Key × Val)} (ho : TypedObject U t top ty p kvs) {spec : Val} (hd : DeclaredIn R top ty spec) :
    check top ty spec (.dict kvs) p = .ok [] ∨ ∃ s, check top ty spec (.dict kvs) p = .error (.templateAttributeError s) := by
  cases ho with
  | resource h =>
    have hd' : dlookup ty R.resourceTypes = some spec := hd
    have := hn _ (.properties (f := fun _ obj ty path => check true ty ((dlookup ty R.resourceTypes).getD .none) obj path) rfl h
      (List.mem_map.2 ⟨_, dlookup_mem hd', rfl⟩))
    simp only [hd', Option.getD_some] at this
    exact this
  | below h hps hd0 ho =>
    have hd' : dlookup _ R.propertyTypes = some spec := hd
    obtain ⟨hs, hf⟩ := hfo _ _ _ _ h hps
    have := hn _ (.subProperties (f := fun _ obj ty path => check false ty ((dlookup ty R.propertyTypes).getD .none) obj path) rfl h
      (C44_complete_partial (resourceWith_wf hw h) hps hs hf hd0 ho) (List.mem_map.2 ⟨_, dlookup_mem hd', rfl⟩))
    simp only [hd', Option.getD_some] at this
    exact this

theorem typedObject_wf {U : RegionSpec} {t : Val} (hw : t.WF) (hfo : FollowedIn U t) {top : Bool} {ty : String} {p : Path}
    {kvs : List (Key × Val)} (ho : TypedObject U t top ty p kvs) : (Val.dict kvs).WF := by
  cases ho with
  | resource h => exact resourceWith_wf hw h
  | below h hps hd0 ho =>
    obtain ⟨hs, hf⟩ := hfo _ _ _ _ h hps
    obtain ⟨q, _, h2⟩ := C44_path_correct (resourceWith_wf hw h) (C44_complete_partial (resourceWith_wf hw h) hps hs hf hd0 ho)
    exact at_wf h2 (resourceWith_wf hw h)

theorem withText_nil {α : Type} {place : α → Path} {msg : α → String} {x : PyM (List α)} {l : List α} (h : x = .ok l)
    (h' : withText place msg x = .ok [] ∨ ∃ s, withText place msg x = .error (.templateAttributeError s)) : l = [] := by
  subst h
  rcases h' with h' | ⟨_, h'⟩
  · simpa [withText] using h'
  · cases h'

theorem finds_nil {x : PyM (List Path)} {p : Path} {F : Path → Prop} (h : Finds x p F) {msg : Path → String}
    (h' : withText id msg x = .ok [] ∨ ∃ s, withText id msg x = .error (.templateAttributeError s)) (r : Path) : ¬ F r := by
  obtain ⟨l, h1, h2⟩ := h
  have := withText_nil h1 h'
  subst this
  intro hr
  cases (h2 (p ++ r)).2 ⟨r, rfl, hr⟩

/-- **C128** in full, for E3003: when the script ends with status 0 and E3003 is in force for a template, no object of which the
specification of the first region knows the type lacks a property that the specification requires, for any truth of the conditions -/
def C128_required_statement : Prop :=
  ∀ (objs : List RuleObj) (args : Sources) (all : List String) (regions : List Val) (U R : RegionSpec)
    (beh : RuleObj → Behaviour) (name : Val → String) (mark : Val → MVal) (print : List Match → PyM Unit) (ds : List Decoded)
    (msg : Path × String → String),
    CleanRun objs args all regions (traversed U) beh name mark print ds → (∀ r, r.info.id = "E3003" → beh r = requiredOf R msg) →
    ∀ d ∈ ds, InForce objs args d.template { id := "E3003" } →
    ∀ top ty p kvs spec n σ q, TypedObject R d.template top ty p kvs → DeclaredIn R top ty spec → RequiredIn spec n →
      ¬ Lacks σ (.dict kvs) q n

/-- the statement holds for the objects the specification of us-east-1 knows the types of, where the traversal follows its declarations,
and if the values of required properties are not themselves conditional, C60 -/
theorem C128_required_partial {U R : RegionSpec} {msg : Path × String → String}
    (h : CleanRun objs args all regions (traversed U) beh name mark print ds) (hbeh : ∀ r, r.info.id = "E3003" → beh r = requiredOf R msg)
    {d : Decoded} (hd : d ∈ ds) (hf : InForce objs args d.template { id := "E3003" }) (hfo : FollowedIn U d.template)
    {top : Bool} {ty : String} {p : Path} {kvs : List (Key × Val)} (ho : TypedObject U d.template top ty p kvs)
    {spec : Val} (hs : DeclaredIn R top ty spec)
    (hshape : ∀ ps, spec.get? "Properties" = some (.dict ps) → SpecShape ps)
    (hobj : ∀ q u, Leaf (.dict kvs) q u → ∃ l, u = .dict l) {n : String} (hn : RequiredIn spec n)
    (hc : ∀ q l v, Leaf (.dict kvs) q (.dict l) → (Key.str n, v) ∈ l → ¬ IsIf v) (σ : String → Bool) (q : Path) :
    ¬ Lacks σ (.dict kvs) q n := by
  obtain ⟨r, hr, hfound⟩ := clean_found h hd hf
  have hw := clean_wf h hd
  rw [hbeh r (by rw [hr])] at hfound
  have hcall := bySpec_found hw hfound hfo ho hs
  obtain ⟨ps, dd, rq, h1, h2, h3, h4⟩ := hn
  cases spec with
  | dict sp =>
    obtain ⟨names, hnames, hmem⟩ := C60_required_names (spec := sp) (ps := ps) h1 (hshape ps h1)
    rw [C60_match top p (by simp) hnames] at hcall
    have hkw := typedObject_wf hw hfo ho
    obtain ⟨res, hres, _⟩ := C60_reports names kvs p hkw hobj
    intro hl
    have := C60_complete_partial hkw hobj hres ((hmem n).2 ⟨dd, rq, h2, h3, h4⟩) hl (fun l v => hc q l v)
    rw [withText_nil hres hcall] at this
    cases this
  | none | bool | int | flt | str | list => simp [Val.get?] at h1

/-- **C128** for E3012: no property of an object the specification knows the type of has a value that does not fit the declared
primitive type; as in C80 for values that are plain -/
theorem C128_primitives_partial {U R : RegionSpec} {floatText : String → Bool} {strict : Bool} {n : Nat} {msg : Path → String}
    (h : CleanRun objs args all regions (traversed U) beh name mark print ds)
    (hbeh : ∀ r, r.info.id = "E3012" → beh r = primitivesOf R floatText strict (n + 2) msg)
    {d : Decoded} (hd : d ∈ ds) (hf : InForce objs args d.template { id := "E3012" }) (hfo : FollowedIn U d.template)
    {top : Bool} {ty : String} {p : Path} {kvs : List (Key × Val)} (ho : TypedObject U d.template top ty p kvs)
    {spec : Val} (hs : DeclaredIn R top ty spec) (hrows : ((specRows rowView spec).map Prod.fst).Nodup)
    (hnull : ∀ prop d v, (prop, d) ∈ specRows rowView spec → (.str prop, v) ∈ kvs → v ≠ .none ∧ ∀ q, ¬ Leaf v q .none)
    (hplain : ∀ prop d pt b v q u, (prop, d) ∈ specRows rowView spec → PrimOf d pt → IsStrict strict ty prop b →
      (.str prop, v) ∈ kvs → PropValue v q u → PlainValue b pt u) (q : Path) :
    ¬ PropTypeFault floatText strict ty (specRows rowView spec) kvs q := by
  obtain ⟨r, hr, hfound⟩ := clean_found h hd hf
  have hw := clean_wf h hd
  rw [hbeh r (by rw [hr])] at hfound
  have hcall := bySpec_found hw hfound hfo ho hs
  by_cases he : top = false ∧ (specRows rowView spec).isEmpty
  · rintro ⟨prop, d, _, _, _, _, _, _, hm, _⟩
    rw [List.isEmpty_iff.1 he.2] at hm
    cases hm
  · rw [if_neg he] at hcall
    exact finds_nil (C80_reports_partial hrows (typedObject_wf hw hfo ho) hnull hplain n) hcall q

/-- **C128** for E3030: every value is among those allowed for its property, as far as C81 goes -/
theorem C128_allowed_partial {U R : RegionSpec} {E : PyText} {n : Nat} {msg : Path → String}
    (h : CleanRun objs args all regions (traversed U) beh name mark print ds)
    (hbeh : ∀ r, r.info.id = "E3030" → beh r = allowedOf R E (n + 2) msg)
    {d : Decoded} (hd : d ∈ ds) (hf : InForce objs args d.template { id := "E3030" }) (hfo : FollowedIn U d.template)
    {top : Bool} {ty : String} {p : Path} {kvs : List (Key × Val)} (ho : TypedObject U d.template top ty p kvs)
    {spec : Val} (hs : DeclaredIn R top ty spec) (hrows : ((specRows (valueRowView R) spec).map Prod.fst).Nodup)
    (hobj : ∀ q u, Leaf (.dict kvs) q u → ∃ l, u = .dict l)
    (hnull : ∀ q l, Leaf (.dict kvs) q (.dict l) → NoNullProps (specRows (valueRowView R) spec) l) (q : Path) :
    ¬ ValueFaults (specRows (valueRowView R) spec) (NotAllowed E) (.dict kvs) q := by
  obtain ⟨r, hr, hfound⟩ := clean_found h hd hf
  have hw := clean_wf h hd
  rw [hbeh r (by rw [hr])] at hfound
  exact finds_nil (C81_allowed E n p hrows (typedObject_wf hw hfo ho) hobj hnull) (bySpec_found hw hfound hfo ho hs) q

/-- **C128** for E3031: every value matches the pattern of its property, as far as C81 goes -/
theorem C128_patterns_partial {U R : RegionSpec} {E : PyText} {n : Nat} {msg : Path → String}
    (h : CleanRun objs args all regions (traversed U) beh name mark print ds)
    (hbeh : ∀ r, r.info.id = "E3031" → beh r = patternsFor R E (n + 2) msg)
    {d : Decoded} (hd : d ∈ ds) (hf : InForce objs args d.template { id := "E3031" }) (hfo : FollowedIn U d.template)
    {top : Bool} {ty : String} {p : Path} {kvs : List (Key × Val)} (ho : TypedObject U d.template top ty p kvs)
    {spec : Val} (hs : DeclaredIn R top ty spec) (hrows : ((specRows (valueRowView R) spec).map Prod.fst).Nodup)
    (hobj : ∀ q u, Leaf (.dict kvs) q u → ∃ l, u = .dict l)
    (hnull : ∀ q l, Leaf (.dict kvs) q (.dict l) → NoNullProps (specRows (valueRowView R) spec) l) (q : Path) :
    ¬ ValueFaults (specRows (valueRowView R) spec) (NoMatch E) (.dict kvs) q := by
  obtain ⟨r, hr, hfound⟩ := clean_found h hd hf
  have hw := clean_wf h hd
  rw [hbeh r (by rw [hr])] at hfound
  exact finds_nil (C81_pattern E n p hrows (typedObject_wf hw hfo ho) hobj hnull) (bySpec_found hw hfound hfo ho hs) q

/-- **C128** for E3033: every text has a length within the bounds of its property, as far as C81 goes -/
theorem C128_lengths_partial {U R : RegionSpec} {n : Nat} {msg : Path → String}
    (h : CleanRun objs args all regions (traversed U) beh name mark print ds)
    (hbeh : ∀ r, r.info.id = "E3033" → beh r = lengthsOf R (n + 2) msg)
    {d : Decoded} (hd : d ∈ ds) (hf : InForce objs args d.template { id := "E3033" }) (hfo : FollowedIn U d.template)
    {top : Bool} {ty : String} {p : Path} {kvs : List (Key × Val)} (ho : TypedObject U d.template top ty p kvs)
    {spec : Val} (hs : DeclaredIn R top ty spec) (hrows : ((specRows (valueRowView R) spec).map Prod.fst).Nodup)
    (hif : ¬ IsIf (.dict kvs)) (hnull : NoNullProps (specRows (valueRowView R) spec) kvs)
    (hzero : ∀ prop d vt, (prop, d) ∈ specRows (valueRowView R) spec → d.valueType = some vt → vt.stringMin ≠ some 0 ∧ vt.stringMax ≠ some 0)
    (q : Path) : ¬ ValueFaults (specRows (valueRowView R) spec) BadLength (.dict kvs) q := by
  obtain ⟨r, hr, hfound⟩ := clean_found h hd hf
  have hw := clean_wf h hd
  rw [hbeh r (by rw [hr])] at hfound
  exact finds_nil (C81_length_partial n p hrows (typedObject_wf hw hfo ho) hif hnull hzero) (bySpec_found hw hfound hfo ho hs) q

/-- **C128** for E3034: every number is within the bounds of its property, as far as C81 goes -/
theorem C128_numbers_partial {U R : RegionSpec} {E : PyText} {n : Nat} {msg : Path → String}
    (h : CleanRun objs args all regions (traversed U) beh name mark print ds)
    (hbeh : ∀ r, r.info.id = "E3034" → beh r = numbersOf R E (n + 2) msg)
    {d : Decoded} (hd : d ∈ ds) (hf : InForce objs args d.template { id := "E3034" }) (hfo : FollowedIn U d.template)
    {top : Bool} {ty : String} {p : Path} {kvs : List (Key × Val)} (ho : TypedObject U d.template top ty p kvs)
    {spec : Val} (hs : DeclaredIn R top ty spec) (hrows : ((specRows (valueRowView R) spec).map Prod.fst).Nodup)
    (hif : ¬ IsIf (.dict kvs)) (hnull : NoNullProps (specRows (valueRowView R) spec) kvs)
    (q : Path) : ¬ ValueFaults (specRows (valueRowView R) spec) (BadNumberValue E) (.dict kvs) q := by
  obtain ⟨r, hr, hfound⟩ := clean_found h hd hf
  have hw := clean_wf h hd
  rw [hbeh r (by rw [hr])] at hfound
  exact finds_nil (C81_number_partial E n p hrows (typedObject_wf hw hfo ho) hif hnull) (bySpec_found hw hfound hfo ho hs) q

end Clean

/-! ### runs of one rule -/

/-- a run of one rule on one template meets the conditions when it ends with status 0 -/
theorem oneRule_clean {S : TypeSpecs} {id : String} {b : Behaviour} {t : Val} (hid : ∃ cs, id.toList = 'E' :: cs)
    (hb : ∀ t, b.setUp t = .ok ()) (hw : t.WF) (ht : t.truthy = true ∧ ∃ top, t = .dict top) (ha : setTemplateArgs t = .ok [])
    (hd : getDirectives (markAll default t) = .ok [])
    (h : runCommand .script [{ info := { id := id } }] (c50Args [] false []) (checkWith [] [] S (fun _ => b) (fun _ => "t") (markAll default))
      (fun _ => .ok ()) [⟨t, []⟩] = 0) :
    CleanRun [{ info := { id := id } }] (c50Args [] false []) [] [] S (fun _ => b) (fun _ => "t") (markAll default)
      (fun _ => .ok ()) [⟨t, []⟩] where
  marks := erase_markAll _
  ids := by
    intro r hr x hx
    cases List.mem_singleton.1 hr
    obtain ⟨cs, hc⟩ := hid
    exact .inr (.inr ⟨'E', cs, by rw [hx]; exact hc, .inl rfl⟩)
  templates := by
    intro d hd _
    cases List.mem_singleton.1 hd
    exact ⟨hw, ht⟩
  notIgnored := by decide
  quietly := by
    intro d hd a h
    cases List.mem_singleton.1 hd
    rw [ha] at h
    cases h
    intro n _
    rfl
  levelled := by intro d hd m hm; cases List.mem_singleton.1 hd; cases hm
  noDirectives := by intro d h; cases List.mem_singleton.1 h; exact hd
  settable := by intro d _ r; exact hb _
  failuresShown := by
    rintro d h cfg ⟨targs, cfg0, h1, h2, rfl⟩
    cases List.mem_singleton.1 h
    rw [ha] at h1
    cases h1
    have h2' : currentCfg { c50Args [] false [] with template := [] } = .ok { incl := [.str "W", .str "E"] } := by decide
    rw [h2'] at h2
    cases h2
    exact ⟨by decide, [], rfl⟩
  status := h

theorem oneRule_inForce {id : String} {t : Val} (ha : setTemplateArgs t = .ok [])
    (hen : isRuleEnabled { incl := addDefaults [.str "W", .str "E"] } { id := id } = .ok true) :
    InForce [{ info := { id := id } }] (c50Args [] false []) t { id := id } := by
  refine ⟨List.mem_cons_self, ?_⟩
  rintro cfg ⟨targs, cfg0, h1, h2, rfl⟩
  rw [ha] at h1
  cases h1
  have h2' : currentCfg { c50Args [] false [] with template := [] } = .ok { incl := [.str "W", .str "E"] } := by decide
  rw [h2'] at h2
  cases h2
  exact hen

/-- a region with a resource type and a type of properties that requires `K` -/
def exRegion : RegionSpec where
  resourceTypes := [("T", .dict [(.str "Properties", .dict [(.str "S", .dict [(.str "Type", .str "P")])])])]
  propertyTypes := [("T.P", .dict [(.str "Properties", .dict [(.str "K", .dict [(.str "Required", .bool true), (.str "PrimitiveType", .str "String"),
    (.str "Value", .dict [(.str "ValueType", .str "V")])])])])]
  valueTypes := [("V", .dict [(.str "AllowedValues", .list [.str "a", .str "b"]), (.str "AllowedPatternRegex", .str "a|b"),
    (.str "StringMin", .int 1), (.str "StringMax", .int 3), (.str "NumberMin", .int 1), (.str "NumberMax", .int 3)])]

/-- a template with one resource of the type, whose `S` is the object -/
def exOneS (o : List (Key × Val)) : Val := .dict [(.str "Resources", .dict [(.str "A", .dict [(.str "Type", .str "T"),
  (.str "Properties", .dict [(.str "S", .dict o)])])])]

theorem exOneS_resource (o : List (Key × Val)) : ResourceWith (exOneS o) (.str "A") "T" [(.str "S", .dict o)] :=
  ⟨_, _, _, rfl, List.mem_cons_self, List.mem_cons_self, rfl, rfl⟩

theorem exOneS_object {o : List (Key × Val)} (h1 : ¬ IsIf (.dict o)) (h2 : Val.dict o ≠ noValue) :
    TypedObject exRegion (exOneS o) false "T.P" [.str "Resources", .str "A", .str "Properties", .str "S"] o := by
  refine .below (ty := "P") (exOneS_resource o) rfl rfl ⟨?_, ⟨_, rfl⟩, h1, h2⟩
  exact .top (d := ⟨some "P", none⟩) (q := []) (leaf_prop _ (by decide) (by decide)) List.mem_cons_self rfl

/-- the full statement does not hold: the traversal goes by the declarations of us-east-1; what only the region of the template
declares is not visited, and a property it requires may be missing -/
theorem C128_region_violated : ¬ C128_required_statement := by
  intro h
  have hb : ∀ r : RuleObj, r.info.id = "E3003" → (fun _ : RuleObj => requiredOf exRegion (fun x => x.2)) r = requiredOf exRegion (fun x => x.2) :=
    fun _ _ => rfl
  have ha : setTemplateArgs (exOneS [(.str "X", .int 1)]) = .ok [] := by decide
  have hrun := oneRule_clean (S := traversed ⟨[], [], []⟩) (id := "E3003") (b := requiredOf exRegion (fun x => x.2))
    (t := exOneS [(.str "X", .int 1)]) ⟨['3', '0', '0', '3'], by decide⟩ (fun _ => rfl) (by simp [exOneS, Val.WF, Val.WFDict])
    ⟨rfl, _, rfl⟩ ha (by decide +kernel) (by decide +kernel)
  refine h _ _ _ _ ⟨[], [], []⟩ exRegion _ _ _ _ _ (fun x => x.2) hrun hb _ List.mem_cons_self (oneRule_inForce ha (by decide)) false "T.P" _
    [(.str "X", .int 1)] _ "K" (fun _ => true) [] (exOneS_object (by rintro ⟨_, h⟩; simp at h) (by simp [noValue])) rfl
    ⟨_, _, .bool true, rfl, List.mem_cons_self, rfl, rfl⟩ ?_
  refine ⟨_, .here (by rintro ⟨_, h⟩; simp at h), by simp [noValue], ?_⟩
  rintro ⟨v, hv, _⟩
  simp at hv

/-! ### the hypotheses are met -/

/-- an object with the value of `K` -/
abbrev exK (v : Val) : List (Key × Val) := [(.str "K", v)]

theorem exOneS_pos {s : String} {D : Decl} {p : Path} {v : Val}
    (h : Pos (traversed exRegion) "T" [(.str "S", ⟨some "P", none⟩)] (.dict [(.str "S", .dict (exK (.str s)))]) [.str "Resources", .str "A", .str "Properties"] D p v) :
    (D = .single "P" ∧ v = .dict (exK (.str s))) ∨ (D = .primitive ∧ v = .str s) := by
  induction h with
  | top hl hm hd =>
    obtain ⟨rfl, rfl⟩ := leaf_prop_only (by decide) hl
    cases List.mem_singleton.1 hm
    cases hd
    exact .inl ⟨rfl, rfl⟩
  | left _ ih | right _ ih => rcases ih with ⟨_, h⟩ | ⟨_, h⟩ <;> simp [fnIf] at h
  | item _ _ ih | mapped _ _ _ ih => rcases ih with ⟨h, _⟩ | ⟨h, _⟩ <;> cases h
  | listType _ hd hp _ _ ih =>
    rcases ih with ⟨h, _⟩ | ⟨h, _⟩
    · cases h; cases hd; cases hp
    · cases h
  | prop _ _ hm hd hpd ih =>
    rcases ih with ⟨h, h'⟩ | ⟨h, _⟩
    · cases h
      cases h'
      cases List.mem_singleton.1 hm
      cases hd
      cases hpd
      exact .inr ⟨rfl, rfl⟩
    · cases h

theorem exOneS_only {o : List (Key × Val)} {n : Key} {rt : String} {props : List (Key × Val)} (h : ResourceWith (exOneS o) n rt props) :
    n = .str "A" ∧ rt = "T" ∧ props = [(.str "S", .dict o)] := by
  obtain ⟨top, rs, kvs, h0, h1, h2, h3, h4⟩ := h
  simp only [exOneS, Val.dict.injEq] at h0
  subst h0
  simp only [List.mem_singleton, Prod.mk.injEq, Val.dict.injEq, true_and] at h1
  subst h1
  simp only [List.mem_singleton, Prod.mk.injEq, Val.dict.injEq] at h2
  obtain ⟨rfl, rfl⟩ := h2
  simp [dlookup] at h3 h4
  exact ⟨rfl, h3.symm, h4.symm⟩

theorem exOneS_followed (s : String) : FollowedIn exRegion (exOneS (exK (.str s))) := by
  intro n rt props ps h hps
  obtain ⟨rfl, rfl, rfl⟩ := exOneS_only h
  have hps' : ps = [(.str "S", ⟨some "P", none⟩)] := by
    have e : dlookup "T" (traversed exRegion).resourceTypes = some [(.str "S", ⟨some "P", none⟩)] := by decide
    rw [e] at hps
    cases hps
    rfl
  subst hps'
  refine ⟨⟨by decide, by decide, by decide, ?_, ?_⟩, ⟨?_, ?_, ?_, ?_⟩⟩
  · intro kd h
    cases List.mem_singleton.1 h
    exact ⟨_, rfl, by decide, by decide⟩
  · intro td h kd h'
    have e : (traversed exRegion).propertyTypes = [("T.P", ⟨[(.str "K", ⟨none, none⟩)], none, none⟩)] := by decide
    rw [e] at h
    cases List.mem_singleton.1 h
    cases List.mem_singleton.1 h'
    exact ⟨_, rfl, by decide, by decide⟩
  · intro t p v h; rcases exOneS_pos h with ⟨h, _⟩ | ⟨h, _⟩ <;> cases h
  · intro t p v h; rcases exOneS_pos h with ⟨h, _⟩ | ⟨h, _⟩ <;> cases h
  · intro t p v d h _ hd e
    rcases exOneS_pos h with ⟨h, _⟩ | ⟨h, _⟩
    · cases h; cases hd; cases e
    · cases h
  · intro t p v d u h hd e
    rcases exOneS_pos h with ⟨h, _⟩ | ⟨h, _⟩
    · cases h; cases hd; cases e
    · cases h

theorem exOneS_wf (s : String) : (exOneS (exK (.str s))).WF := by simp [exOneS, exK, Val.WF, Val.WFDict]

/-- the run of a rule on the template with the object -/
abbrev exStatus (id : String) (b : Behaviour) (o : List (Key × Val)) : Nat :=
  runCommand .script [{ info := { id := id } }] (c50Args [] false []) (checkWith [] [] (traversed exRegion) (fun _ => b) (fun _ => "t") (markAll default))
    (fun _ => .ok ()) [⟨exOneS o, []⟩]

theorem visitDecl_prim {S : TypeSpecs} {rt : String} {flag : Bool} {path : Path} (v : Val) :
    visitDecl S rt ⟨none, none⟩ flag path v = [] := by
  unfold visitDecl
  simp

theorem exOneS_visit {k : String} (hk : k ≠ "Fn::If") (hr : k ≠ "Ref") (v : Val) (path : Path) :
    visitResource (traversed exRegion) "T" [(.str "S", .dict [(.str k, v)])] path = [⟨path ++ [.str "S"], .dict [(.str k, v)], "T.P"⟩] := by
  have hd : dlookup "T" (traversed exRegion).resourceTypes = some [(.str "S", ⟨some "P", none⟩)] := by decide
  have hp : dlookup "T.P" (traversed exRegion).propertyTypes = some ⟨[(.str "K", ⟨none, none⟩)], none, none⟩ := by decide
  have hi : itemsSafe [.dict] [(.str "S", .dict [(.str k, v)])] path = [(.dict [(.str "S", .dict [(.str k, v)])], path)] := by
    simp [itemsSafe, okType, Val.isInst, Val.isDict, clean, cleanLoop, dset, isNoValueRef, hr]
  by_cases h : k = "K"
  · subst h
    simp [visitResource, hd, hi, visitTop, visitDecl, visitType, specName, hp, visitSelf, visitProps, dlookup, dhas, visitDecl_prim]
  · simp [visitResource, hd, hi, visitTop, visitDecl, visitType, specName, hp, visitSelf, visitProps, dlookup, dhas, hk, Ne.symm h]

/-- what the run comes to: the rule is called on the properties of the resource and on the object -/
def exOutcome (b : Behaviour) (o : List (Key × Val)) (c : Coll) : RunM (List Match) :=
  runChecks [] [] c.cfg (.ok ()) (.ok []) (runnerRun (markAll default (exOneS o))
    (match initializeAll (fun _ => b) (exOneS o) c.active with
     | .error e => .error e
     | .ok () =>
       match runChecksSeq c.cfg "t" (c.active.map (fun r => (r.info.id, matchAll "t" (markAll default (exOneS o)) r.info b))) [] with
       | .error e => .error e
       | .ok ms => runChecksSeq c.cfg "t"
          (c.active.map (fun r => (r.info.id, matchProperties "t" (markAll default (exOneS o)) (.dict [(.str "S", .dict o)]) "T"
            [.str "Resources", .str "A", .str "Properties"] r.info b)) ++
           c.active.map (fun r => (r.info.id, matchSubProperties "t" (markAll default (exOneS o))
            ⟨[.str "Resources", .str "A", .str "Properties", .str "S"], .dict o, "T.P"⟩ r.info b))) ms) c.cfg.mandatory)

theorem exStatus_eq (id : String) (b : Behaviour) {k : String} (hk : k ≠ "Fn::If") (hr : k ≠ "Ref") (v : Val) :
    exStatus id b [(.str k, v)] = runCommand .script [{ info := { id := id } }] (c50Args [] false [])
      (fun t c => if t = exOneS [(.str k, v)] then (match c with | some c => exOutcome b [(.str k, v)] c | none => .ok [])
        else checkWith [] [] (traversed exRegion) (fun _ => b) (fun _ => "t") (markAll default) t c)
      (fun _ => .ok ()) [⟨exOneS [(.str k, v)], []⟩] := by
  have hcheck : ∀ c, checkWith [] [] (traversed exRegion) (fun _ => b) (fun _ => "t") (markAll default) (exOneS [(.str k, v)]) c =
      (match c with | some c => exOutcome b [(.str k, v)] c | none => .ok []) := by
    intro c
    cases c with
    | none => rfl
    | some c =>
      have hres : ∀ m : MVal, resourceChecks (traversed exRegion) (fun _ => b) c.active "t" m (.str "A")
          (.dict [(.str "Type", .str "T"), (.str "Properties", .dict [(.str "S", .dict [(.str k, v)])])]) =
          c.active.map (fun r => (r.info.id, matchProperties "t" m (.dict [(.str "S", .dict [(.str k, v)])]) "T"
            [.str "Resources", .str "A", .str "Properties"] r.info b)) ++
           c.active.map (fun r => (r.info.id, matchSubProperties "t" m
            ⟨[.str "Resources", .str "A", .str "Properties", .str "S"], .dict [(.str k, v)], "T.P"⟩ r.info b)) := by
        intro m
        simp [resourceChecks, dlookup, exOneS_visit hk hr]
      have hget : ∃ n w, mGetResources (markAll default (exOneS [(.str k, v)])) = .ok [(n, w)] ∧ n.key = .str "A" ∧
          w.erase = .dict [(.str "Type", .str "T"), (.str "Properties", .dict [(.str "S", .dict [(.str k, v)])])] :=
        ⟨_, _, rfl, rfl, erase_markAll _ _⟩
      obtain ⟨n, w, h1, h2, h3⟩ := hget
      simp only [checkWith, lintTemplate, collectionRun, exOutcome, h1, List.flatMap_cons, List.flatMap_nil, List.append_nil, h2, h3, hres,
        erase_markAll]
      rfl
  unfold exStatus
  congr 1
  funext t c
  split
  · rename_i h
    rw [h, hcheck c]
  · rfl

/-- a regular expression that matches a single `a` or `b`, and numbers of one digit -/
def exText : PyText where
  shown _ := ""
  matches_ p s := p = "a|b" && (s = "a" || s = "b")
  toFloat s := if s = "2" then some (.int 2) else if s = "7" then some (.int 7) else none
  le a b := match a, b with | .int i, .int j => decide (i ≤ j) | _, _ => false

-- status 0 and the rules in force for a template with an object of a declared type; a fault in the object changes the status
example : exStatus "E3003" (requiredOf exRegion (fun x => x.2)) (exK (.str "a")) = 0 ∧
    exStatus "E3003" (requiredOf exRegion (fun x => x.2)) [(.str "X", .int 1)] = 2 := by
  rw [exStatus_eq _ _ (by decide) (by decide), exStatus_eq _ _ (by decide) (by decide)]
  decide +kernel
example : exStatus "E3012" (primitivesOf exRegion (fun _ => false) true 3 (fun _ => "m")) (exK (.str "a")) = 0 ∧
    exStatus "E3012" (primitivesOf exRegion (fun _ => false) true 3 (fun _ => "m")) (exK (.int 1)) = 2 := by
  rw [exStatus_eq _ _ (by decide) (by decide), exStatus_eq _ _ (by decide) (by decide)]
  decide +kernel
example : exStatus "E3030" (allowedOf exRegion exText 3 (fun _ => "m")) (exK (.str "a")) = 0 ∧
    exStatus "E3030" (allowedOf exRegion exText 3 (fun _ => "m")) (exK (.str "c")) = 2 := by
  rw [exStatus_eq _ _ (by decide) (by decide), exStatus_eq _ _ (by decide) (by decide)]
  decide +kernel
example : exStatus "E3031" (patternsFor exRegion exText 3 (fun _ => "m")) (exK (.str "a")) = 0 ∧
    exStatus "E3031" (patternsFor exRegion exText 3 (fun _ => "m")) (exK (.str "c")) = 2 := by
  rw [exStatus_eq _ _ (by decide) (by decide), exStatus_eq _ _ (by decide) (by decide)]
  decide +kernel
example : exStatus "E3033" (lengthsOf exRegion 3 (fun _ => "m")) (exK (.str "abc")) = 0 ∧
    exStatus "E3033" (lengthsOf exRegion 3 (fun _ => "m")) (exK (.str "abcd")) = 2 := by
  rw [exStatus_eq _ _ (by decide) (by decide), exStatus_eq _ _ (by decide) (by decide)]
  decide +kernel
example : exStatus "E3034" (numbersOf exRegion exText 3 (fun _ => "m")) (exK (.str "2")) = 0 ∧
    exStatus "E3034" (numbersOf exRegion exText 3 (fun _ => "m")) (exK (.str "7")) = 2 := by
  rw [exStatus_eq _ _ (by decide) (by decide), exStatus_eq _ _ (by decide) (by decide)]
  decide +kernel

example : CleanRun [{ info := { id := "E3003" } }] (c50Args [] false []) [] [] (traversed exRegion) (fun _ => requiredOf exRegion (fun x => x.2))
    (fun _ => "t") (markAll default) (fun _ => .ok ()) [⟨exOneS (exK (.str "a")), []⟩] ∧
    InForce [{ info := { id := "E3003" } }] (c50Args [] false []) (exOneS (exK (.str "a"))) { id := "E3003" } ∧
    FollowedIn exRegion (exOneS (exK (.str "a"))) ∧
    TypedObject exRegion (exOneS (exK (.str "a"))) false "T.P" [.str "Resources", .str "A", .str "Properties", .str "S"] (exK (.str "a")) :=
  ⟨oneRule_clean ⟨['3', '0', '0', '3'], by decide⟩ (fun _ => rfl) (exOneS_wf "a") ⟨rfl, _, rfl⟩ (by decide) (by decide +kernel)
      ((exStatus_eq _ _ (by decide) (by decide) _).trans (by decide +kernel)),
    oneRule_inForce (by decide) (by decide), exOneS_followed "a",
    exOneS_object (by rintro ⟨_, h⟩; simp [exK] at h) (by simp [noValue, exK])⟩

end CfnLint
