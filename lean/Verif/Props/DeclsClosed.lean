import Verif.Props.Shape
import Verif.Props.Interface
import Verif.Props.Password
import Verif.Props.Outputs
import Verif.Props.Default
import Verif.Props.Relations
import Verif.Props.RefRules
import Verif.Props.Modules
/-
Property C136: what status 0 says of declarations: defaults of parameters, the interface, outputs, passwords, modules, and references
between resources, when the rules on them are in force.
-/
namespace CfnLint

open Spec

/-- the rules on declarations that are called on the whole template, each with its function; the messages are arbitrary, and so is how
the paths of E2015 are made. The ids are those of parameters/Default.py:13, DefaultRef.py:11, UniqueNames.py:9,
InterfaceConfiguration.py:11, InterfaceParameterExists.py:11, outputs/Value.py:13, outputs/ImportValue.py:11, Description.py:12,
Password.py:14, DependsOnObsolete.py:11, RelationshipConditions.py:13, mappings/Name.py:11 and Modules.py:11 -/
structure DeclRules (beh : RuleObj → Behaviour) (E : DefaultEnv) (digit : Char → Bool) (attrs : String → String → Option String)
    (enum : String → List String → List String) (tb : Val → CondTable) (place : LimitMatch → Path) (def_ : Key × DefaultKind → Path) : Prop where
  E2015 : ∀ r, r.info.id = "E2015" → ∃ msg, (beh r).whole = some (fun t => withText def_ msg (defaultRule E t))
  E2014 : ∀ r, r.info.id = "E2014" → ∃ msg, (beh r).whole = some (fun t => withText Prod.fst msg (.ok (defaultRefRule t (.dict []))))
  E3007 : ∀ r, r.info.id = "E3007" → ∃ msg, (beh r).whole = some (fun t => withText id msg (uniqueNames t))
  E4001 : ∀ r, r.info.id = "E4001" → ∃ msg, (beh r).whole = some (fun t => withText id msg (interfaceRule t))
  W4001 : ∀ r, r.info.id = "W4001" → ∃ msg, (beh r).whole = some (fun t => withText id msg (interfaceParams t))
  E6003 : ∀ r, r.info.id = "E6003" → ∃ msg, (beh r).whole = some (fun t => withText Prod.fst msg (outputValueRule attrs t (.dict [])))
  W6001 : ∀ r, r.info.id = "W6001" → ∃ msg, (beh r).whole = some (fun t => withText Prod.fst msg (.ok (outputImportRule t (.dict []))))
  E1004 : ∀ r, r.info.id = "E1004" → ∃ msg, (beh r).whole = some (fun t => withText id msg (descriptionRule t))
  W2501 : ∀ r, r.info.id = "W2501" → ∃ msg, (beh r).whole = some (fun t => withText Prod.fst msg (passwordRule digit t (.dict [])))
  W3005 : ∀ r, r.info.id = "W3005" → ∃ msg, (beh r).whole = some (fun t => withText Prod.fst msg (obsoleteRule t (.dict [])))
  W1001 : ∀ r, r.info.id = "W1001" → ∃ msg, (beh r).whole = some (fun t => withText RelReport.path msg (relationsRule enum (tb t) t (.dict [])))
  E7002 : ∀ r, r.info.id = "E7002" → ∃ msg, (beh r).whole = some (fun t => withText place msg (alphanumericName t .mappings))
  E5001 : ∀ r, r.info.id = "E5001" → ∃ msg, (beh r).whole = some (fun t => withText Prod.fst msg (modulesRule t (.dict [])))

section Clean

variable {objs : List RuleObj} {args : Sources} {all : List String} {regions : List Val} {S : TypeSpecs} {beh : RuleObj → Behaviour}
  {name : Val → String} {mark : Val → MVal} {print : List Match → PyM Unit} {ds : List Decoded} {E : DefaultEnv} {digit : Char → Bool}
  {attrs : String → String → Option String} {enum : String → List String → List String} {tb : Val → CondTable} {place : LimitMatch → Path}
  {def_ : Key × DefaultKind → Path}

/-- **C136** If the command ends with status 0 and E2015 is in force, no parameter denies its default. Missing: parameters with patterns, and those outside of the shape that
C86 needs. -/
theorem C136_defaults_partial (h : CleanRun objs args all regions S beh name mark print ds) (hb : DeclRules beh E digit attrs enum tb place def_)
    {d : Decoded} (hd : d ∈ ds) (hf : InForce objs args d.template { id := "E2015" }) (hE : E.Plain) (hp : Entries d.template "Parameters" ParamShape)
    (hpl : ∀ name p, look d.template [.str "Parameters", name] = some p → PlainParam p)
    (hx : ∀ name p v, look d.template [.str "Parameters", name] = some p → ¬ Attr p "AllowedPattern" v)
    {k : Key} {p v : Val} (hat : look d.template [.str "Parameters", k] = some p) (hv : Attr p "Default" v) (hnn : v ≠ .none) : ¬ Denies p v := by
  obtain ⟨l, h1, h2⟩ := C86_plain_partial hE (clean_wf h hd) hp hpl hx
  cases whole_found h hd hf hb.E2015 h1
  intro hc
  obtain ⟨kind, hk⟩ := (h2 k).2 ⟨p, v, hat, hv, hnn, hc⟩
  cases hk

/-- **C136** … and E2014 is in force, there are no references among the parameters. -/
theorem C136_parameters (h : CleanRun objs args all regions S beh name mark print ds) (hb : DeclRules beh E digit attrs enum tb place def_)
    {d : Decoded} (hd : d ∈ ds) (hf : InForce objs args d.template { id := "E2014" }) (q : Path) (v : Val) :
    ¬ At d.template (.str "Parameters" :: q ++ [.str "Ref"]) v := by
  have hl := whole_found h hd hf (rule := fun t => .ok (defaultRefRule t (.dict []))) hb.E2014 rfl
  intro hat
  have hm := (C116_parameters_partial d.template (.dict []) (.str "Parameters" :: q ++ [.str "Ref"]) v).2
    ⟨⟨⟨.str "Parameters" :: q, rfl⟩, .inl hat⟩, q ++ [.str "Ref"], rfl⟩
  rw [hl] at hm
  cases hm

/-- **C136** … and E3007 is in force, no resource with a type has the name of a parameter. -/
theorem C136_unique (h : CleanRun objs args all regions S beh name mark print ds) (hb : DeclRules beh E digit attrs enum tb place def_)
    {d : Decoded} (hd : d ∈ ds) (hf : InForce objs args d.template { id := "E3007" }) {ps : List (Key × Val)}
    (hps : At d.template [.str "Parameters"] (.dict ps)) {k : Key} {v : Val} (hk : (k, v) ∈ ps) (r : List (Key × Val)) : ¬ TypedResource d.template k r := by
  have hw := clean_wf h hd
  obtain ⟨l, h1, h2⟩ := C107_unique hw (clean_object h hd) fun v hv => ⟨ps, at_det hw hv hps⟩
  cases whole_found h hd hf hb.E3007 h1
  intro hr
  cases (h2 _).2 ⟨k, r, v, hr, at_cons.2 ⟨_, hps, at_dict_one.2 hk⟩, rfl⟩

/-- **C136** … and E4001 is in force, the interface has the entries it may have. Missing: interfaces and groups that are no objects or lists. -/
theorem C136_entries_partial (h : CleanRun objs args all regions S beh name mark print ds) (hb : DeclRules beh E digit attrs enum tb place def_)
    {d : Decoded} (hd : d ∈ ds) (hf : InForce objs args d.template { id := "E4001" }) (hs : InterfaceShape d.template) (p : Path) :
    ¬ StrayEntry d.template p := by
  obtain ⟨l, h1, h2⟩ := C107_entries (clean_wf h hd) hs
  cases whole_found h hd hf hb.E4001 h1
  intro hp
  cases (h2 _).2 hp

/-- **C136** … and W4001 is in force, the interface names parameters. Missing: the same, and lists and labels of another form. -/
theorem C136_names_partial (h : CleanRun objs args all regions S beh name mark print ds) (hb : DeclRules beh E digit attrs enum tb place def_)
    {d : Decoded} (hd : d ∈ ds) (hf : InForce objs args d.template { id := "W4001" }) (hs : InterfaceShape d.template) (hn : InterfaceNames d.template)
    (p : Path) : ¬ UnknownName d.template p := by
  obtain ⟨l, h1, h2⟩ := C107_names (clean_wf h hd) hs hn
  cases whole_found h hd hf hb.W4001 h1
  intro hp
  cases (h2 _).2 hp

/-- **C136** … and E6003 is in force, no output is a list. Missing: templates outside of the shape that C118 needs. -/
theorem C136_values_partial (h : CleanRun objs args all regions S beh name mark print ds) (hb : DeclRules beh E digit attrs enum tb place def_)
    {d : Decoded} (hd : d ∈ ds) (hf : InForce objs args d.template { id := "E6003" }) (hs : OutputShape d.template (.dict [])) (x : Path × Val) :
    ¬ ListOutput attrs d.template (.dict []) x := by
  have hw := clean_wf h hd
  obtain ⟨top, ht⟩ := clean_object h hd
  rw [ht] at hw hs ⊢
  obtain ⟨l, h1, h2⟩ := C118_values_partial (attrs := attrs) hw hs
  cases whole_found h hd hf hb.E6003 (by rw [ht]; exact h1)
  intro hp
  cases (h2 _).2 hp

/-- **C136** … and W6001 is in force, no output is an imported value. -/
theorem C136_imports (h : CleanRun objs args all regions S beh name mark print ds) (hb : DeclRules beh E digit attrs enum tb place def_)
    {d : Decoded} (hd : d ∈ ds) (hf : InForce objs args d.template { id := "W6001" }) (n : Key) (v : Val) :
    ¬ At d.template [.str "Outputs", n, .str "Value", .str "Fn::ImportValue"] v := by
  have hl := whole_found h hd hf (rule := fun t => .ok (outputImportRule t (.dict []))) hb.W6001 rfl
  intro hat
  have hm := (C118_imports d.template (.dict []) [.str "Outputs", n, .str "Value", .str "Fn::ImportValue"] v).2
    ⟨⟨⟨[.str "Outputs", n, .str "Value"], rfl⟩, .inl hat⟩, n, [], rfl⟩
  rw [hl] at hm
  cases hm

/-- **C136** … and E1004 is in force, the description is a text or void. -/
theorem C136_description (h : CleanRun objs args all regions S beh name mark print ds) (hb : DeclRules beh E digit attrs enum tb place def_)
    {d : Decoded} (hd : d ∈ ds) (hf : InForce objs args d.template { id := "E1004" }) {v : Val} (hat : At d.template [.str "Description"] v) :
    v.truthy = false ∨ ∃ s, v = .str s := by
  have hw := clean_wf h hd
  obtain ⟨top, ht⟩ := clean_object h hd
  rw [ht] at hw hat
  obtain ⟨l, h1, h2⟩ := C118_description hw
  cases whole_found h hd hf hb.E1004 (by rw [ht]; exact h1)
  by_contra hc
  push Not at hc
  cases (h2 _).2 ⟨rfl, v, hat, by simpa using hc.1, hc.2⟩

/-- **C136** … and W2501 is in force, no password is written down or shown. Missing: resources and parameters that are no objects, and references by something but a text. -/
theorem C136_passwords_partial (h : CleanRun objs args all regions S beh name mark print ds) (hb : DeclRules beh E digit attrs enum tb place def_)
    {d : Decoded} (hd : d ∈ ds) (hf : InForce objs args d.template { id := "W2501" }) (hdig : digit '\n' = false)
    (hres : ∀ k v, At d.template [.str "Resources", k] v → ∃ kvs, v = .dict kvs)
    (hpar : ∀ k v, At d.template [.str "Parameters", .str k] v → ∃ kvs, v = .dict kvs)
    (href : ∀ name p v, PropertyAt d.template name p (.dict [(.str "Ref", v)]) → ∃ s, v = .str s) (p : Path) (f : PwFault) :
    ¬ PasswordFault digit d.template p f := by
  obtain ⟨l, h1, h2⟩ := C112_password hdig (clean_wf h hd) (clean_object h hd) hres hpar href
  cases whole_found h hd hf hb.W2501 h1
  intro hp
  cases (h2 _ _).2 hp

/-- **C136** … and W3005 is in force, no resource states a dependency that its properties already have. Missing: attributes that are not named by a list. -/
theorem C136_obsolete_partial (h : CleanRun objs args all regions S beh name mark print ds) (hb : DeclRules beh E digit attrs enum tb place def_)
    {d : Decoded} (hd : d ∈ ds) (hf : InForce objs args d.template { id := "W3005" }) (hl : ListGetAtts d.template) {k : Key} {p : Path} {v : Val}
    (hv : DependsOnAt d.template k p v) (q : Path) : ¬ AlreadyNeeded d.template k v q := by
  obtain ⟨l, h1, h2⟩ := C65_exact_partial (clean_wf h hd) (clean_object h hd) hl
  cases whole_found h hd hf hb.W3005 h1
  intro hn
  cases (h2 p q).2 ⟨k, v, hv, hn⟩

/-- **C136** … and W1001 is in force, there is no deployment in which something mentions a resource that is not there. Missing: what C63 needs of the place and the
resource, and templates on which the rule fails unnoticed. -/
theorem C136_exist_partial (h : CleanRun objs args all regions S beh name mark print ds) (hb : DeclRules beh E digit attrs enum tb place def_)
    {d : Decoded} (hd : d ∈ ds) (hf : InForce objs args d.template { id := "W1001" })
    (hn : ∀ s, relationsRule enum (tb d.template) d.template (.dict []) ≠ .error (.templateAttributeError s)) {H : Val → String} {fuel : Nat}
    {t : List (Key × Val)} (et : d.template = .dict t) {p : Path} {R rc : String} {b : String → Bool}
    (hm : Mentions (.dict t) p R) (hnp : R ∉ pseudoParams) (hne : R ≠ "") (hif : R ≠ "Fn::If") (hp : GoodPath (.dict t) p)
    (he : EntryOk (.dict t) "Resources" (.str R)) (hrc : ResourceCondition (.dict t) (.str R) rc)
    (hD : Deployment H fuel enum t (tb (.dict t)) (Concerned (.dict t) p rc) b) (hex : ∀ c x, Requires (.dict t) p c x → b c = x)
    (hoff : ¬ Requires (.dict t) p rc false) : b rc = true := by
  have hl := whole_silent h hd hf (rule := fun t => relationsRule enum (tb t) t (.dict [])) hb.W1001 hn
  rw [et] at hl
  by_contra hg
  obtain ⟨r, hr, -⟩ := C63_complete_partial hm hnp hne hif hp he hrc hD hex (by simpa using hg) hoff hl
  cases hr

/-- **C136** … and E7002 is in force, the mappings have names of letters and digits. Missing: mappings that are a text or a list, on which the rule fails unnoticed. -/
theorem C136_mappings_partial (h : CleanRun objs args all regions S beh name mark print ds) (hb : DeclRules beh E digit attrs enum tb place def_)
    {d : Decoded} (hd : d ∈ ds) (hf : InForce objs args d.template { id := "E7002" }) {v : Val} (hv : At d.template [.str "Mappings"] v)
    (hn : ¬ TextOrList v) : ∃ kvs, v = .dict kvs ∧ ∀ k w, (k, w) ∈ kvs → ∃ n, k = .str n ∧ SectionName n :=
  names_found h hd hf (s := .mappings) hb.E7002 hv hn

/-- **C136** … and E5001 is in force, modules have no tags, policies or metadata of their own. Missing: modules whose properties are no objects. -/
theorem C136_modules_partial (h : CleanRun objs args all regions S beh name mark print ds) (hb : DeclRules beh E digit attrs enum tb place def_)
    {d : Decoded} (hd : d ∈ ds) (hf : InForce objs args d.template { id := "E5001" })
    (ht : ∀ w, At d.template [.str "AWS::CloudFormation::Module"] w → (∀ xs, w ≠ .list xs) ∧ ∀ kvs, w ≠ .dict kvs)
    (hp : ∀ name r v, TypedResource d.template name r → LikeModule r → (Key.str "Properties", v) ∈ r → ∃ ps, v = .dict ps) (p : Path) (o : Option Val) :
    ¬ ModuleFault d.template (.dict []) p o := by
  have hw := clean_wf h hd
  have hgr : ∃ rs, getResources d.template = .ok rs := by
    obtain ⟨top, e⟩ := clean_object h hd
    rw [e]
    unfold getResources
    simp only [Val.getD]
    split
    · rename_i he
      cases he
    · exact ⟨_, rfl⟩
    · exact ⟨_, rfl⟩
  obtain ⟨rs, hrs⟩ := hgr
  obtain ⟨l, h1, h2⟩ := C115_modules_partial (globals := .dict []) hw hrs (by
    rintro w (hw' | hw')
    · exact ht w hw'
    · have := at_dict_one.1 hw'
      cases this) hp
  cases whole_found h hd hf hb.E5001 h1
  intro hf'
  cases (h2 _ _).2 hf'

end Clean

/-- the rules on declarations -/
def declIds : List String :=
  ["E2015", "E2014", "E3007", "E4001", "W4001", "E6003", "W6001", "E1004", "W2501", "W3005", "W1001", "E7002", "E5001"]

/-- what the rules on declarations are for, but for deployments -/
structure Spec.DeclsRight (digit : Char → Bool) (attrs : String → String → Option String) (t : Val) : Prop where
  defaults : ∀ k p v, look t [.str "Parameters", k] = some p → Attr p "Default" v → v ≠ .none → ¬ Denies p v
  parameters : ∀ q v, ¬ At t (.str "Parameters" :: q ++ [.str "Ref"]) v
  unique : ∀ ps k v r, At t [.str "Parameters"] (.dict ps) → (k, v) ∈ ps → ¬ TypedResource t k r
  entries : ∀ p, ¬ StrayEntry t p
  names : ∀ p, ¬ UnknownName t p
  values : ∀ x, ¬ ListOutput attrs t (.dict []) x
  imports : ∀ n v, ¬ At t [.str "Outputs", n, .str "Value", .str "Fn::ImportValue"] v
  description : ∀ v, At t [.str "Description"] v → v.truthy = false ∨ ∃ s, v = .str s
  passwords : ∀ p f, ¬ PasswordFault digit t p f
  obsolete : ∀ k p v q, DependsOnAt t k p v → ¬ AlreadyNeeded t k v q
  mappings : ∀ v, At t [.str "Mappings"] v → ∃ kvs, v = .dict kvs ∧ ∀ k w, (k, w) ∈ kvs → ∃ n, k = .str n ∧ SectionName n
  modules : ∀ p o, ¬ ModuleFault t (.dict []) p o

/-- **C136** The full statement: if the command ends with status 0 and the rules on declarations are in force, what they are for holds of the templates. -/
def C136_statement : Prop :=
  ∀ (objs : List RuleObj) (args : Sources) (all : List String) (regions : List Val) (S : TypeSpecs) (beh : RuleObj → Behaviour) (name : Val → String)
    (mark : Val → MVal) (print : List Match → PyM Unit) (ds : List Decoded) (E : DefaultEnv) (digit : Char → Bool)
    (attrs : String → String → Option String) (enum : String → List String → List String) (tb : Val → CondTable) (place : LimitMatch → Path)
    (def_ : Key × DefaultKind → Path), E.Plain → digit '\n' = false →
    CleanRun objs args all regions S beh name mark print ds → DeclRules beh E digit attrs enum tb place def_ → ∀ d ∈ ds,
    (∀ i ∈ declIds, InForce objs args d.template { id := i }) → DeclsRight digit attrs d.template

/-- the functions of these rules -/
def exDeclWhole (i : String) : Option (Val → PyM (List (Path × String))) :=
  if i = "E2015" then some fun t => withText (fun _ => []) (fun _ => "default") (defaultRule exEnv t)
  else if i = "E2014" then some fun t => withText Prod.fst (fun _ => "reference") (.ok (defaultRefRule t (.dict [])))
  else if i = "E3007" then some fun t => withText id (fun _ => "unique") (uniqueNames t)
  else if i = "E4001" then some fun t => withText id (fun _ => "entry") (interfaceRule t)
  else if i = "W4001" then some fun t => withText id (fun _ => "name") (interfaceParams t)
  else if i = "E6003" then some fun t => withText Prod.fst (fun _ => "value") (outputValueRule (fun _ _ => none) t (.dict []))
  else if i = "W6001" then some fun t => withText Prod.fst (fun _ => "import") (.ok (outputImportRule t (.dict [])))
  else if i = "E1004" then some fun t => withText id (fun _ => "description") (descriptionRule t)
  else if i = "W2501" then some fun t => withText Prod.fst (fun _ => "password") (passwordRule (fun _ => false) t (.dict []))
  else if i = "W3005" then some fun t => withText Prod.fst (fun _ => "obsolete") (obsoleteRule t (.dict []))
  else if i = "W1001" then some fun t => withText RelReport.path (fun _ => "exists")
    (relationsRule (fun _ s => s) (Conditions.init exHash 5 t).1 t (.dict []))
  else if i = "E7002" then some fun t => withText (fun _ => []) (fun _ => "mapping") (alphanumericName t .mappings)
  else if i = "E5001" then some fun t => withText Prod.fst (fun _ => "module") (modulesRule t (.dict []))
  else none

/-- rules with these functions -/
def exDeclRules (r : RuleObj) : Behaviour := { whole := exDeclWhole r.info.id }

theorem exDeclRules_rules : DeclRules exDeclRules exEnv (fun _ => false) (fun _ _ => none) (fun _ s => s) (fun t => (Conditions.init exHash 5 t).1)
    (fun _ => []) (fun _ => []) := by
  constructor <;> intro r hr <;> exact ⟨_, by simp [exDeclRules, exDeclWhole, hr]; rfl⟩

theorem exDecl_run {t : Val} (hw : t.WF) (ht : t.truthy = true ∧ ∃ top, t = .dict top) (ha : setTemplateArgs t = .ok [])
    (hd : getDirectives (markAll default t) = .ok [])
    (hr : runCommand .script (withIds declIds) (c50Args [] false []) (checkWith [] [] ⟨[], []⟩ exDeclRules (fun _ => "t") (markAll default))
      (fun _ => .ok ()) [⟨t, []⟩] = 0) :
    CleanRun (withIds declIds) (c50Args [] false []) [] [] ⟨[], []⟩ exDeclRules (fun _ => "t") (markAll default) (fun _ => .ok ()) [⟨t, []⟩] :=
  rules_clean (severity_ids (by decide)) (fun _ _ => rfl) hw ht ha hd hr

theorem exDecl_inForce {t : Val} (ha : setTemplateArgs t = .ok []) {i : String} (hi : i ∈ declIds) :
    InForce (withIds declIds) (c50Args [] false []) t { id := i } := by
  refine rules_inForce hi ha ?_
  revert i
  decide

/-- C136 fails as it stands: mappings that are a text are left to another rule, and the failure of E7002 is not shown. -/
theorem C136_text_violated : ¬ C136_statement := by
  intro h
  have ha : setTemplateArgs (.dict [(.str "Mappings", .str "x")]) = .ok [] := rfl
  have hrun := exDecl_run (t := .dict [(.str "Mappings", .str "x")]) (by simp [Val.WF, Val.WFDict]) ⟨rfl, _, rfl⟩ ha (by decide +kernel) (by decide +kernel)
  obtain ⟨kvs, e, -⟩ := (h _ _ _ _ _ _ _ _ _ _ _ _ _ _ _ _ _ exEnv_plain rfl hrun exDeclRules_rules _ List.mem_cons_self
    (fun i hi => exDecl_inForce ha hi)).mappings _ (at_dict_one.2 List.mem_cons_self)
  cases e

/-! ### the hypotheses are met -/

/-- a template with a parameter, an interface, a mapping, a resource and an output -/
def exDecl : Val := .dict [(.str "Description", .str "d"),
  (.str "Metadata", .dict [(.str "AWS::CloudFormation::Interface", .dict [(.str "ParameterGroups", .list [.dict [(.str "Parameters", .list [.str "P"])]])])]),
  (.str "Parameters", .dict [(.str "P", .dict [(.str "Type", .str "String"), (.str "Default", .str "ab"), (.str "AllowedValues", .list [.str "ab"])])]),
  (.str "Mappings", .dict [(.str "M", .dict [])]),
  (.str "Resources", .dict [(.str "R", .dict [(.str "Type", .str "T"), (.str "Properties", .dict [(.str "Password", .dict [(.str "Fn::Sub", .str "p")])])])]),
  (.str "Outputs", .dict [(.str "O", .dict [(.str "Value", .str "x")])])]

theorem exDecl_wf : exDecl.WF := by simp [exDecl, Val.WF, Val.WFDict, Val.WFList]

theorem exDecl_args : setTemplateArgs exDecl = .ok [] := by decide +kernel

theorem exDecl_clean : CleanRun (withIds declIds) (c50Args [] false []) [] [] ⟨[], []⟩ exDeclRules (fun _ => "t") (markAll default) (fun _ => .ok ())
    [⟨exDecl, []⟩] :=
  exDecl_run exDecl_wf ⟨rfl, _, rfl⟩ exDecl_args (by decide +kernel) (by decide +kernel)

theorem exDecl_look {p : Path} {v : Val} (h : At exDecl p v) : follow exDecl p = some v := (follow_at exDecl_wf).1 h

theorem exDecl_in {i : String} (hi : i ∈ declIds) : InForce (withIds declIds) (c50Args [] false []) exDecl { id := i } := exDecl_inForce exDecl_args hi

theorem exDecl_parameter {k : Key} {v : Val} (h : At exDecl [.str "Parameters", k] v) :
    k = .str "P" ∧ v = .dict [(.str "Type", .str "String"), (.str "Default", .str "ab"), (.str "AllowedValues", .list [.str "ab"])] := by
  obtain ⟨u, h1, h2⟩ := at_cons.1 h
  cases exDecl_look h1
  have := at_dict_one.1 h2
  simpa using this

/-- `C136_defaults_partial` -/
example : ¬ Denies (.dict [(.str "Type", .str "String"), (.str "Default", .str "ab"), (.str "AllowedValues", .list [.str "ab"])]) (.str "ab") := by
  have hlook : ∀ k p, look exDecl [.str "Parameters", k] = some p →
      k = .str "P" ∧ p = .dict [(.str "Type", .str "String"), (.str "Default", .str "ab"), (.str "AllowedValues", .list [.str "ab"])] := by
    intro k p h
    by_cases hk : k = .str "P"
    · subst hk
      exact ⟨rfl, (Option.some.inj h).symm⟩
    · simp [exDecl, look, dlookup, Ne.symm hk] at h
  refine C136_defaults_partial exDecl_clean exDeclRules_rules List.mem_cons_self (exDecl_in (by decide)) exEnv_plain
    ⟨⟨_, rfl⟩, ?_⟩ ?_ ?_ (k := .str "P") rfl rfl (by simp)
  · intro v h
    cases h
    refine ⟨_, rfl, fun kv hkv => ?_⟩
    rw [List.mem_singleton.1 hkv]
    exact ⟨⟨_, rfl⟩, fun v hv => by unfold Attr at hv; simp [look, dlookup] at hv; subst hv; exact ⟨_, _, rfl⟩,
      fun v hv => by unfold Attr at hv; simp [look, dlookup] at hv⟩
  · intro k p h
    obtain ⟨-, rfl⟩ := hlook k p h
    refine .text (ty := "String") (s := "ab") (by decide +kernel) (by decide) (by decide) (by decide +kernel) ?_ ?_
    · intro vs h
      unfold Attr at h
      simp [look, dlookup] at h
      subst h
      simp
    · intro n hn v h
      unfold Attr at h
      simp at hn
      rcases hn with rfl | rfl <;> simp [look, dlookup] at h
  · intro k p v h hv
    obtain ⟨-, rfl⟩ := hlook k p h
    unfold Attr at hv
    simp [look, dlookup] at hv

/-- `C136_parameters` -/
example (q : Path) (v : Val) : ¬ At exDecl (.str "Parameters" :: q ++ [.str "Ref"]) v :=
  C136_parameters exDecl_clean exDeclRules_rules List.mem_cons_self (exDecl_in (by decide)) q v

/-- `C136_unique` -/
example (r : List (Key × Val)) : ¬ TypedResource exDecl (.str "P") r :=
  C136_unique exDecl_clean exDeclRules_rules List.mem_cons_self (exDecl_in (by decide)) ((follow_at exDecl_wf).2 rfl) List.mem_cons_self r

theorem exDecl_shape : InterfaceShape exDecl where
  top := ⟨_, rfl⟩
  metadata v h := by cases exDecl_look h; exact ⟨_, rfl⟩
  face v h := by cases exDecl_look h; exact ⟨_, rfl⟩
  groups v h := by cases exDecl_look h; exact ⟨_, rfl⟩
  group i v h := by
    obtain ⟨u, h1, h2⟩ := at_split (p := facePath ++ [.str "ParameterGroups"]) (q := [.int i]) h
    cases exDecl_look h1
    obtain ⟨x, h3, h4⟩ := at_index.1 h2
    cases h4
    exact ⟨_, List.mem_singleton.1 (List.mem_of_getElem? h3)⟩

theorem exDecl_names : InterfaceNames exDecl where
  parameters v h := by cases exDecl_look h; exact ⟨_, rfl⟩
  lists i v h := by
    obtain ⟨u, h1, h2⟩ := at_split (p := facePath ++ [.str "ParameterGroups"]) (q := [.int i, .str "Parameters"]) h
    cases exDecl_look h1
    obtain ⟨x, h3, h4⟩ := at_index.1 h2
    have := List.mem_singleton.1 (List.mem_of_getElem? h3)
    subst this
    have := at_dict_one.1 h4
    simp at this
    exact ⟨_, this⟩
  labels v h := by cases exDecl_look h

/-- `C136_entries_partial` and `C136_names_partial` -/
example (p : Path) : ¬ StrayEntry exDecl p ∧ ¬ UnknownName exDecl p :=
  ⟨C136_entries_partial exDecl_clean exDeclRules_rules List.mem_cons_self (exDecl_in (by decide)) exDecl_shape p,
    C136_names_partial exDecl_clean exDeclRules_rules List.mem_cons_self (exDecl_in (by decide)) exDecl_shape exDecl_names p⟩

theorem exDecl_resource {k : Key} {v : Val} (h : At exDecl [.str "Resources", k] v) :
    k = .str "R" ∧ v = .dict [(.str "Type", .str "T"), (.str "Properties", .dict [(.str "Password", .dict [(.str "Fn::Sub", .str "p")])])] := by
  obtain ⟨u, h1, h2⟩ := at_cons.1 h
  cases exDecl_look h1
  have := at_dict_one.1 h2
  simpa using this

theorem exDecl_no {fn : String} (h : searchDeepKeys fn exDecl (.dict []) = []) (q : Path) (v : Val) : ¬ At exDecl (q ++ [.str fn]) v := by
  intro hat
  have hm := ((C27_search_partial fn _ exDecl_wf).1 _ _).2 ⟨hat, q, rfl⟩
  rw [h] at hm
  cases hm

/-- `C136_values_partial` -/
example (x : Path × Val) : ¬ ListOutput (fun _ _ => none) exDecl (.dict []) x := by
  refine C136_values_partial exDecl_clean exDeclRules_rules List.mem_cons_self (exDecl_in (by decide)) ⟨?_, ?_, ?_, ?_, ?_, ?_, ?_, ?_⟩ x
  · rintro p xs ⟨⟨q, rfl⟩, h | h⟩
    · exact absurd h (exDecl_no (by decide +kernel) q _)
    · cases q with
      | nil => cases at_dict_one.1 h
      | cons k q => obtain ⟨u, h1, -⟩ := at_cons.1 h; cases at_dict_one.1 h1
  · intro v h
    cases exDecl_look h
    exact ⟨_, rfl⟩
  · intro r v h
    obtain ⟨-, rfl⟩ := exDecl_resource h
    exact ⟨_, rfl⟩
  · intro r v h
    obtain ⟨u, h1, h2⟩ := at_split (p := [.str "Resources", .str r]) (q := [.str "Type"]) h
    obtain ⟨-, rfl⟩ := exDecl_resource h1
    have := at_dict_one.1 h2
    simp at this
    exact ⟨_, this⟩
  · intro v h
    cases exDecl_look h
    exact ⟨_, rfl⟩
  · intro r v h
    obtain ⟨-, rfl⟩ := exDecl_parameter h
    exact ⟨_, rfl⟩
  · intro r v h
    obtain ⟨u, h1, h2⟩ := at_split (p := [.str "Parameters", .str r]) (q := [.str "Type"]) h
    obtain ⟨-, rfl⟩ := exDecl_parameter h1
    have := at_dict_one.1 h2
    simp at this
    exact ⟨_, this⟩
  · rintro ⟨-, h | h⟩
    · exact exDecl_no (by decide +kernel) [.str "Outputs"] _ h
    · obtain ⟨u, h1, -⟩ := at_cons.1 h
      cases at_dict_one.1 h1

/-- `C136_imports` -/
example (n : Key) (v : Val) : ¬ At exDecl [.str "Outputs", n, .str "Value", .str "Fn::ImportValue"] v :=
  C136_imports exDecl_clean exDeclRules_rules List.mem_cons_self (exDecl_in (by decide)) n v

/-- `C136_description` -/
example : (Val.str "d").truthy = false ∨ ∃ s, Val.str "d" = .str s :=
  C136_description exDecl_clean exDeclRules_rules List.mem_cons_self (exDecl_in (by decide)) ((follow_at exDecl_wf).2 rfl)

/-- `C136_passwords_partial` -/
example (p : Path) (f : PwFault) : ¬ PasswordFault (fun _ => false) exDecl p f := by
  refine C136_passwords_partial exDecl_clean exDeclRules_rules List.mem_cons_self (exDecl_in (by decide)) rfl
    (fun k v h => ⟨_, (exDecl_resource h).2⟩) (fun k v h => ⟨_, (exDecl_parameter h).2⟩) ?_ p f
  rintro name p v ⟨res, q, rfl, h⟩
  exact absurd (show At exDecl ((.str "Resources" :: res :: .str "Properties" :: (q ++ [.str name])) ++ [.str "Ref"]) v from
    at_append h (at_dict_one.2 List.mem_cons_self)) (exDecl_no (by decide +kernel) _ v)

/-- `C136_mappings_partial` -/
example : ∃ kvs, Val.dict [(.str "M", .dict [])] = .dict kvs ∧ ∀ k w, (k, w) ∈ kvs → ∃ n, k = .str n ∧ SectionName n :=
  C136_mappings_partial exDecl_clean exDeclRules_rules List.mem_cons_self (exDecl_in (by decide)) ((follow_at exDecl_wf).2 rfl)
    (by rintro (⟨_, e⟩ | ⟨_, e⟩) <;> cases e)

/-- `C136_modules_partial` -/
example (p : Path) (o : Option Val) : ¬ ModuleFault exDecl (.dict []) p o :=
  C136_modules_partial exDecl_clean exDeclRules_rules List.mem_cons_self (exDecl_in (by decide))
    (fun w h => by cases exDecl_look h)
    (fun name r v h _ hv => by
      obtain ⟨kvs, rs, ty, e, h1, h2, -⟩ := h
      have e : exDecl = .dict kvs := e
      have := (exDecl_resource (k := name) (v := .dict r) (by rw [e]; exact .key h1 (.key h2 .here))).2
      cases this
      simp at hv
      exact ⟨_, hv⟩) p o

/-- two resources under one condition, one of which mentions and depends on the other -/
def exMention : List (Key × Val) :=
  [(.str "R", .dict [(.str "Type", .str "A"), (.str "Condition", .str "C1")]),
   (.str "S", .dict [(.str "Type", .str "A"), (.str "Condition", .str "C1"), (.str "DependsOn", .str "Q"),
     (.str "Properties", .dict [(.str "X", .dict [(.str "Ref", .str "R")])])])]

theorem exMention_wf : (Val.dict exMention).WF := by simp [exMention, Val.WF, Val.WFDict]

theorem exMention_args : setTemplateArgs (.dict (exRel exMention)) = .ok [] := by decide

theorem exMention_clean : CleanRun (withIds declIds) (c50Args [] false []) [] [] ⟨[], []⟩ exDeclRules (fun _ => "t") (markAll default) (fun _ => .ok ())
    [⟨.dict (exRel exMention), []⟩] :=
  exDecl_run (exRel_wf exMention_wf) ⟨rfl, _, rfl⟩ exMention_args (by decide +kernel) (by decide +kernel)

/-- `C136_obsolete_partial` -/
example (q : Path) : ¬ AlreadyNeeded (.dict (exRel exMention)) (.str "S") (.str "Q") q :=
  C136_obsolete_partial exMention_clean exDeclRules_rules List.mem_cons_self (exDecl_inForce exMention_args (by decide))
    (fun q v h => by
      have hm := ((C27_search_partial "Fn::GetAtt" _ (exRel_wf exMention_wf)).1 _ _).2 ⟨h, q, rfl⟩
      rw [show searchDeepKeys "Fn::GetAtt" (.dict (exRel exMention)) (.dict []) = [] by decide +kernel] at hm
      cases hm)
    (p := [.str "Resources", .str "S", .str "DependsOn"])
    (.one (r := [(.str "Type", .str "A"), (.str "Condition", .str "C1"), (.str "DependsOn", .str "Q"),
        (.str "Properties", .dict [(.str "X", .dict [(.str "Ref", .str "R")])])])
      ⟨_, exMention, .str "A", rfl, by simp [exRel], List.mem_cons_of_mem _ List.mem_cons_self, List.mem_cons_self, by simp⟩ (by simp) rfl (by simp)) q

theorem exMention_requires {c : String} {x : Bool}
    (h : Requires (.dict (exRel exMention)) [.str "Resources", .str "S", .str "Properties", .str "X", .str "Ref"] c x) : c = "C1" ∧ x = true := by
  have hno : Key.str "Fn::If" ∉ [Key.str "Resources", .str "S", .str "Properties", .str "X", .str "Ref"] := by decide
  cases h with
  | yes h1 => rw [h1] at hno; simp at hno
  | no h1 => rw [h1] at hno; simp at hno
  | entry h1 h2 h3 h4 =>
    simp at h1
    obtain ⟨rfl, rfl, _⟩ := h1
    cases (follow_at (exRel_wf exMention_wf)).1 h3
    exact ⟨rfl, rfl⟩

/-- `C136_exist_partial` -/
example (b : String → Bool) (hb : b "C1" = true) : b "C1" = true := by
  have hw := exRel_wf exMention_wf
  refine C136_exist_partial exMention_clean exDeclRules_rules List.mem_cons_self (exDecl_inForce exMention_args (by decide)) ?_
    (H := exHash) (fuel := 5) rfl (R := "R") (.ref (q := [.str "Resources", .str "S", .str "Properties", .str "X"]) ((follow_at hw).2 rfl))
    (by decide) (by decide) (by decide) ?_ ⟨exMention, _, (follow_at hw).2 rfl, List.mem_cons_self, by simp⟩
    ⟨(follow_at hw).2 rfl, by decide⟩
    (exRel_deployment (s := "a") exMention_wf (by decide) (.inl rfl) ?_ hb) ?_ ?_
  · intro s
    have : relationsRule (fun _ s => s) (Conditions.init exHash 5 (.dict (exRel exMention))).1 (.dict (exRel exMention)) (.dict []) = .ok [] := by decide +kernel
    rw [this]
    simp
  · refine ⟨by simp, ⟨_, (follow_at hw).2 rfl⟩, ?_, ?_, ?_⟩
    · decide
    · intro q' c a b h _
      have := h.subset (List.mem_append_right _ List.mem_cons_self)
      exact absurd this (by decide)
    · intro sec name r h _
      simp at h
      obtain ⟨rfl, rfl, _⟩ := h
      exact ⟨exMention, _, (follow_at hw).2 rfl, List.mem_cons_of_mem _ List.mem_cons_self, by simp⟩
  · rintro c (hc | ⟨x, hx⟩)
    · exact hc
    · exact (exMention_requires hx).1
  · intro c x hx
    obtain ⟨rfl, rfl⟩ := exMention_requires hx
    exact hb
  · intro hx
    cases (exMention_requires hx).2

end CfnLint
