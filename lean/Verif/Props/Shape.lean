import Verif.Props.Closed
import Verif.Props.Declared
import Verif.Props.SectionNames
import Verif.Props.RefRules
import Verif.Props.Outputs
/-
Property C130: what status 0 says of the form of the sections of a template, when the rules on their form are in force; and that
what the rules on names need of the template then follows.
-/
namespace CfnLint

open Spec

/-- the rules on the form of the sections, each with the function it calls on the template; the messages are arbitrary, and so is
how the paths of the rules on the names of a section are made -/
structure ShapeRules (beh : RuleObj → Behaviour) (specs : List (String × TypeTable)) (registry regs : List String) (place : LimitMatch → Path) : Prop where
  E1020 : ∀ r, r.info.id = "E1020" → ∃ msg, (beh r).whole = some (fun t => withText id msg (.ok (refTextRule t (.dict []))))
  E2001 : ∀ r, r.info.id = "E2001" → ∃ msg, (beh r).whole = some (fun t => withText Prod.fst msg (parametersRule t))
  E2002 : ∀ r, r.info.id = "E2002" → ∃ msg, (beh r).whole = some (fun t => withText id msg (parameterTypesRule t))
  E2003 : ∀ r, r.info.id = "E2003" → ∃ msg, (beh r).whole = some (fun t => withText place msg (alphanumericName t .parameters))
  E3001 : ∀ r, r.info.id = "E3001" → ∃ msg, (beh r).whole = some (fun t => withText Prod.fst msg (resourcesRule specs registry regs t))
  E3006 : ∀ r, r.info.id = "E3006" → ∃ msg, (beh r).whole = some (fun t => withText place msg (alphanumericName t .resources))
  E6001 : ∀ r, r.info.id = "E6001" → ∃ msg, (beh r).whole = some (fun t => withText id msg (outputsRule t))
  E6002 : ∀ r, r.info.id = "E6002" → ∃ msg, (beh r).whole = some (fun t => withText id msg (outputRequiredRule t))
  E6004 : ∀ r, r.info.id = "E6004" → ∃ msg, (beh r).whole = some (fun t => withText place msg (alphanumericName t .outputs))
  E6005 : ∀ r, r.info.id = "E6005" → ∃ msg, (beh r).whole = some (fun t => withText id msg (outputTextRule t))

/-- a text or a list, on which a missing attribute goes unreported -/
def Spec.TextOrList (v : Val) : Prop := (∃ s, v = .str s) ∨ ∃ xs, v = .list xs

/-- letters and digits, and possibly a line break at the end -/
def Spec.SectionName (n : String) : Prop := MaybeBreak Alnum n

/-- the parameters are well declared: an object of objects with names of letters and digits, with known properties of the right
types, and with known types -/
structure Spec.ParamsDeclared (t : Val) : Prop where
  section_ : ∀ v, At t [.str "Parameters"] v → ∃ ps, v = .dict ps
  object : ∀ n v, ParamIs t n v → (∃ s, n = .str s ∧ SectionName s) ∧ ∃ o, v = .dict o
  found : ∀ x, ¬ ParamFinding t x
  types : ∀ n o v, ParamIs t n (.dict o) → (Key.str "Type", v) ∈ o → ∃ s, v = .str s ∧ ParamTypeName s

/-- the resources are well declared: an object of objects with names of letters and digits; types and conditions are texts, the
types are known, and so are the attributes -/
structure Spec.ResourcesDeclared (specs : List (String × TypeTable)) (registry regs : List String) (t : Val) : Prop where
  section_ : ∀ v, At t [.str "Resources"] v → ∃ rs, v = .dict rs
  object : ∀ n v, ResourceIs t n v → (∃ s, n = .str s ∧ SectionName s) ∧ ∃ o, v = .dict o
  found : ∀ x, ¬ ResourceFinding specs registry regs t x

/-- the outputs are well declared: objects with names of letters and digits, with a value, known properties and descriptions that
are texts -/
structure Spec.OutputsDeclared (t : Val) : Prop where
  section_ : ∀ v, At t [.str "Outputs"] v → v.truthy = true → ∃ outs, v = .dict outs
  object : ∀ n v, OutputIs t n v → (∃ s, n = .str s ∧ SectionName s) ∧ ∃ o, v = .dict o
  found : ∀ p, ¬ OutputFinding t p
  value : ∀ n o, OutputIs t n (.dict o) → ∃ w, (Key.str "Value", w) ∈ o
  description : ∀ n o w, OutputIs t n (.dict o) → (Key.str "Description", w) ∈ o → w.truthy = true → ∃ s, w = .str s

/-! ### the rules that fail on attributes -/

theorem attrErr_plain {v : Val} {name s : String} (h : ¬ TextOrList v) (hd : ∀ kvs, v ≠ .dict kvs) : attrErr v name ≠ .templateAttributeError s := by
  cases v with
  | str x => exact absurd (.inl ⟨_, rfl⟩) h
  | list x => exact absurd (.inr ⟨_, rfl⟩) h
  | dict x => exact absurd rfl (hd _)
  | _ => exact nofun

theorem gatherAll_error {α : Type} {f : α → PyM (List LimitMatch)} {e : PyErr} : ∀ {l : List α}, gatherAll f l = .error e → ∃ a ∈ l, f a = .error e
  | [], h => by cases h
  | a :: l, h => by
    rw [gatherAll] at h
    split at h
    · rename_i e' he
      cases h
      exact ⟨a, List.mem_cons_self, he⟩
    · split at h
      · rename_i he
        cases h
        obtain ⟨b, hb, h'⟩ := gatherAll_error he
        exact ⟨b, List.mem_cons_of_mem _ hb, h'⟩
      · cases h

/-- the rules on the names of a section do not fail on an attribute of a template node when the section is no text or list -/
theorem alphanumeric_plain {top : List (Key × Val)} (s : Sect) (hn : ∀ v, At (.dict top) [.str s.key] v → ¬ TextOrList v) (x : String) :
    alphanumericName (.dict top) s ≠ .error (.templateAttributeError x) := by
  intro h
  unfold alphanumericName at h
  dsimp only [Val.getD] at h
  split at h
  · rename_i he
    cases h
    revert he
    cases e : dlookup (Key.str s.key) top with
    | none => exact nofun
    | some v =>
      intro he
      have hv := hn v (at_dict_one.2 (dlookup_mem e))
      cases v with
      | dict kvs => cases he
      | str x => exact hv (.inl ⟨_, rfl⟩)
      | list x => exact hv (.inr ⟨_, rfl⟩)
      | none => cases he
      | bool b => cases he
      | int i => cases he
      | flt r => cases he
  · obtain ⟨⟨k, w⟩, _, hk⟩ := gatherAll_error h
    unfold oddName at hk
    split at hk <;> cases hk

section Clean

variable {objs : List RuleObj} {args : Sources} {all : List String} {regions : List Val} {S : TypeSpecs}
  {beh : RuleObj → Behaviour} {name : Val → String} {mark : Val → MVal} {print : List Match → PyM Unit} {ds : List Decoded}
  {specs : List (String × TypeTable)} {registry regs : List String} {place : LimitMatch → Path}

/-- a rule on the names of a section, in force: the section is an object whose names are texts of letters and digits, unless it is
a text or a list -/
theorem names_found (h : CleanRun objs args all regions S beh name mark print ds) {d : Decoded} (hd : d ∈ ds) {info : RuleInfo}
    (hf : InForce objs args d.template info) {s : Sect}
    (hb : ∀ r, r.info.id = info.id → ∃ msg, (beh r).whole = some (fun t => withText place msg (alphanumericName t s)))
    {v : Val} (hv : At d.template [.str s.key] v) (hn : ¬ TextOrList v) :
    ∃ kvs, v = .dict kvs ∧ ∀ k w, (k, w) ∈ kvs → ∃ n, k = .str n ∧ SectionName n := by
  obtain ⟨top, ht⟩ := clean_object h hd
  have hw := clean_wf h hd
  have hl := whole_silent h hd hf hb (fun x => by
    rw [ht] at hv hw ⊢
    exact alphanumeric_plain s (fun w hw' => by rw [at_det hw hw' hv]; exact hn) x)
  rw [ht] at hv hw hl
  have hno : ¬ ((∀ kvs, v ≠ .dict kvs) ∨ ∃ i w, At v [.int i] w ∧ ∃ kvs, v = .dict kvs) := by
    intro hr
    obtain ⟨e, he⟩ := C122_raises hw hv hr
    rw [hl] at he
    cases he
  have hdict : ∃ kvs, v = .dict kvs := by
    by_contra hc
    exact hno (.inl (fun kvs e => hc ⟨kvs, e⟩))
  obtain ⟨kvs, rfl⟩ := hdict
  have htext : ∀ k w, (k, w) ∈ kvs → ∃ n, k = .str n := by
    intro k w hm
    cases k with
    | str n => exact ⟨n, rfl⟩
    | int i => exact absurd (.inr ⟨i, w, at_dict_one.2 hm, kvs, rfl⟩) hno
  refine ⟨kvs, rfl, fun k w hm => ?_⟩
  obtain ⟨n, rfl⟩ := htext k w hm
  refine ⟨n, rfl, ?_⟩
  obtain ⟨l, h1, -, h2⟩ := C122_names hw s (fun u hu => by
    cases at_det hw hu hv
    exact ⟨kvs, rfl, htext⟩)
  rw [hl] at h1
  cases h1
  by_contra hc
  have hm' := (h2 _).2 ⟨n, w, .key (at_dict_one.1 hv) (.key hm .here), hc, rfl⟩
  cases hm'

/-- **C130** When the script ends with status 0 and E3001 and E3006 are in force, the resources of every template are well declared. -/
theorem C130_resources (h : CleanRun objs args all regions S beh name mark print ds) (hb : ShapeRules beh specs registry regs place)
    {region : String} {table : TypeTable} (hr : regs.head? = some region) (hs : dlookup region specs = some table)
    {d : Decoded} (hd : d ∈ ds) (h1 : InForce objs args d.template { id := "E3001" }) (h6 : InForce objs args d.template { id := "E3006" }) :
    ResourcesDeclared specs registry regs d.template := by
  have hw := clean_wf h hd
  have hnone : (∀ n o c, ResourceIs d.template n (.dict o) → (Key.str "Type", c) ∈ o → (∀ s, c ≠ .str s) → ∃ s, n = .str s) →
      ∀ x, ¬ ResourceFinding specs registry regs d.template x := by
    intro hk x hx
    obtain ⟨top, ht⟩ := clean_object h hd
    rw [ht] at hk hw hx
    obtain ⟨l, hl, hmem⟩ := C119_resources_partial hw hr hs hk
    rw [← ht] at hl
    cases whole_found h hd h1 hb.E3001 hl
    cases (hmem x).2 hx
  have hdict : ∀ v, At d.template [.str "Resources"] v → ∃ rs, v = .dict rs := by
    intro v hv
    by_contra hc
    refine hnone ?_ _ (.resources hv (fun rs e => hc ⟨rs, e⟩))
    rintro n o c ⟨rs, h1', _⟩ _ _
    exact absurd ⟨rs, at_det hw hv h1'⟩ hc
  have hnames : ∀ n v, ResourceIs d.template n v → ∃ s, n = .str s ∧ SectionName s := by
    rintro n v ⟨rs, hrs, hm⟩
    obtain ⟨kvs, e, hk⟩ := names_found h hd h6 (s := .resources) hb.E3006 hrs (by rintro (⟨_, e⟩ | ⟨_, e⟩) <;> cases e)
    cases e
    exact hk n v hm
  have hfound := hnone (fun n o c hn _ _ => by
    obtain ⟨s, e, _⟩ := hnames _ _ hn
    exact ⟨s, e⟩)
  refine ⟨hdict, fun n v hn => ⟨hnames n v hn, ?_⟩, hfound⟩
  by_contra hc
  exact hfound _ (.shape hn (fun o e => hc ⟨o, e⟩))

/-- the parameters that E2001 takes -/
theorem parameterItems_mem {top : List (Key × Val)} {ps : List (Key × Val)} (h : parameterItems (.dict top) = .ok ps) {kv : Key × Val} (hm : kv ∈ ps) :
    ParamIs (.dict top) kv.1 kv.2 := by
  unfold parameterItems at h
  dsimp only [Val.getD] at h
  split at h
  · cases e : dlookup (Key.str "Parameters") top with
    | none =>
      rw [e] at h
      cases h
      cases hm
    | some v =>
      rw [e, Option.getD_some] at h
      cases v with
      | dict kvs =>
        cases h
        exact ⟨_, at_dict_one.2 (dlookup_mem e), hm⟩
      | _ => cases h
  · cases h
    cases hm

/-- **C130** … and E2001, E2002 and E2003 are in force, the parameters of every template are well declared. Missing: where the section or a
parameter is a text or a list, the rules stop without a finding. -/
theorem C130_parameters_partial (h : CleanRun objs args all regions S beh name mark print ds) (hb : ShapeRules beh specs registry regs place)
    {d : Decoded} (hd : d ∈ ds) (h1 : InForce objs args d.template { id := "E2001" }) (h2 : InForce objs args d.template { id := "E2002" })
    (h3 : InForce objs args d.template { id := "E2003" }) (hs : ∀ v, At d.template [.str "Parameters"] v → ¬ TextOrList v)
    (hp : ∀ n v, ParamIs d.template n v → ¬ TextOrList v) : ParamsDeclared d.template := by
  have hw := clean_wf h hd
  have hsec : ∀ v, At d.template [.str "Parameters"] v → ∃ kvs, v = .dict kvs ∧ ∀ k w, (k, w) ∈ kvs → ∃ n, k = .str n ∧ SectionName n :=
    fun v hv => names_found h hd h3 (s := .parameters) hb.E2003 hv (hs v hv)
  obtain ⟨top, ht⟩ := clean_object h hd
  have hobj : ∀ n v, ParamIs d.template n v → ∃ o, v = .dict o := by
    have hl := whole_silent h hd h1 hb.E2001 (fun x hx => by
      rw [ht] at hx
      unfold parametersRule at hx
      split at hx
      · rename_i e he
        cases hx
        unfold parameterItems at he
        dsimp only [Val.getD] at he
        split at he
        · cases e : dlookup (Key.str "Parameters") top with
          | none =>
            rw [e] at he
            cases he
          | some v =>
            rw [e, Option.getD_some] at he
            obtain ⟨kvs, rfl, _⟩ := hsec v (by rw [ht]; exact at_dict_one.2 (dlookup_mem e))
            cases he
        · cases he
      · rename_i ps he
        obtain ⟨⟨n, v⟩, hm, hc⟩ := collectM_error hx
        have hpi := parameterItems_mem he hm
        unfold paramCheck at hc
        split at hc
        · cases hc
        · rename_i hv'
          injection hc with hc
          exact attrErr_plain (hp n v (by rw [ht]; exact hpi)) (fun o e => hv' o e) hc)
    intro n v hn
    by_contra hc
    rw [ht] at hn hw hl
    obtain ⟨⟨e, he⟩, _⟩ := C119_parameters_raises hw hn (fun o e => hc ⟨o, e⟩)
    rw [hl] at he
    cases he
  have hnames : ∀ n v, ParamIs d.template n v → ∃ s, n = .str s ∧ SectionName s := by
    rintro n v ⟨ps, hps, hm⟩
    obtain ⟨kvs, e, hk⟩ := hsec _ hps
    cases e
    exact hk n v hm
  refine ⟨fun v hv => (hsec v hv).imp fun _ e => e.1, fun n v hn => ⟨hnames n v hn, hobj n v hn⟩, fun x hx => ?_, fun n o v hn hm => ?_⟩
  · have hsec' : ∀ v, At d.template [.str "Parameters"] v → v.truthy = true → ∃ ps, v = .dict ps := fun v hv _ => (hsec v hv).imp fun _ e => e.1
    rw [ht] at hw hobj hsec' hx
    obtain ⟨l, hl, hmem⟩ := C119_parameters hw hsec' hobj
    rw [← ht] at hl
    cases whole_found h hd h1 hb.E2001 hl
    cases (hmem x).2 hx
  · have hsec' : ∀ v, At d.template [.str "Parameters"] v → v.truthy = true → ∃ ps, v = .dict ps := fun v hv _ => (hsec v hv).imp fun _ e => e.1
    by_contra hc
    rw [ht] at hw hobj hsec' hn
    obtain ⟨l, hl, hmem⟩ := C119_types hw hsec' hobj
    rw [← ht] at hl
    cases whole_found h hd h2 hb.E2002 hl
    cases (hmem _).2 ⟨n, o, v, hn, hm, fun s e hs' => hc ⟨s, e, hs'⟩, rfl⟩

/-- **C130** … and E6001, E6002, E6004 and E6005 are in force, the outputs of every template are well declared. Missing: where an output is a text
or a list, the rules stop without a finding. -/
theorem C130_outputs_partial (h : CleanRun objs args all regions S beh name mark print ds) (hb : ShapeRules beh specs registry regs place)
    {d : Decoded} (hd : d ∈ ds) (h1 : InForce objs args d.template { id := "E6001" }) (h2 : InForce objs args d.template { id := "E6002" })
    (h4 : InForce objs args d.template { id := "E6004" }) (h5 : InForce objs args d.template { id := "E6005" })
    (hp : ∀ n v, OutputIs d.template n v → ¬ TextOrList v) : OutputsDeclared d.template := by
  have hw := clean_wf h hd
  obtain ⟨top, ht⟩ := clean_object h hd
  have hnames : ∀ n v, OutputIs d.template n v → ∃ s, n = .str s ∧ SectionName s := by
    rintro n v ⟨outs, ho, hm⟩
    obtain ⟨kvs, e, hk⟩ := names_found h hd h4 (s := .outputs) hb.E6004 ho (by rintro (⟨_, e⟩ | ⟨_, e⟩) <;> cases e)
    cases e
    exact hk n v hm
  have hobj : ∀ n v, OutputIs d.template n v → ∃ o, v = .dict o := by
    intro n v hn
    by_contra hc
    have hno := hp n v hn
    have hl := whole_silent h hd h2 hb.E6002 (fun x hx => by
      rw [ht] at hx
      obtain ⟨outs, ho, _⟩ := hn
      rw [ht] at ho hw
      unfold outputRequiredRule at hx
      dsimp only [Val.getD] at hx
      rw [Val.WF] at hw
      rw [dlookup_of_mem hw.1 (at_dict_one.1 ho), Option.getD_some] at hx
      obtain ⟨⟨m, w⟩, _, hq⟩ := collectM_error hx
      unfold outputRequired at hq
      split at hq
      · rename_i e he
        cases hq
        revert he
        cases w <;> simp [pyIn]
      · cases hq)
    rw [ht] at hn hw hl
    obtain ⟨e, he⟩ := C118_required_raises hw (.inr ⟨n, v, hn, fun o e => hc ⟨o, e⟩, fun xs e => hno (.inr ⟨xs, e⟩), fun s e => hno (.inl ⟨s, e⟩)⟩)
    rw [hl] at he
    cases he
  have hfound : ∀ p, ¬ OutputFinding d.template p := by
    intro p hx
    have hboth : ∀ n v, OutputIs d.template n v → (∃ s, n = .str s) ∧ ∃ o, v = .dict o := fun n v hn =>
      ⟨(hnames n v hn).imp fun _ e => e.1, hobj n v hn⟩
    rw [ht] at hw hboth hx
    obtain ⟨l, hl, hmem⟩ := C118_outputs_partial hw hboth
    rw [← ht] at hl
    cases whole_found h hd h1 hb.E6001 hl
    cases (hmem p).2 hx
  have hsec : ∀ v, At d.template [.str "Outputs"] v → v.truthy = true → ∃ outs, v = .dict outs := by
    intro v hv hv'
    by_contra hc
    exact hfound _ (.outputs hv hv' fun outs e => hc ⟨outs, e⟩)
  refine ⟨hsec, fun n v hn => ⟨hnames n v hn, hobj n v hn⟩, hfound, fun n o hn => ?_, fun n o w hn hm hv => ?_⟩
  · by_contra hc
    rw [ht] at hw hsec hobj hn
    obtain ⟨l, hl, hmem⟩ := C118_required hw hsec (fun n v hn => .inl (hobj n v hn))
    rw [← ht] at hl
    cases whole_found h hd h2 hb.E6002 hl
    have hv : ¬ ValueIn (.dict o) := by
      rintro (⟨o', w, e, hm⟩ | ⟨_, e, _⟩ | ⟨_, e, _⟩)
      · cases e
        exact hc ⟨w, hm⟩
      · cases e
      · cases e
    cases (hmem _).2 ⟨n, _, hn, hv, rfl⟩
  · by_contra hc
    rw [ht] at hw hsec hobj hn
    obtain ⟨l, hl, hmem⟩ := C118_texts hw hsec hobj
    rw [← ht] at hl
    cases whole_found h hd h5 hb.E6005 hl
    cases (hmem _).2 ⟨n, o, w, hn, hm, ⟨hv, fun s e => hc ⟨s, e⟩⟩, rfl⟩

/-- names of letters and digits have no characters that are special in a pattern -/
theorem plain_name {n : String} (h : SectionName n) : PlainName n := by
  have hal : ∀ c, ('a' ≤ c ∧ c ≤ 'z') ∨ ('A' ≤ c ∧ c ≤ 'Z') ∨ ('0' ≤ c ∧ c ≤ '9') →
      c ∉ ['.', '^', '$', '*', '+', '?', '{', '}', '[', ']', '\\', '|', '(', ')'] := by
    intro c hc hm
    simp only [List.mem_cons, List.not_mem_nil, or_false] at hm
    rcases hm with rfl | rfl | rfl | rfl | rfl | rfl | rfl | rfl | rfl | rfl | rfl | rfl | rfl | rfl <;> revert hc <;> decide
  obtain ⟨l, hl, e | e⟩ := h
  · intro c hc
    exact hal c (hl c (e ▸ hc))
  · intro c hc
    rw [e, List.mem_append] at hc
    rcases hc with hc | hc
    · exact hal c (hl c hc)
    · rw [List.mem_singleton.1 hc]
      decide

/-- what the rules on references need of the sections, from the form of the sections -/
theorem sections_ok {t : Val} (hw : t.WF) (ht : ∃ kvs, t = .dict kvs) (hp : ParamsDeclared t) (hr : ResourcesDeclared specs registry regs t) : SectionsOk t where
  wf := hw
  top := ht
  params := by
    intro s hs
    obtain ⟨kvs, rfl⟩ := hp.section_ s hs
    refine ⟨kvs, rfl, fun kv hm => ?_⟩
    obtain ⟨⟨n, e, hn⟩, hb⟩ := hp.object kv.1 kv.2 ⟨kvs, hs, hm⟩
    exact ⟨⟨n, e, plain_name hn⟩, hb⟩
  resources := by
    intro s hs
    obtain ⟨kvs, rfl⟩ := hr.section_ s hs
    refine ⟨kvs, rfl, fun kv hm => ?_⟩
    obtain ⟨⟨n, e, hn⟩, o, ho⟩ := hr.object kv.1 kv.2 ⟨kvs, hs, hm⟩
    refine ⟨⟨n, e, plain_name hn⟩, o, ho, fun ty hty => ?_⟩
    by_contra hc
    exact hr.found _ (.typeText (n := kv.1) ⟨kvs, hs, by rw [← ho]; exact hm⟩ hty (fun s e => hc ⟨s, e⟩))

variable {rx : String → String → PyM Bool} {A : AttrSpecs} {find : List Edge → Key → Option (List CycleEdge)}
  {enum : String → List String → List String} {tb : Val → CondTable}

/-- the rules that E1012 builds on -/
def refRuleIds : List String := ["E1012", "E1020", "E2001", "E2002", "E2003", "E3001", "E3006"]

/-- **C130** … and E1012, E1020, E2001, E2002, E2003, E3001 and E3006 are in force, every `Ref` is the text of a name that may be referred to. Missing:
parameters that are texts or lists, and names that go on as another. -/
theorem C130_refs_partial (h : CleanRun objs args all regions S beh name mark print ds) (hb : ShapeRules beh specs registry regs place)
    (hb' : NameRules beh rx A find enum tb) (hrx : MatchesPrefixes rx)
    {region : String} {table : TypeTable} (hr : regs.head? = some region) (hs : dlookup region specs = some table)
    {d : Decoded} (hd : d ∈ ds) (hf : ∀ i ∈ refRuleIds, InForce objs args d.template { id := i })
    (hsec : ∀ v, At d.template [.str "Parameters"] v → ¬ TextOrList v) (hp : ∀ n v, ParamIs d.template n v → ¬ TextOrList v)
    {q : Path} {v : Val} (hat : At d.template (q ++ [.str "Ref"]) v)
    (hpre : ∀ s n, v = .str s → Declared d.template n → n.toList <+: s.toList → n = s) : ∃ s, v = .str s ∧ Referable d.template s := by
  have htext : ∀ q v, At d.template (q ++ [.str "Ref"]) v → ∃ s, v = .str s := by
    intro q v hv
    by_contra hc
    have he := whole_found h hd (hf "E1020" (by decide)) hb.E1020 (l := refTextRule d.template (.dict [])) rfl
    have hm := (C116_ref_partial d.template (.dict []) (q ++ [.str "Ref"])).2 ⟨v, ⟨⟨q, rfl⟩, .inl hv⟩, fun s e => hc ⟨s, e⟩⟩
    rw [he] at hm
    cases hm
  obtain ⟨s, rfl⟩ := htext q v hat
  exact ⟨s, rfl, C129_refs_partial h hb' hrx hd (hf "E1012" (by decide))
    (sections_ok (clean_wf h hd) (clean_object h hd)
      (C130_parameters_partial h hb hd (hf "E2001" (by decide)) (hf "E2002" (by decide)) (hf "E2003" (by decide)) hsec hp)
      (C130_resources h hb hr hs hd (hf "E3001" (by decide)) (hf "E3006" (by decide))))
    htext hat (fun n => hpre s n rfl)⟩

end Clean

/-- **C130** in full: when the script ends with status 0 and the rules on the form of the sections are in force, the sections of
every template are well declared -/
def C130_statement : Prop :=
  ∀ (objs : List RuleObj) (args : Sources) (all : List String) (regions : List Val) (S : TypeSpecs)
    (beh : RuleObj → Behaviour) (name : Val → String) (mark : Val → MVal) (print : List Match → PyM Unit) (ds : List Decoded)
    (specs : List (String × TypeTable)) (registry regs : List String) (place : LimitMatch → Path) (region : String) (table : TypeTable),
    regs.head? = some region → dlookup region specs = some table →
    CleanRun objs args all regions S beh name mark print ds → ShapeRules beh specs registry regs place →
    ∀ d ∈ ds, (∀ i ∈ ["E2001", "E2002", "E2003", "E3001", "E3006", "E6001", "E6002", "E6004", "E6005"], InForce objs args d.template { id := i }) →
    ParamsDeclared d.template ∧ ResourcesDeclared specs registry regs d.template ∧ OutputsDeclared d.template

/-- a region with one type, that needs no properties -/
def exTables : List (String × TypeTable) := [("eu", [("T", [("p", false)])])]

/-- the functions of the rules on the form of the sections, and otherwise those on names -/
noncomputable def exShapeWhole (i : String) : Option (Val → PyM (List (Path × String))) :=
  if i = "E1020" then some fun t => withText id (fun _ => "ref") (.ok (refTextRule t (.dict [])))
  else if i = "E2001" then some fun t => withText Prod.fst (fun _ => "parameter") (parametersRule t)
  else if i = "E2002" then some fun t => withText id (fun _ => "type") (parameterTypesRule t)
  else if i = "E2003" then some fun t => withText (fun _ => []) (fun m => m.message) (alphanumericName t .parameters)
  else if i = "E3001" then some fun t => withText Prod.fst (fun _ => "resource") (resourcesRule exTables [] ["eu"] t)
  else if i = "E3006" then some fun t => withText (fun _ => []) (fun m => m.message) (alphanumericName t .resources)
  else if i = "E6001" then some fun t => withText id (fun _ => "output") (outputsRule t)
  else if i = "E6002" then some fun t => withText id (fun _ => "value") (outputRequiredRule t)
  else if i = "E6004" then some fun t => withText (fun _ => []) (fun m => m.message) (alphanumericName t .outputs)
  else if i = "E6005" then some fun t => withText id (fun _ => "description") (outputTextRule t)
  else exWhole i

noncomputable def exShapeRules (r : RuleObj) : Behaviour := { whole := exShapeWhole r.info.id }

theorem exShapeRules_shape : ShapeRules exShapeRules exTables [] ["eu"] (fun _ => []) := by
  constructor <;> intro r hr <;> exact ⟨_, by simp [exShapeRules, exShapeWhole, hr]; rfl⟩

theorem exShapeRules_names : NameRules exShapeRules exRx plainSpecs exFind (fun _ s => s) (fun t => (Conditions.init exHash 5 t).1) := by
  constructor <;> intro r hr <;> first
    | exact ⟨_, by simp [exShapeRules, exShapeWhole, exWhole, hr]; rfl⟩
    | simp [exShapeRules, exShapeWhole, exWhole, hr]

theorem exShapeRules_setUp (r : RuleObj) (t : Val) : (exShapeRules r).setUp t = .ok () := rfl

/-- a template with a parameter, a resource and an output -/
def exSections (p : Val) : Val := .dict [
  (.str "Parameters", .dict [(.str "Env", p)]),
  (.str "Resources", .dict [(.str "R", .dict [(.str "Type", .str "T")])]),
  (.str "Outputs", .dict [(.str "O", .dict [(.str "Value", .dict [(.str "Ref", .str "R")]), (.str "Description", .str "the resource")])])]

/-- a parameter of a template that passes -/
def exParam : Val := .dict [(.str "Type", .str "String"), (.str "Default", .str "x")]

/-- the rules that are run -/
def exShapeIds : List String := ["E1012", "E1020", "E2001", "E2002", "E2003", "E3001", "E3006", "E6001", "E6002", "E6004", "E6005"]

theorem exSections_wf {p : Val} (h : p.WF) : (exSections p).WF := by
  simp [exSections, Val.WF, Val.WFDict, h]

theorem exSections_run {p : Val} (hw : p.WF) (ha : setTemplateArgs (exSections p) = .ok []) (hd : getDirectives (markAll default (exSections p)) = .ok [])
    (hr : runCommand .script (withIds exShapeIds) (c50Args [] false []) (checkWith [] [] ⟨[], []⟩ exShapeRules (fun _ => "t") (markAll default))
      (fun _ => .ok ()) [⟨exSections p, []⟩] = 0) :
    CleanRun (withIds exShapeIds) (c50Args [] false []) [] [] ⟨[], []⟩ exShapeRules (fun _ => "t") (markAll default)
      (fun _ => .ok ()) [⟨exSections p, []⟩] :=
  rules_clean (severity_ids (by decide)) exShapeRules_setUp (exSections_wf hw) ⟨rfl, _, rfl⟩ ha hd hr

theorem exSections_inForce {p : Val} (ha : setTemplateArgs (exSections p) = .ok []) {i : String} (hi : i ∈ exShapeIds) :
    InForce (withIds exShapeIds) (c50Args [] false []) (exSections p) { id := i } := by
  refine rules_inForce hi ha ?_
  revert i
  decide

/-- the full statement does not hold: a parameter that is a text passes -/
theorem C130_text_violated : ¬ C130_statement := by
  intro h
  have ha : setTemplateArgs (exSections (.str "x")) = .ok [] := by decide
  have hrun := exSections_run (p := .str "x") (by simp [Val.WF]) ha (by decide +kernel) (by decide +kernel)
  obtain ⟨hp, _⟩ := h _ _ _ _ _ _ _ _ _ _ _ _ _ _ "eu" _ rfl rfl hrun exShapeRules_shape _ List.mem_cons_self
    (fun i hi => exSections_inForce ha (by revert i; decide))
  obtain ⟨_, o, ho⟩ := hp.object (.str "Env") (.str "x") ⟨_, at_dict_one.2 List.mem_cons_self, List.mem_cons_self⟩
  cases ho

/-! ### the hypotheses are met -/

theorem exSections_args : setTemplateArgs (exSections exParam) = .ok [] := by decide

theorem exSections_clean : CleanRun (withIds exShapeIds) (c50Args [] false []) [] [] ⟨[], []⟩ exShapeRules (fun _ => "t") (markAll default)
      (fun _ => .ok ()) [⟨exSections exParam, []⟩] :=
  exSections_run (by simp [exParam, Val.WF, Val.WFDict]) exSections_args (by decide +kernel) (by decide +kernel)

theorem exSections_param {n : Key} {v : Val} (h : ParamIs (exSections exParam) n v) : v = exParam := by
  obtain ⟨ps, h1, h2⟩ := h
  have h1 := at_dict_one.1 h1
  simp only [List.mem_cons, Prod.mk.injEq, List.not_mem_nil, or_false, Key.str.injEq, Val.dict.injEq] at h1
  rcases h1 with ⟨_, rfl⟩ | ⟨e, _⟩ | ⟨e, _⟩
  · cases List.mem_singleton.1 h2
    rfl
  · exact absurd e (by decide)
  · exact absurd e (by decide)

theorem exSections_section {v : Val} (h : At (exSections exParam) [.str "Parameters"] v) : v = .dict [(.str "Env", exParam)] := by
  have h1 := at_dict_one.1 h
  simp only [List.mem_cons, Prod.mk.injEq, List.not_mem_nil, or_false, Key.str.injEq] at h1
  rcases h1 with ⟨_, rfl⟩ | ⟨e, _⟩ | ⟨e, _⟩
  · rfl
  · exact absurd e (by decide)
  · exact absurd e (by decide)

theorem exSections_output {n : Key} {v : Val} (h : OutputIs (exSections exParam) n v) : ¬ TextOrList v := by
  obtain ⟨ps, h1, h2⟩ := h
  have h1 := at_dict_one.1 h1
  simp only [List.mem_cons, Prod.mk.injEq, List.not_mem_nil, or_false, Key.str.injEq, Val.dict.injEq] at h1
  rcases h1 with ⟨e, _⟩ | ⟨e, _⟩ | ⟨_, rfl⟩
  · exact absurd e (by decide)
  · exact absurd e (by decide)
  · cases List.mem_singleton.1 h2
    rintro (⟨_, e⟩ | ⟨_, e⟩) <;> cases e

theorem exSections_names {sec n : String} {ty : Val} (ha : At (exSections exParam) [.str sec, .str n, .str "Type"] ty) : n = "Env" ∨ n = "R" := by
  rw [at_cons] at ha
  obtain ⟨c, hc, ha⟩ := ha
  rw [at_cons] at ha
  obtain ⟨d, hd, ha⟩ := ha
  rw [exSections, at_dict_one] at hc
  simp only [List.mem_cons, Prod.mk.injEq, Key.str.injEq, List.not_mem_nil, or_false] at hc
  rcases hc with ⟨_, rfl⟩ | ⟨_, rfl⟩ | ⟨_, rfl⟩
  · rw [at_dict_one] at hd; simp at hd; exact .inl hd.1
  · rw [at_dict_one] at hd; simp at hd; exact .inr hd.1
  · rw [at_dict_one] at hd
    simp only [List.mem_cons, Prod.mk.injEq, Key.str.injEq, List.not_mem_nil, or_false] at hd
    obtain ⟨_, rfl⟩ := hd
    rw [at_dict_one] at ha
    simp at ha

/-- `C130_resources` -/
example : ResourcesDeclared exTables [] ["eu"] (exSections exParam) :=
  C130_resources exSections_clean exShapeRules_shape (region := "eu") rfl rfl List.mem_cons_self (exSections_inForce exSections_args (by decide))
    (exSections_inForce exSections_args (by decide))

/-- `C130_parameters_partial` -/
example : ParamsDeclared (exSections exParam) :=
  C130_parameters_partial exSections_clean exShapeRules_shape List.mem_cons_self (exSections_inForce exSections_args (by decide))
    (exSections_inForce exSections_args (by decide)) (exSections_inForce exSections_args (by decide))
    (fun v hv => by rw [exSections_section hv]; rintro (⟨_, e⟩ | ⟨_, e⟩) <;> cases e)
    (fun n v hv => by rw [exSections_param hv]; rintro (⟨_, e⟩ | ⟨_, e⟩) <;> cases e)

/-- `C130_outputs_partial` -/
example : OutputsDeclared (exSections exParam) :=
  C130_outputs_partial exSections_clean exShapeRules_shape List.mem_cons_self (exSections_inForce exSections_args (by decide))
    (exSections_inForce exSections_args (by decide)) (exSections_inForce exSections_args (by decide)) (exSections_inForce exSections_args (by decide))
    (fun _ _ hv => exSections_output hv)

/-- `C130_refs_partial` -/
example : ∃ s, Val.str "R" = .str s ∧ Referable (exSections exParam) s := by
  refine C130_refs_partial exSections_clean exShapeRules_shape exShapeRules_names exRx_ok (region := "eu") rfl rfl List.mem_cons_self
    (fun i hi => exSections_inForce exSections_args (by revert i; decide))
    (fun v hv => by rw [exSections_section hv]; rintro (⟨_, e⟩ | ⟨_, e⟩) <;> cases e)
    (fun n v hv => by rw [exSections_param hv]; rintro (⟨_, e⟩ | ⟨_, e⟩) <;> cases e)
    (q := [.str "Outputs", .str "O", .str "Value"]) ?_ ?_
  · rw [at_ref_iff]
    simp [exSections, exParam, searchVal, searchDict]
  · intro s n e hn hp
    cases e
    cases hn with
    | parameter ha => rcases exSections_names ha with rfl | rfl <;> first | rfl | exact absurd hp (by decide)
    | resource ha _ _ => rcases exSections_names ha with rfl | rfl <;> first | rfl | exact absurd hp (by decide)
    | pseudo hs =>
      revert hp
      revert hs
      revert n
      decide

end CfnLint
