import Mathlib.Data.List.Perm.Subperm
import Verif.Props.Shape
import Verif.Props.Limits
import Verif.Props.Sub
import Verif.Props.CondRules
/-
Property C132: what status 0 says of the sizes of a template, when the rules on the limits are in force; and of the declarations of
a template, when the rules on unused ones are.
-/
namespace CfnLint

open Spec

/-- the rule on the length of the names of a section: mappings/LimitName.py:11, outputs/LimitName.py:11, parameters/LimitName.py:11,
resources/LimitName.py:11 -/
def nameRuleId : Sect → String
  | .mappings => "E7011" | .outputs => "E6011" | .parameters => "E2011" | .resources => "E3011"

/-- the rule on the number of entries of a section: mappings/LimitNumber.py:11, outputs/LimitNumber.py:11,
parameters/LimitNumber.py:11, resources/LimitNumber.py:11 -/
def numberRuleId : Sect → String
  | .mappings => "E7010" | .outputs => "E6010" | .parameters => "E2010" | .resources => "E3010"

/-- the rules on limits, each with the function it calls on the template; the messages are arbitrary, and so is how the paths are
made; `size` is the size of the file that was read -/
structure LimitRules (beh : RuleObj → Behaviour) (size : Val → Option Nat) (place : LimitMatch → Path) : Prop where
  names : ∀ s r, r.info.id = nameRuleId s → ∃ msg, (beh r).whole = some (fun t => withText place msg (nameLimit t s))
  numbers : ∀ s r, r.info.id = numberRuleId s → ∃ msg, (beh r).whole = some (fun t => withText place msg (numberLimit t s))
  E1002 : ∀ r, r.info.id = "E1002" → ∃ msg, (beh r).whole = some (fun t => withText place msg (.ok (templateSizeLimit overTest (size t))))
  E1003 : ∀ r, r.info.id = "E1003" → ∃ msg, (beh r).whole = some (fun t => withText place msg (templateDescriptionLimit overTest t))
  E2012 : ∀ r, r.info.id = "E2012" → ∃ msg, (beh r).whole = some (fun t => withText place msg (valueLimit overTest t))
  E6012 : ∀ r, r.info.id = "E6012" → ∃ msg, (beh r).whole = some (fun t => withText place msg (outputDescriptionLimit overTest t))
  E7012 : ∀ r, r.info.id = "E7012" → ∃ msg, (beh r).whole = some (fun t => withText place msg (attributeLimit overTest t))

/-- the rules on unused declarations, each with the function it calls on the template; no transform is applied, so the references
are those of the template itself -/
structure UsedRules (beh : RuleObj → Behaviour) : Prop where
  W2001 : ∀ r, r.info.id = "W2001" → ∃ msg, (beh r).whole = some (fun t => withText Prod.fst msg (unusedParameters t t))
  W7001 : ∀ r, r.info.id = "W7001" → ∃ msg, (beh r).whole = some (fun t => withText Prod.fst msg (unusedMappings t t))
  W8001 : ∀ r, r.info.id = "W8001" → ∃ msg, (beh r).whole = some (fun t => withText Prod.fst msg (unusedConditions t (.dict [])))

/-- the template keeps to the documented limits -/
structure Spec.WithinLimits (t : Val) : Prop where
  names : ∀ sec ∈ countLimit.map Prod.fst, ∀ k, HasEntry t sec k → ∃ n, k = .str n ∧ n.toList.length ≤ nameLength
  numbers : ∀ sec limit, (sec, limit) ∈ countLimit → ∀ names : List Key, names.Nodup → (∀ k ∈ names, Counts t sec k) → names.length ≤ limit
  description : ∀ s, look t [.str "Description"] = some (.str s) → s.toList.length ≤ 1024
  values : ∀ p v part n, look t [.str "Parameters", p] = some v → ParameterSize v part n → n ≤ 4096
  outputs : ∀ o s, look t [.str "Outputs", o, .str "Description"] = some (.str s) → s.toList.length ≤ 1024
  attributes : ∀ m a e, look t [.str "Mappings", m, a] = some (.dict e) → e.length ≤ 200

/-! ### the rules that find nothing -/

theorem gatherAll_nil {α : Type} {f : α → PyM (List LimitMatch)} : ∀ {l : List α}, gatherAll f l = .ok [] → ∀ a ∈ l, f a = .ok []
  | [], _, a, ha => by cases ha
  | b :: l, h, a, ha => by
    rw [gatherAll] at h
    split at h
    · cases h
    · rename_i ms hms
      split at h
      · cases h
      · rename_i rest hrest
        injection h with h
        obtain ⟨rfl, rfl⟩ := List.append_eq_nil_iff.1 h
        rcases List.mem_cons.1 ha with rfl | ha
        · exact hms
        · exact gatherAll_nil hrest a ha

theorem report_nil {path : List Val} {what unit : String} {limit : Nat} {n : Int} (h : overTest.report path what unit limit n = []) : n ≤ limit := by
  unfold Test.report at h
  split at h
  · cases h
  · rename_i hx
    simp only [overTest, exceeds, decide_eq_true_eq, not_lt] at hx
    exact hx

theorem look_key {top : List (Key × Val)} {k : Key} {v : Val} : look (.dict top) [k] = some v ↔ dlookup k top = some v := by
  unfold look
  split
  · rename_i x hx
    simp [hx, look]
  · rename_i hx
    simp [hx]

theorem look_cons {top : List (Key × Val)} {k : Key} {p : List Key} {w : Val} :
    look (.dict top) (k :: p) = some w ↔ ∃ v, dlookup k top = some v ∧ look v p = some w := by
  rw [look]
  split
  · rename_i x hx
    simp [hx]
  · rename_i hx
    simp [hx]

theorem look_dict {v : Val} {k : Key} {p : List Key} {w : Val} (h : look v (k :: p) = some w) : ∃ kvs, v = .dict kvs := by
  cases v with
  | dict kvs => exact ⟨_, rfl⟩
  | _ => simp [look] at h

theorem keys_distinct {kvs : List (Key × Val)} (h : (Val.dict kvs).WF) : (kvs.map Prod.fst).Nodup := by
  rw [Val.WF] at h
  exact h.1

section Clean

variable {objs : List RuleObj} {args : Sources} {all : List String} {regions : List Val} {S : TypeSpecs}
  {beh : RuleObj → Behaviour} {name : Val → String} {mark : Val → MVal} {print : List Match → PyM Unit} {ds : List Decoded}
  {specs : List (String × TypeTable)} {registry regs : List String} {size : Val → Option Nat} {place : LimitMatch → Path}

theorem nameLimit_plain (top : List (Key × Val)) (s : Sect) (x : String) : nameLimit (.dict top) s ≠ .error (.templateAttributeError x) := by
  intro h
  unfold nameLimit at h
  dsimp only [Val.getD] at h
  split at h
  · rename_i he
    cases h
    unfold iterOf at he
    split at he <;> cases he
  · obtain ⟨a, _, ha⟩ := gatherAll_error h
    unfold nameOver at ha
    split at ha
    · rename_i he
      cases ha
      unfold pyLen at he
      split at he <;> cases he
    · cases ha

/-- **C132** When the script ends with status 0 and the rule on the names of a section is in force, the names of the section are texts
of at most 255 characters. -/
theorem C132_names (h : CleanRun objs args all regions S beh name mark print ds) (hb : LimitRules beh size place) {d : Decoded} (hd : d ∈ ds)
    {s : Sect} (hf : InForce objs args d.template { id := nameRuleId s }) {k : Key} (hk : HasEntry d.template s.key k) :
    ∃ n, k = .str n ∧ n.toList.length ≤ nameLength := by
  obtain ⟨top, ht⟩ := clean_object h hd
  have hl := whole_silent h hd hf (hb.names s) (fun x => by rw [ht]; exact nameLimit_plain top s x)
  rw [ht] at hl hk
  obtain ⟨w, hw⟩ := hk
  obtain ⟨v, hv, hw⟩ := look_cons.1 hw
  obtain ⟨kvs, rfl⟩ := look_dict hw
  unfold nameLimit at hl
  simp only [Val.getD, hv, Option.getD_some, iterOf] at hl
  have hn := gatherAll_nil hl k.toVal (List.mem_map.2 ⟨_, dlookup_mem (look_key.1 hw), rfl⟩)
  cases k with
  | int i => simp [nameOver, Key.toVal, pyLen] at hn
  | str n =>
    refine ⟨n, rfl, ?_⟩
    simp only [nameOver, Key.toVal, pyLen] at hn
    by_contra hc
    have : exceeds (nameMax s) n.toList.length = true := by
      have : nameMax s = nameLength := by cases s <;> rfl
      simp only [exceeds, this, decide_eq_true_eq]
      omega
    rw [if_pos this] at hn
    cases hn

theorem sectionCount_plain (top : List (Key × Val)) (s : Sect) (x : String) : numberLimit (.dict top) s ≠ .error (.templateAttributeError x) := by
  intro h
  unfold numberLimit at h
  split at h
  · rename_i e he
    cases h
    unfold sectionCount at he
    split at he
    · split at he
      · rename_i e' he'
        cases he
        unfold getResources at he'
        simp only [Val.getD] at he'
        split at he'
        · rename_i hx
          cases hx
        · cases he'
        · cases he'
      · cases he
    · simp only [Val.getD] at he
      unfold pyLen at he
      split at he <;> cases he
  · cases h

/-- **C132** … and the rule on the number of entries of a section is in force, the section has at most the documented number. -/
theorem C132_numbers (h : CleanRun objs args all regions S beh name mark print ds) (hb : LimitRules beh size place) {d : Decoded} (hd : d ∈ ds)
    {s : Sect} (hf : InForce objs args d.template { id := numberRuleId s }) {limit : Nat} (hlim : (s.key, limit) ∈ countLimit)
    {names : List Key} (hnd : names.Nodup) (hc : ∀ k ∈ names, Counts d.template s.key k) : names.length ≤ limit := by
  obtain ⟨top, ht⟩ := clean_object h hd
  have hl := whole_silent h hd hf (hb.numbers s) (fun x => by rw [ht]; exact sectionCount_plain top s x)
  rw [ht] at hl hc
  have hmax : numberMax s = limit := by
    cases s <;> simp [Sect.key, countLimit] at hlim <;> simp [numberMax, hlim]
  rcases names with _ | ⟨k0, names'⟩
  · exact Nat.zero_le _
  have hle : ∀ l : List (Key × Val), (∀ k ∈ k0 :: names', k ∈ l.map Prod.fst) → (k0 :: names').length ≤ l.length := by
    intro l hsub
    have := (List.Nodup.subperm hnd hsub).length_le
    rwa [List.length_map] at this
  have hcount : ∀ n : Nat, sectionCount (.dict top) s = .ok n → n ≤ limit := by
    intro n hn
    unfold numberLimit at hl
    rw [hn] at hl
    dsimp only at hl
    rw [hmax] at hl
    by_contra hx
    rw [if_pos (by simp only [exceeds, decide_eq_true_eq]; omega)] at hl
    cases hl
  by_cases hs : s = .resources
  · subst hs
    have h0 := hc k0 List.mem_cons_self
    simp only [Counts, Sect.key, if_true] at h0 hc
    obtain ⟨ty, hty, _⟩ := h0
    obtain ⟨v, hv, hty⟩ := look_cons.1 hty
    obtain ⟨kvs, rfl⟩ := look_dict hty
    refine (hle (kvs.filter isTyped) ?_).trans (hcount _ ?_)
    · intro k hk
      obtain ⟨ty, hty, hne⟩ := hc k hk
      obtain ⟨v', hv', hty⟩ := look_cons.1 hty
      rw [hv] at hv'
      cases hv'
      obtain ⟨r, hr, hty⟩ := look_cons.1 hty
      obtain ⟨o, rfl⟩ := look_dict hty
      refine List.mem_map.2 ⟨(k, .dict o), List.mem_filter.2 ⟨dlookup_mem hr, ?_⟩, rfl⟩
      simp only [isTyped, look_key.1 hty, Option.getD_some, bne_iff_ne, ne_eq]
      exact hne
    · simp [sectionCount, getResources, Val.getD, hv]
  · have hkey : s.key ≠ "Resources" := by cases s <;> first | decide | exact absurd rfl hs
    have h0 := hc k0 List.mem_cons_self
    simp only [Counts, if_neg hkey] at h0 hc
    obtain ⟨w, hw⟩ := h0
    obtain ⟨v, hv, hw⟩ := look_cons.1 hw
    obtain ⟨kvs, rfl⟩ := look_dict hw
    refine (hle kvs ?_).trans (hcount _ ?_)
    · intro k hk
      obtain ⟨w, hw⟩ := hc k hk
      obtain ⟨v', hv', hw⟩ := look_cons.1 hw
      rw [hv] at hv'
      cases hv'
      exact List.mem_map.2 ⟨_, dlookup_mem (look_key.1 hw), rfl⟩
    · simp [sectionCount, hs, Val.getD, hv, pyLen]

/-- **C132** … and E3001, E3006 and E3010 are in force, there are at most 500 resources. -/
theorem C132_resources (h : CleanRun objs args all regions S beh name mark print ds) (hb : LimitRules beh size place)
    (hsh : ShapeRules beh specs registry regs place) {region : String} {table : TypeTable} (hr : regs.head? = some region)
    (hs : dlookup region specs = some table) {d : Decoded} (hd : d ∈ ds) (h1 : InForce objs args d.template { id := "E3001" })
    (h6 : InForce objs args d.template { id := "E3006" }) (h10 : InForce objs args d.template { id := "E3010" })
    {rs : List (Key × Val)} (hrs : look d.template [.str "Resources"] = some (.dict rs)) : rs.length ≤ 500 := by
  have hdecl := C130_resources h hsh hr hs hd h1 h6
  have hw := clean_wf h hd
  obtain ⟨top, ht⟩ := clean_object h hd
  rw [ht] at hdecl hw hrs
  have hd1 := look_key.1 hrs
  have hat : At (.dict top) [.str "Resources"] (.dict rs) := at_dict_one.2 (dlookup_mem hd1)
  have hnd : (rs.map Prod.fst).Nodup := keys_distinct (at_wf hat hw)
  have hlen := C132_numbers h hb hd (s := .resources) h10 (limit := 500) (by decide) hnd (by
    intro k hk
    obtain ⟨⟨k', v⟩, hm, rfl⟩ := List.mem_map.1 hk
    have hri : ResourceIs (.dict top) k' v := ⟨rs, hat, hm⟩
    obtain ⟨_, o, rfl⟩ := hdecl.object k' v hri
    have hto : ∃ ty, TypeIs o ty ∧ ty ≠ "" := by
      by_cases hty : Key.str "Type" ∈ o.map Prod.fst
      · obtain ⟨⟨kk, w⟩, hmw, hkk⟩ := List.mem_map.1 hty
        cases hkk
        by_cases hws : ∃ s, w = .str s
        · obtain ⟨s, rfl⟩ := hws
          refine ⟨s, .inl hmw, ?_⟩
          rintro rfl
          exact hdecl.found _ (.noType hri (.inl hmw))
        · exact absurd (ResourceFinding.typeText hri hmw (fun s e => hws ⟨s, e⟩)) (hdecl.found _)
      · exact absurd (ResourceFinding.noType hri (.inr ⟨rfl, hty⟩)) (hdecl.found _)
    obtain ⟨ty, hti, hne⟩ := hto
    rcases hti with hm' | ⟨e, _⟩
    · rw [ht]
      simp only [Counts, Sect.key, if_true]
      refine ⟨.str ty, ?_, nofun⟩
      refine look_cons.2 ⟨_, hd1, look_cons.2 ⟨.dict o, ?_, look_key.2 ?_⟩⟩
      · exact dlookup_of_mem hnd hm
      · exact dlookup_of_mem (keys_distinct (at_wf (.key (dlookup_mem hd1) (.key hm .here)) hw)) hm'
    · exact absurd e hne)
  rwa [List.length_map] at hlen

/-- **C132** … and E1003 is in force, the description of the template has at most 1024 characters. -/
theorem C132_description (h : CleanRun objs args all regions S beh name mark print ds) (hb : LimitRules beh size place) {d : Decoded} (hd : d ∈ ds)
    (hf : InForce objs args d.template { id := "E1003" }) {s : String} (hs : look d.template [.str "Description"] = some (.str s)) :
    s.toList.length ≤ 1024 := by
  obtain ⟨top, ht⟩ := clean_object h hd
  rw [ht] at hs
  have hl : templateDescriptionLimit overTest d.template =
      .ok (overTest.report [.str "Description"] "The template description" " bytes" descriptionMax s.toList.length) := by
    rw [ht]
    simp [templateDescriptionLimit, Val.getD, look_key.1 hs, pyLen]
  have := report_nil (whole_found h hd hf hb.E1003 hl)
  simp only [descriptionMax] at this
  omega

/-- **C132** … and E1002 is in force, the file has at most a million bytes. -/
theorem C132_size (h : CleanRun objs args all regions S beh name mark print ds) (hb : LimitRules beh size place) {d : Decoded} (hd : d ∈ ds)
    (hf : InForce objs args d.template { id := "E1002" }) {n : Nat} (hs : size d.template = some n) : n ≤ 1000000 := by
  have hl := whole_found h hd hf hb.E1002 rfl
  rw [hs] at hl
  have := report_nil hl
  simp only [bodyMax] at this
  omega

/-- **C132** … and E2012 is in force, the values of the parameters have at most 4096 characters. Missing: where the section or a parameter is
a text or a list, the rule stops without a finding. -/
theorem C132_values_partial (h : CleanRun objs args all regions S beh name mark print ds) (hb : LimitRules beh size place) {d : Decoded} (hd : d ∈ ds)
    (hf : InForce objs args d.template { id := "E2012" }) (hp : ∀ n v, ParamIs d.template n v → ¬ TextOrList v)
    {p : Key} {v : Val} {part : String} {n : Int} (hv : look d.template [.str "Parameters", p] = some v) (hn : ParameterSize v part n) :
    n ≤ 4096 := by
  obtain ⟨top, ht⟩ := clean_object h hd
  rw [ht] at hp hv
  obtain ⟨sec, hsec, hv⟩ := look_cons.1 hv
  obtain ⟨kvs, rfl⟩ := look_dict hv
  have hat : At (.dict top) [.str "Parameters"] (.dict kvs) := at_dict_one.2 (dlookup_mem hsec)
  have hm := dlookup_mem (look_key.1 hv)
  have htr : (Val.dict kvs).truthy = true := by
    cases kvs with
    | nil => cases hm
    | cons a b => rfl
  have hval : valueLimit overTest (.dict top) = gatherAll (parameterValue overTest) kvs := by
    simp [valueLimit, Val.getD, hsec, htr, pyItems]
  have hl := whole_silent h hd hf hb.E2012 (fun x he => by
    rw [ht, hval] at he
    obtain ⟨⟨k, w⟩, hmw, hw⟩ := gatherAll_error he
    unfold parameterValue at hw
    split at hw
    · split at hw
      · rename_i he'
        cases hw
        unfold iterOf at he'
        split at he' <;> cases he'
      · cases hw
    · rename_i hnd
      injection hw with hw
      exact attrErr_plain (hp k w ⟨kvs, hat, hmw⟩) hnd hw)
  rw [ht, hval] at hl
  have h0 := gatherAll_nil hl _ hm
  obtain ⟨o, rfl⟩ : ∃ o, v = .dict o := by
    cases hn <;> rename_i hx <;> first | exact look_dict hx | exact look_dict ‹look v _ = some _›
  simp only [parameterValue] at h0
  split at h0
  · cases h0
  rename_i vs hvs
  injection h0 with h0
  rw [List.append_eq_nil_iff, List.append_eq_nil_iff] at h0
  obtain ⟨⟨h1, h2⟩, h3⟩ := h0
  cases hn with
  | default hx =>
    rw [look_key.1 hx] at h1
    exact report_nil h1
  | maxInt hx =>
    rw [look_key.1 hx] at h2
    exact report_nil h2
  | maxBool hx =>
    rw [look_key.1 hx] at h2
    exact report_nil h2
  | maxStr hx hi =>
    rw [look_key.1 hx] at h2
    simp only [Option.getD_some, maxLengthMatches, maxLengthValue, hi] at h2
    exact report_nil h2
  | allowed hx hs =>
    rw [look_key.1 hx] at hvs
    cases hvs
    exact report_nil (List.flatMap_eq_nil_iff.1 h3 _ hs)

/-- **C132** … and E6012 is in force, the descriptions of the outputs have at most 1024 characters. Missing: where an output is a text or a
list, the rule stops without a finding. -/
theorem C132_outputs_partial (h : CleanRun objs args all regions S beh name mark print ds) (hb : LimitRules beh size place) {d : Decoded} (hd : d ∈ ds)
    (hf : InForce objs args d.template { id := "E6012" }) (hp : ∀ n v, OutputIs d.template n v → ¬ TextOrList v)
    {o : Key} {s : String} (hs : look d.template [.str "Outputs", o, .str "Description"] = some (.str s)) : s.toList.length ≤ 1024 := by
  obtain ⟨top, ht⟩ := clean_object h hd
  rw [ht] at hp hs
  obtain ⟨sec, hsec, hs⟩ := look_cons.1 hs
  obtain ⟨kvs, rfl⟩ := look_dict hs
  obtain ⟨v, hv, hs⟩ := look_cons.1 hs
  obtain ⟨out, rfl⟩ := look_dict hs
  have hat : At (.dict top) [.str "Outputs"] (.dict kvs) := at_dict_one.2 (dlookup_mem hsec)
  have hval : outputDescriptionLimit overTest (.dict top) = gatherAll (outputDescription overTest) kvs := by
    simp [outputDescriptionLimit, Val.getD, hsec, pyItems]
  have hl := whole_silent h hd hf hb.E6012 (fun x he => by
    rw [ht, hval] at he
    obtain ⟨⟨k, w⟩, hmw, hw⟩ := gatherAll_error he
    unfold outputDescription at hw
    split at hw
    · rename_i e he'
      cases hw
      have hpl := hp k w ⟨kvs, hat, hmw⟩
      cases w with
      | dict o => cases he'
      | str x => exact hpl (.inl ⟨_, rfl⟩)
      | list x => exact hpl (.inr ⟨_, rfl⟩)
      | none => cases he'
      | bool b => cases he'
      | int i => cases he'
      | flt r => cases he'
    · split at hw
      · split at hw
        · rename_i he'
          cases hw
          unfold pyLen at he'
          split at he' <;> cases he'
        · cases hw
      · cases hw)
  rw [ht, hval] at hl
  have h0 := gatherAll_nil hl _ (dlookup_mem hv)
  simp only [outputDescription, Val.getD, look_key.1 hs, Option.getD_some, pyLen] at h0
  split at h0
  · injection h0 with h0
    have := report_nil h0
    simp only [outputDescriptionMax] at this
    omega
  · rename_i hx
    have : s = "" := by simpa [Val.truthy] using hx
    subst this
    exact Nat.zero_le _

/-- **C132** … and E7012 is in force, every key of a mapping has at most 200 attributes. Missing: where a mapping is a text or a list, the rule
stops without a finding. -/
theorem C132_attributes_partial (h : CleanRun objs args all regions S beh name mark print ds) (hb : LimitRules beh size place) {d : Decoded} (hd : d ∈ ds)
    (hf : InForce objs args d.template { id := "E7012" }) (hp : ∀ m v, look d.template [.str "Mappings", m] = some v → ¬ TextOrList v)
    {m a : Key} {e : List (Key × Val)} (he : look d.template [.str "Mappings", m, a] = some (.dict e)) : e.length ≤ 200 := by
  obtain ⟨top, ht⟩ := clean_object h hd
  have hw := clean_wf h hd
  rw [ht] at hp he hw
  obtain ⟨sec, hsec, he⟩ := look_cons.1 he
  obtain ⟨kvs, rfl⟩ := look_dict he
  obtain ⟨v, hv, he⟩ := look_cons.1 he
  obtain ⟨atts, rfl⟩ := look_dict he
  have hat : At (.dict top) [.str "Mappings"] (.dict kvs) := at_dict_one.2 (dlookup_mem hsec)
  have hnd : (kvs.map Prod.fst).Nodup := keys_distinct (at_wf hat hw)
  have hval : attributeLimit overTest (.dict top) = gatherAll (mappingAttributes overTest) kvs := by
    simp [attributeLimit, Val.getD, hsec, pyItems]
  have hl := whole_silent h hd hf hb.E7012 (fun x he => by
    rw [ht, hval] at he
    obtain ⟨⟨k, w⟩, hmw, hw⟩ := gatherAll_error he
    unfold mappingAttributes at hw
    split at hw
    · rename_i e' he'
      cases hw
      have hpl := hp k w (look_cons.2 ⟨_, hsec, look_key.2 (dlookup_of_mem hnd hmw)⟩)
      cases w with
      | dict o => cases he'
      | str x => exact hpl (.inl ⟨_, rfl⟩)
      | list x => exact hpl (.inr ⟨_, rfl⟩)
      | none => cases he'
      | bool b => cases he'
      | int i => cases he'
      | flt r => cases he'
    · obtain ⟨a, _, ha⟩ := gatherAll_error hw
      unfold mappingAttribute at ha
      split at ha
      · rename_i he'
        cases ha
        unfold pyLen at he'
        split at he' <;> cases he'
      · cases ha)
  rw [ht, hval] at hl
  have h0 := gatherAll_nil hl _ (dlookup_mem hv)
  simp only [mappingAttributes, pyItems] at h0
  have h1 := gatherAll_nil h0 _ (dlookup_mem (look_key.1 he))
  simp only [mappingAttribute, pyLen] at h1
  injection h1 with h1
  have := report_nil h1
  simp only [attributesMax] at this
  omega

/-- **C132** When the script ends with status 0 and W2001 is in force, every parameter is referred to. Missing: calls of `Fn::Sub` of another
form, and variables of `Fn::Sub` with the name of a parameter. -/
theorem C132_parameters_used_partial (h : CleanRun objs args all regions S beh name mark print ds) (hb : UsedRules beh) {d : Decoded} (hd : d ∈ ds)
    (hf : InForce objs args d.template { id := "W2001" }) (hs : SubShape d.template) (ht : TextSection d.template "Parameters")
    (hns : NoShadow d.template d.template) {k : Key} {v : Val} (hat : At d.template [.str "Parameters", k] v) :
    ∃ c, k = .str c ∧ UsesParam d.template c := by
  have hw := clean_wf h hd
  obtain ⟨out, ho, _, hx⟩ := C57_exact_partial _ _ hw hw hs ht hns
  cases whole_found h hd hf hb.W2001 ho
  rw [at_cons] at hat
  obtain ⟨u, hu, hat'⟩ := hat
  obtain ⟨kvs, rfl, hk⟩ := ht.2 u hu
  obtain ⟨c, rfl⟩ := hk _ _ (at_dict_one.1 hat')
  refine ⟨c, rfl, ?_⟩
  by_contra hc
  cases (hx _ _).2 ⟨c, v, rfl, rfl, at_cons.2 ⟨_, hu, hat'⟩, hc⟩

/-- **C132** … and W8001 is in force, every condition is used. Missing: other forms of the sections and of `Fn::If`. -/
theorem C132_conditions_used_partial (h : CleanRun objs args all regions S beh name mark print ds) (hb : UsedRules beh) {d : Decoded} (hd : d ∈ ds)
    (hf : InForce objs args d.template { id := "W8001" }) (hs : CondShape d.template) {c : String} (hc : DefinesCond d.template c) :
    ∃ q, UsesCond d.template c q := by
  obtain ⟨out, ho, _, hx⟩ := C53_exact_partial _ (clean_wf h hd) hs
  cases whole_found h hd hf hb.W8001 ho
  by_contra hn
  cases (hx _ _).2 ⟨c, rfl, rfl, hc, hn⟩

/-- **C132** … and W7001 is in force, every mapping is used, or the name of a mapping is computed. Missing: other forms of the section and of
`Fn::FindInMap`. -/
theorem C132_mappings_used_partial (h : CleanRun objs args all regions S beh name mark print ds) (hb : UsedRules beh) {d : Decoded} (hd : d ∈ ds)
    (hf : InForce objs args d.template { id := "W7001" }) (hs : FindInMapShape d.template) (ht : TextSection d.template "Mappings")
    {k : Key} {v : Val} (hat : At d.template [.str "Mappings", k] v) :
    ∃ c, k = .str c ∧ (UsesMap d.template c ∨ ComputedMap d.template) := by
  have hw := clean_wf h hd
  obtain ⟨out, ho, _, hx⟩ := C58_exact_partial _ _ hw hw hs ht
  cases whole_found h hd hf hb.W7001 ho
  rw [at_cons] at hat
  obtain ⟨u, hu, hat'⟩ := hat
  obtain ⟨kvs, rfl, hk⟩ := ht.2 u hu
  obtain ⟨c, rfl⟩ := hk _ _ (at_dict_one.1 hat')
  refine ⟨c, rfl, ?_⟩
  by_contra hc
  cases (hx _ _).2 ⟨c, v, rfl, rfl, at_cons.2 ⟨_, hu, hat'⟩, fun hm => hc (.inl hm), fun hm => hc (.inr hm)⟩

end Clean

/-- every declaration is used: the parameters and the conditions, and the mappings unless the name of one is computed -/
structure Spec.AllUsed (t : Val) : Prop where
  parameters : ∀ c v, At t [.str "Parameters", .str c] v → UsesParam t c
  conditions : ∀ c, DefinesCond t c → ∃ q, UsesCond t c q
  mappings : ∀ c v, At t [.str "Mappings", .str c] v → UsesMap t c ∨ ComputedMap t

/-- the rules on limits -/
def limitRuleIds : List String :=
  ["E1003", "E2010", "E2011", "E2012", "E3010", "E3011", "E6010", "E6011", "E6012", "E7010", "E7011", "E7012"]

theorem limited_section {sec : String} (h : sec ∈ countLimit.map Prod.fst) : ∃ s : Sect, s.key = sec ∧ nameRuleId s ∈ limitRuleIds ∧ numberRuleId s ∈ limitRuleIds := by
  simp only [countLimit, List.map_cons, List.map_nil, List.mem_cons, List.not_mem_nil, or_false] at h
  rcases h with rfl | rfl | rfl | rfl
  · exact ⟨.mappings, rfl, by decide, by decide⟩
  · exact ⟨.outputs, rfl, by decide, by decide⟩
  · exact ⟨.parameters, rfl, by decide, by decide⟩
  · exact ⟨.resources, rfl, by decide, by decide⟩

/-- **C132** … and the rules on limits are in force, every template keeps to the limits. Missing: parameters, outputs and mappings that are
texts or lists. -/
theorem C132_limits_partial {objs : List RuleObj} {args : Sources} {all : List String} {regions : List Val} {S : TypeSpecs}
    {beh : RuleObj → Behaviour} {name : Val → String} {mark : Val → MVal} {print : List Match → PyM Unit} {ds : List Decoded}
    {size : Val → Option Nat} {place : LimitMatch → Path} (h : CleanRun objs args all regions S beh name mark print ds)
    (hb : LimitRules beh size place) {d : Decoded} (hd : d ∈ ds) (hf : ∀ i ∈ limitRuleIds, InForce objs args d.template { id := i })
    (hp : ∀ n v, ParamIs d.template n v → ¬ TextOrList v) (ho : ∀ n v, OutputIs d.template n v → ¬ TextOrList v)
    (hm : ∀ m v, look d.template [.str "Mappings", m] = some v → ¬ TextOrList v) : WithinLimits d.template where
  names := by
    intro sec hsec k hk
    obtain ⟨s, rfl, h1, _⟩ := limited_section hsec
    exact C132_names h hb hd (hf _ h1) hk
  numbers := by
    intro sec limit hl names hnd hc
    obtain ⟨s, rfl, _, h1⟩ := limited_section (List.mem_map.2 ⟨_, hl, rfl⟩)
    exact C132_numbers h hb hd (hf _ h1) hl hnd hc
  description := fun _ hs => C132_description h hb hd (hf _ (by decide)) hs
  values := fun _ _ _ _ hv hn => C132_values_partial h hb hd (hf _ (by decide)) hp hv hn
  outputs := fun _ _ hs => C132_outputs_partial h hb hd (hf _ (by decide)) ho hs
  attributes := fun _ _ _ he => C132_attributes_partial h hb hd (hf _ (by decide)) hm he

/-- the rules on unused declarations -/
def usedRuleIds : List String := ["W2001", "W7001", "W8001"]

/-- **C132** in full: when the script ends with status 0, every template keeps to the limits when the rules on them are in force, and uses
all that it declares when the rules on that are -/
def C132_statement : Prop :=
  ∀ (objs : List RuleObj) (args : Sources) (all : List String) (regions : List Val) (S : TypeSpecs)
    (beh : RuleObj → Behaviour) (name : Val → String) (mark : Val → MVal) (print : List Match → PyM Unit) (ds : List Decoded)
    (size : Val → Option Nat) (place : LimitMatch → Path),
    CleanRun objs args all regions S beh name mark print ds → LimitRules beh size place → UsedRules beh → ∀ d ∈ ds,
    ((∀ i ∈ limitRuleIds, InForce objs args d.template { id := i }) → WithinLimits d.template) ∧
    ((∀ i ∈ usedRuleIds, InForce objs args d.template { id := i }) → AllUsed d.template)

/-- the functions of the rules on limits and on unused declarations, and otherwise those on the form of the sections -/
noncomputable def exBoundWhole (i : String) : Option (Val → PyM (List (Path × String))) :=
  if i = "E1002" then some fun _ => withText (fun _ => []) (fun m => m.message) (.ok (templateSizeLimit overTest (some 2000)))
  else if i = "E1003" then some fun t => withText (fun _ => []) (fun m => m.message) (templateDescriptionLimit overTest t)
  else if i = "E2010" then some fun t => withText (fun _ => []) (fun m => m.message) (numberLimit t .parameters)
  else if i = "E2011" then some fun t => withText (fun _ => []) (fun m => m.message) (nameLimit t .parameters)
  else if i = "E2012" then some fun t => withText (fun _ => []) (fun m => m.message) (valueLimit overTest t)
  else if i = "E3010" then some fun t => withText (fun _ => []) (fun m => m.message) (numberLimit t .resources)
  else if i = "E3011" then some fun t => withText (fun _ => []) (fun m => m.message) (nameLimit t .resources)
  else if i = "E6010" then some fun t => withText (fun _ => []) (fun m => m.message) (numberLimit t .outputs)
  else if i = "E6011" then some fun t => withText (fun _ => []) (fun m => m.message) (nameLimit t .outputs)
  else if i = "E6012" then some fun t => withText (fun _ => []) (fun m => m.message) (outputDescriptionLimit overTest t)
  else if i = "E7010" then some fun t => withText (fun _ => []) (fun m => m.message) (numberLimit t .mappings)
  else if i = "E7011" then some fun t => withText (fun _ => []) (fun m => m.message) (nameLimit t .mappings)
  else if i = "E7012" then some fun t => withText (fun _ => []) (fun m => m.message) (attributeLimit overTest t)
  else if i = "W2001" then some fun t => withText Prod.fst (fun _ => "parameter") (unusedParameters t t)
  else if i = "W7001" then some fun t => withText Prod.fst (fun _ => "mapping") (unusedMappings t t)
  else if i = "W8001" then some fun t => withText Prod.fst (fun _ => "condition") (unusedConditions t (.dict []))
  else exShapeWhole i

noncomputable def exBoundRules (r : RuleObj) : Behaviour := { whole := exBoundWhole r.info.id }

theorem exBoundRules_limits : LimitRules exBoundRules (fun _ => some 2000) (fun _ => []) := by
  constructor <;> first
    | (intro s r hr; cases s <;> exact ⟨_, by simp [exBoundRules, exBoundWhole, hr, nameRuleId, numberRuleId]; rfl⟩)
    | (intro r hr; exact ⟨_, by simp [exBoundRules, exBoundWhole, hr]; rfl⟩)

theorem exBoundRules_used : UsedRules exBoundRules := by
  constructor <;> intro r hr <;> exact ⟨_, by simp [exBoundRules, exBoundWhole, hr]; rfl⟩

theorem exBoundRules_shape : ShapeRules exBoundRules exTables [] ["eu"] (fun _ => []) := by
  constructor <;> intro r hr <;> exact ⟨_, by simp [exBoundRules, exBoundWhole, exShapeWhole, hr]; rfl⟩

theorem exBoundRules_setUp (r : RuleObj) (t : Val) : (exBoundRules r).setUp t = .ok () := rfl

/-- a template with two parameters, a mapping, a condition, a resource and an output; the text of the output is an argument -/
def exBounds (p : Val) (n : Int) (text : Val) : Val := .dict [
  (.str "Description", .str "a template"),
  (.str "Parameters", .dict [(.str "A", p), (.str "B", .dict [(.str "Type", .str "String"), (.str "MaxLength", .int n)])]),
  (.str "Mappings", .dict [(.str "M", .dict [(.str "k", .dict [(.str "a", .str "x")])])]),
  (.str "Conditions", .dict [(.str "C", .dict [(.str "Fn::Equals", .list [.dict [(.str "Ref", .str "A")],
    .dict [(.str "Fn::FindInMap", .list [.str "M", .str "k", .str "a"])]])])]),
  (.str "Resources", .dict [(.str "R", .dict [(.str "Type", .str "T"), (.str "Condition", .str "C")])]),
  (.str "Outputs", .dict [(.str "O", .dict [(.str "Value", .dict [(.str "Fn::Sub", text)]), (.str "Description", .str "the resource")])])]

/-- the rules that are run -/
def exBoundIds : List String := "E1002" :: "E3001" :: "E3006" :: (limitRuleIds ++ usedRuleIds)

theorem exBounds_run {p text : Val} {n : Int} (hw : (exBounds p n text).WF) (ha : setTemplateArgs (exBounds p n text) = .ok [])
    (hd : getDirectives (markAll default (exBounds p n text)) = .ok [])
    (hr : runCommand .script (withIds exBoundIds) (c50Args [] false []) (checkWith [] [] ⟨[], []⟩ exBoundRules (fun _ => "t") (markAll default))
      (fun _ => .ok ()) [⟨exBounds p n text, []⟩] = 0) :
    CleanRun (withIds exBoundIds) (c50Args [] false []) [] [] ⟨[], []⟩ exBoundRules (fun _ => "t") (markAll default)
      (fun _ => .ok ()) [⟨exBounds p n text, []⟩] :=
  rules_clean (severity_ids (by decide)) exBoundRules_setUp hw ⟨rfl, _, rfl⟩ ha hd hr

theorem exBounds_inForce {p text : Val} {n : Int} (ha : setTemplateArgs (exBounds p n text) = .ok []) {i : String} (hi : i ∈ exBoundIds) :
    InForce (withIds exBoundIds) (c50Args [] false []) (exBounds p n text) { id := i } := by
  refine rules_inForce hi ha ?_
  revert i
  decide

/-- the full statement does not hold: when a parameter is a text, the values of the others are not looked at -/
theorem C132_text_violated : ¬ C132_statement := by
  intro h
  have ha : setTemplateArgs (exBounds (.str "x") 5000 (.str "${B}")) = .ok [] := by decide
  have hrun := exBounds_run (p := .str "x") (n := 5000) (text := .str "${B}") (by simp [exBounds, Val.WF, Val.WFDict, Val.WFList]) ha
    (by decide +kernel) (by decide +kernel)
  have hl := (h _ _ _ _ _ _ _ _ _ _ _ _ hrun exBoundRules_limits exBoundRules_used _ List.mem_cons_self).1
    (fun i hi => exBounds_inForce ha (by revert i; decide))
  exact absurd (hl.values (.str "B") (.dict [(.str "Type", .str "String"), (.str "MaxLength", .int 5000)]) "MaxLength" 5000 (by decide) (.maxInt (by decide))) (by decide)

/-- the full statement does not hold either for what is used: a variable that an `Fn::Sub` defines itself counts as a use of the parameter -/
theorem C132_shadow_violated : ¬ C132_statement := by
  intro h
  have ha : setTemplateArgs (exBounds exParam 50 (.list [.str "${B}", .dict [(.str "B", .str "x")]])) = .ok [] := by decide
  have hw : (exBounds exParam 50 (.list [.str "${B}", .dict [(.str "B", .str "x")]])).WF := by
    simp [exBounds, exParam, Val.WF, Val.WFDict, Val.WFList]
  have hrun := exBounds_run hw ha (by decide +kernel) (by decide +kernel)
  have hu := ((h _ _ _ _ _ _ _ _ _ _ _ _ hrun exBoundRules_limits exBoundRules_used _ List.mem_cons_self).2
    (fun i hi => exBounds_inForce ha (by revert i; decide))).parameters "B" _
    (at_cons.2 ⟨_, at_dict_one.2 (List.mem_cons_of_mem _ List.mem_cons_self), at_dict_one.2 (List.mem_cons_of_mem _ List.mem_cons_self)⟩)
  have hsub := fun q v (h : At (exBounds exParam 50 (.list [.str "${B}", .dict [(.str "B", .str "x")]])) (q ++ [.str "Fn::Sub"]) v) =>
    ((C27_search_partial "Fn::Sub" _ hw).1 _ _).2 ⟨h, q, rfl⟩
  rw [show searchDeepKeys "Fn::Sub" (exBounds exParam 50 (.list [.str "${B}", .dict [(.str "B", .str "x")]])) (.dict []) =
    [([.str "Outputs", .str "O", .str "Value", .str "Fn::Sub"], .list [.str "${B}", .dict [(.str "B", .str "x")]])] from by decide] at hsub
  cases hu with
  | @ref q h =>
    have := ((C27_search_partial "Ref" _ hw).1 _ _).2 ⟨h, q, rfl⟩
    rw [show searchDeepKeys "Ref" (exBounds exParam 50 (.list [.str "${B}", .dict [(.str "B", .str "x")]])) (.dict []) =
      [([.str "Conditions", .str "C", .str "Fn::Equals", .int 0, .str "Ref"], .str "A")] from by decide] at this
    simp at this
  | sub h _ => have := hsub _ _ h; simp at this
  | @subMap q s m h _ hno =>
    have := hsub _ _ h
    simp only [List.mem_singleton, Prod.mk.injEq, Val.list.injEq, List.cons.injEq, Val.dict.injEq, and_true] at this
    rw [this.2.2] at hno
    exact hno _ List.mem_cons_self

/-! ### the hypotheses are met -/

/-- a template that passes -/
def exWithin : Val := exBounds exParam 50 (.str "${B}")

theorem exBound_args : setTemplateArgs exWithin = .ok [] := by decide

theorem exBound_wf : exWithin.WF := by simp [exWithin, exBounds, exParam, Val.WF, Val.WFDict, Val.WFList]

theorem exBound_clean : CleanRun (withIds exBoundIds) (c50Args [] false []) [] [] ⟨[], []⟩ exBoundRules (fun _ => "t") (markAll default)
      (fun _ => .ok ()) [⟨exWithin, []⟩] :=
  exBounds_run exBound_wf exBound_args (by decide +kernel) (by decide +kernel)

theorem exBound_inForce {i : String} (hi : i ∈ exBoundIds) : InForce (withIds exBoundIds) (c50Args [] false []) exWithin { id := i } :=
  exBounds_inForce exBound_args hi

theorem exBound_section {k : String} {v : Val} (h : At exWithin [.str k] v) :
    (Key.str k, v) ∈ [(Key.str "Description", Val.str "a template"),
      (.str "Parameters", .dict [(.str "A", exParam), (.str "B", .dict [(.str "Type", .str "String"), (.str "MaxLength", .int 50)])]),
      (.str "Mappings", .dict [(.str "M", .dict [(.str "k", .dict [(.str "a", .str "x")])])]),
      (.str "Conditions", .dict [(.str "C", .dict [(.str "Fn::Equals", .list [.dict [(.str "Ref", .str "A")],
        .dict [(.str "Fn::FindInMap", .list [.str "M", .str "k", .str "a"])]])])]),
      (.str "Resources", .dict [(.str "R", .dict [(.str "Type", .str "T"), (.str "Condition", .str "C")])]),
      (.str "Outputs", .dict [(.str "O", .dict [(.str "Value", .dict [(.str "Fn::Sub", .str "${B}")]), (.str "Description", .str "the resource")])])] :=
  at_dict_one.1 h

theorem exBound_params {n : Key} {v : Val} (h : ParamIs exWithin n v) : ¬ TextOrList v := by
  obtain ⟨ps, h1, h2⟩ := h
  have h1 := exBound_section h1
  simp at h1
  subst h1
  simp at h2
  rcases h2 with ⟨_, rfl⟩ | ⟨_, rfl⟩ <;> rintro (⟨_, e⟩ | ⟨_, e⟩) <;> cases e

theorem exBound_outputs {n : Key} {v : Val} (h : OutputIs exWithin n v) : ¬ TextOrList v := by
  obtain ⟨ps, h1, h2⟩ := h
  have h1 := exBound_section h1
  simp at h1
  subst h1
  simp at h2
  obtain ⟨_, rfl⟩ := h2
  rintro (⟨_, e⟩ | ⟨_, e⟩) <;> cases e

theorem exBound_maps {m : Key} {v : Val} (hv : look exWithin [.str "Mappings", m] = some v) : ¬ TextOrList v := by
  obtain ⟨u, h1, h2⟩ := look_cons.1 hv
  rw [show dlookup (Key.str "Mappings") _ = some (.dict [(.str "M", .dict [(.str "k", .dict [(.str "a", .str "x")])])]) from by decide] at h1
  cases h1
  have h2 := dlookup_mem (look_key.1 h2)
  simp at h2
  obtain ⟨_, rfl⟩ := h2
  rintro (⟨_, e⟩ | ⟨_, e⟩) <;> cases e

/-- `C132_limits_partial` -/
example : WithinLimits exWithin :=
  C132_limits_partial exBound_clean exBoundRules_limits List.mem_cons_self (fun i hi => exBound_inForce (by revert i; decide))
    (fun _ _ => exBound_params) (fun _ _ => exBound_outputs) (fun _ _ => exBound_maps)

/-- `C132_names` -/
example : ∃ n, Key.str "R" = .str n ∧ n.toList.length ≤ nameLength :=
  C132_names exBound_clean exBoundRules_limits List.mem_cons_self (s := .resources) (exBound_inForce (by decide)) (k := .str "R")
    ⟨.dict [(.str "Type", .str "T"), (.str "Condition", .str "C")], by decide⟩

/-- `C132_numbers` -/
example : [Key.str "A", Key.str "B"].length ≤ 200 :=
  C132_numbers exBound_clean exBoundRules_limits List.mem_cons_self (s := .parameters) (exBound_inForce (by decide)) (by decide) (by decide)
    (fun k hk => by
      simp only [List.mem_cons, List.not_mem_nil, or_false] at hk
      simp only [Counts, Sect.key]
      rcases hk with rfl | rfl
      · exact ⟨exParam, by decide⟩
      · exact ⟨.dict [(.str "Type", .str "String"), (.str "MaxLength", .int 50)], by decide⟩)

/-- `C132_resources` -/
example : [(Key.str "R", Val.dict [(.str "Type", .str "T"), (.str "Condition", .str "C")])].length ≤ 500 :=
  C132_resources exBound_clean exBoundRules_limits exBoundRules_shape (region := "eu") rfl rfl List.mem_cons_self (exBound_inForce (by decide))
    (exBound_inForce (by decide)) (exBound_inForce (by decide)) (by decide)

/-- `C132_description` -/
example : "a template".toList.length ≤ 1024 :=
  C132_description exBound_clean exBoundRules_limits List.mem_cons_self (exBound_inForce (by decide)) (by decide)

/-- `C132_size` -/
example : 2000 ≤ 1000000 :=
  C132_size exBound_clean exBoundRules_limits List.mem_cons_self (exBound_inForce (by decide)) rfl

/-- `C132_values_partial` -/
example : (50 : Int) ≤ 4096 :=
  C132_values_partial exBound_clean exBoundRules_limits List.mem_cons_self (exBound_inForce (by decide)) (fun _ _ => exBound_params) (p := .str "B")
    (v := .dict [(.str "Type", .str "String"), (.str "MaxLength", .int 50)]) (by decide) (.maxInt (by decide))

/-- `C132_outputs_partial` -/
example : "the resource".toList.length ≤ 1024 :=
  C132_outputs_partial exBound_clean exBoundRules_limits List.mem_cons_self (exBound_inForce (by decide)) (fun _ _ => exBound_outputs)
    (o := .str "O") (by decide)

/-- `C132_attributes_partial` -/
example : [(Key.str "a", Val.str "x")].length ≤ 200 :=
  C132_attributes_partial exBound_clean exBoundRules_limits List.mem_cons_self (exBound_inForce (by decide)) (fun _ _ => exBound_maps)
    (m := .str "M") (a := .str "k") (by decide)

theorem exBound_text : SubText "${B}".toList [['B']] :=
  .var (l := []) (n := ['B']) (r := []) (s := []) (fun _ h => by cases h) (fun c h => by simp at h; subst h; decide) (by decide) (by decide)
    (fun _ h => by cases h) .nil

theorem exBound_subs {q : Path} {v : Val} (h : At exWithin (q ++ [.str "Fn::Sub"]) v) : v = .str "${B}" := by
  have := ((C27_search_partial "Fn::Sub" _ exBound_wf).1 _ _).2 ⟨h, q, rfl⟩
  rw [show searchDeepKeys "Fn::Sub" exWithin (.dict []) = [([.str "Outputs", .str "O", .str "Value", .str "Fn::Sub"], .str "${B}")] from by decide] at this
  simp at this
  exact this.2

/-- `C132_parameters_used_partial` -/
example : ∃ c, Key.str "B" = .str c ∧ UsesParam exWithin c := by
  refine C132_parameters_used_partial exBound_clean exBoundRules_used List.mem_cons_self (exBound_inForce (by decide))
    (fun q v h => ⟨_, _, exBound_text, .inl (exBound_subs h)⟩) ⟨⟨_, rfl⟩, fun v hv => ?_⟩ (fun q s m k w h _ => by cases exBound_subs h)
    (at_cons.2 ⟨_, at_dict_one.2 (List.mem_cons_of_mem _ List.mem_cons_self), at_dict_one.2 (List.mem_cons_of_mem _ List.mem_cons_self)⟩)
  have h1 := exBound_section hv
  simp at h1
  subst h1
  refine ⟨_, rfl, fun k w h => ?_⟩
  simp at h
  rcases h with ⟨rfl, _⟩ | ⟨rfl, _⟩ <;> exact ⟨_, rfl⟩

/-- `C132_conditions_used_partial` -/
example : ∃ q, UsesCond exWithin "C" q := by
  refine C132_conditions_used_partial exBound_clean exBoundRules_used List.mem_cons_self (exBound_inForce (by decide)) ⟨⟨_, rfl⟩, ?_, ?_, ?_, ?_, ?_⟩
    ⟨_, at_cons.2 ⟨_, at_dict_one.2 (List.mem_cons_of_mem _ (List.mem_cons_of_mem _ (List.mem_cons_of_mem _ List.mem_cons_self))),
      at_dict_one.2 List.mem_cons_self⟩⟩
  · intro p v h
    have := ((C27_search_partial "Fn::If" _ exBound_wf).1 _ _).2 ⟨h, p, rfl⟩
    rw [show searchDeepKeys "Fn::If" exWithin (.dict []) = [] from by decide] at this
    cases this
  · intro v hv
    have h1 := exBound_section hv
    simp at h1
    subst h1
    exact ⟨_, rfl, fun k w h => by simp at h; exact ⟨_, h.1⟩⟩
  · intro v hv
    have h1 := exBound_section hv
    simp at h1
    exact ⟨_, h1⟩
  · intro r v hv _
    obtain ⟨u, h1, h2⟩ := at_cons.1 hv
    have h1 := exBound_section h1
    simp at h1
    subst h1
    have h2 := at_dict_one.1 h2
    simp at h2
    obtain ⟨_, rfl⟩ := h2
    exact ⟨_, at_dict_one.2 List.mem_cons_self, nofun⟩
  · intro v hv
    have h1 := exBound_section hv
    simp at h1
    subst h1
    refine ⟨_, rfl, fun k w h => ?_⟩
    simp at h
    obtain ⟨_, rfl⟩ := h
    exact ⟨_, rfl, fun c hc => by simp at hc⟩

/-- `C132_mappings_used_partial` -/
example : ∃ c, Key.str "M" = .str c ∧ (UsesMap exWithin c ∨ ComputedMap exWithin) := by
  refine C132_mappings_used_partial exBound_clean exBoundRules_used List.mem_cons_self (exBound_inForce (by decide)) ?_ ⟨⟨_, rfl⟩, fun v hv => ?_⟩
    (at_cons.2 ⟨_, at_dict_one.2 (List.mem_cons_of_mem _ (List.mem_cons_of_mem _ List.mem_cons_self)), at_dict_one.2 List.mem_cons_self⟩)
  · intro q v h
    have := ((C27_search_partial "Fn::FindInMap" _ exBound_wf).1 _ _).2 ⟨h, q, rfl⟩
    rw [show searchDeepKeys "Fn::FindInMap" exWithin (.dict []) = [([.str "Conditions", .str "C", .str "Fn::Equals", .int 1, .str "Fn::FindInMap"],
      .list [.str "M", .str "k", .str "a"])] from by decide] at this
    simp at this
    exact ⟨_, _, this.2, .inl ⟨_, rfl⟩⟩
  · have h1 := exBound_section hv
    simp at h1
    subst h1
    exact ⟨_, rfl, fun k w h => by simp at h; exact ⟨_, h.1⟩⟩

end CfnLint
