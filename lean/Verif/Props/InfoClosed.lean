import Verif.Props.BoundsClosed
import Verif.Props.CallsClosed
import Verif.Props.Policies
import Verif.Props.RefRules
import Verif.Props.GroupRules
/-
Property C140: what status 0 says when the rules that only inform are in force: those on sizes that come near to a limit, on resources that hold data, on joins without
a delimiter and on lists with equal elements.
-/
namespace CfnLint

open Spec

/-- the notice on the length of the names of a section: mappings/ApproachingLimitName.py:12, outputs/ApproachingLimitName.py:12, parameters/ApproachingLimitName.py:12,
resources/ApproachingLimitName.py:12 -/
def nameNoticeId : Sect → String
  | .mappings => "I7011" | .outputs => "I6011" | .parameters => "I2011" | .resources => "I3012"

/-- the notice on the number of entries of a section: mappings/ApproachingLimitNumber.py:12, outputs/ApproachingLimitNumber.py:12,
parameters/ApproachingLimitNumber.py:12, resources/ApproachingLimitNumber.py:12 -/
def numberNoticeId : Sect → String
  | .mappings => "I7010" | .outputs => "I6010" | .parameters => "I2010" | .resources => "I3010"

/-- the rules on sizes near to a limit, each with the function it calls on the template -/
structure NoticeRules (beh : RuleObj → Behaviour) (size : Val → Option Nat) (place : LimitMatch → Path) : Prop where
  names : ∀ s r, r.info.id = nameNoticeId s → ∃ msg, (beh r).whole = some (fun t => withText place msg (approachingNameLimit t s))
  numbers : ∀ s r, r.info.id = numberNoticeId s → ∃ msg, (beh r).whole = some (fun t => withText place msg (approachingNumberLimit t s))
  I1002 : ∀ r, r.info.id = "I1002" → ∃ msg, (beh r).whole = some (fun t => withText place msg (.ok (templateSizeLimit nearTest (size t))))
  I1003 : ∀ r, r.info.id = "I1003" → ∃ msg, (beh r).whole = some (fun t => withText place msg (templateDescriptionLimit nearTest t))
  I2012 : ∀ r, r.info.id = "I2012" → ∃ msg, (beh r).whole = some (fun t => withText place msg (valueLimit nearTest t))
  I6012 : ∀ r, r.info.id = "I6012" → ∃ msg, (beh r).whole = some (fun t => withText place msg (outputDescriptionLimit nearTest t))
  I7012 : ∀ r, r.info.id = "I7012" → ∃ msg, (beh r).whole = some (fun t => withText place msg (attributeLimit nearTest t))

/-- the other rules that inform -/
structure AdviceRules (beh : RuleObj → Behaviour) (E : CondEnv) (R : RegionSpec) (msg : ListReport → String) : Prop where
  I3011 : ∀ r, r.info.id = "I3011" → ∃ msg, (beh r).whole = some (fun t => withText id msg (statefulRule t))
  I1022 : ∀ r, r.info.id = "I1022" → ∃ msg, (beh r).whole = some (fun t => withText id msg (subNotJoinRule t (.dict [])))
  I3037 : ∀ r, r.info.id = "I3037" → beh r = allowedRepeatsOf E R msg

/-- the property is a list of texts or numbers whose elements may be repeated -/
def Spec.MayRepeat (decl : List (Key × Val)) : Prop :=
  dlookup (Key.str "Type") decl = some (.str "List") ∧ dlookup (Key.str "DuplicatesAllowed") decl = some (.bool true) ∧
    ∃ ty, (ty = "String" ∨ ty = "Integer") ∧ dlookup (Key.str "PrimitiveItemType") decl = some (.str ty)

theorem allows_row {R : RegionSpec} {decl : List (Key × Val)} (h : MayRepeat decl) : AllowsRepeats (listRowView R (.dict decl)) := by
  obtain ⟨h1, h2, ty, h3, h4⟩ := h
  refine ⟨?_, ?_, ?_⟩
  · simp [listRowView, rowView, specText, Val.get?, h1]
  · simp [listRowView, Val.get?, h2]
  · rcases h3 with rfl | rfl
    · exact .inl (by simp [listRowView, rowView, specText, Val.get?, h4])
    · exact .inr (by simp [listRowView, rowView, specText, Val.get?, h4])

theorem notice_nil {path : List Val} {what unit : String} {limit : Nat} (hl : limit ∈ usedLimits) {n : Int} (h : nearTest.report path what unit limit n = []) :
    ¬ Near limit n := by
  unfold Test.report at h
  split at h
  · cases h
  · rename_i hx
    rwa [nearTest_means _ hl] at hx

section Clean

variable {objs : List RuleObj} {args : Sources} {all : List String} {regions : List Val} {S : TypeSpecs}
  {beh : RuleObj → Behaviour} {name : Val → String} {mark : Val → MVal} {print : List Match → PyM Unit} {ds : List Decoded}
  {size : Val → Option Nat} {place : LimitMatch → Path}

theorem nameNotice_plain (top : List (Key × Val)) (s : Sect) (x : String) : approachingNameLimit (.dict top) s ≠ .error (.templateAttributeError x) := by
  intro h
  unfold approachingNameLimit at h
  dsimp only [Val.getD] at h
  split at h
  · rename_i he
    cases h
    unfold iterOf at he
    split at he <;> cases he
  · obtain ⟨a, _, ha⟩ := gatherAll_error h
    unfold nameNear at ha
    split at ha
    · rename_i he
      cases ha
      unfold pyLen at he
      split at he <;> cases he
    · cases ha

/-- **C140** When the script ends with status 0 and the notice on the names of a section is in force, the names of the section are texts, of at most nine tenths of 255 characters
or of more than 255. -/
theorem C140_names (h : CleanRun objs args all regions S beh name mark print ds) (hb : NoticeRules beh size place) {d : Decoded} (hd : d ∈ ds)
    {s : Sect} (hf : InForce objs args d.template { id := nameNoticeId s }) {k : Key} (hk : HasEntry d.template s.key k) :
    ∃ n, k = .str n ∧ ¬ Near nameLength n.toList.length := by
  obtain ⟨top, ht⟩ := clean_object h hd
  have hl := whole_silent h hd hf (hb.names s) (fun x => by rw [ht]; exact nameNotice_plain top s x)
  rw [ht] at hl hk
  obtain ⟨w, hw⟩ := hk
  obtain ⟨v, hv, hw⟩ := look_cons.1 hw
  obtain ⟨kvs, rfl⟩ := look_dict hw
  unfold approachingNameLimit at hl
  simp only [Val.getD, hv, Option.getD_some, iterOf] at hl
  have hn := gatherAll_nil hl k.toVal (List.mem_map.2 ⟨_, dlookup_mem (look_key.1 hw), rfl⟩)
  cases k with
  | int i => simp [nameNear, Key.toVal, pyLen] at hn
  | str n =>
    refine ⟨n, rfl, ?_⟩
    simp only [nameNear, Key.toVal, pyLen] at hn
    intro hc
    have : approaching (nameMax s) n.toList.length = true := by
      rw [approaching_iff (nameMax_used s), nameMax_eq]
      exact hc
    rw [if_pos this] at hn
    cases hn

theorem numberNotice_plain (top : List (Key × Val)) (s : Sect) (x : String) : approachingNumberLimit (.dict top) s ≠ .error (.templateAttributeError x) := by
  intro h
  unfold approachingNumberLimit at h
  split at h
  · rename_i e he
    cases h
    unfold sectionCount at he
    split at he
    · split at he
      · rename_i e' he'
        cases he
        unfold getResources at he'
        simp only [Val.getD] at he'
        split at he'
        · rename_i hx
          cases hx
        · cases he'
        · cases he'
      · cases he
    · simp only [Val.getD] at he
      unfold pyLen at he
      split at he <;> cases he
  · cases h

/-- **C140** … and the notice on the number of entries of a section is in force, the number of entries of the section is not near to the limit. -/
theorem C140_numbers (h : CleanRun objs args all regions S beh name mark print ds) (hb : NoticeRules beh size place) {d : Decoded} (hd : d ∈ ds)
    {s : Sect} (hf : InForce objs args d.template { id := numberNoticeId s }) {limit : Nat} (hlim : (s.key, limit) ∈ countLimit)
    {names : List Key} (hnd : names.Nodup) (hc : ∀ k, k ∈ names ↔ Counts d.template s.key k) : ¬ Near limit names.length := by
  obtain ⟨top, ht⟩ := clean_object h hd
  have hw := clean_wf h hd
  have hl := whole_silent h hd hf (hb.numbers s) (fun x => by rw [ht]; exact numberNotice_plain top s x)
  rw [ht] at hl hc hw
  have hmax : numberMax s = limit := by
    cases s <;> simp [Sect.key, countLimit] at hlim <;> simp [numberMax, hlim]
  have hcount : ∀ n : Nat, sectionCount (.dict top) s = .ok n → ¬ Near limit n := by
    intro n hn hx
    unfold approachingNumberLimit at hl
    rw [hn] at hl
    dsimp only at hl
    rw [if_pos ((approaching_iff (numberMax_used s)).2 (by rw [hmax]; exact hx))] at hl
    cases hl
  rcases names with _ | ⟨k0, names'⟩
  · rintro ⟨h1, -⟩
    simp at h1
    omega
  have h0 := (hc k0).1 List.mem_cons_self
  have hsec : ∃ kvs, dlookup (Key.str s.key) top = some (.dict kvs) := by
    unfold Counts at h0
    split at h0
    · obtain ⟨ty, hty, -⟩ := h0
      obtain ⟨v, hv, hty⟩ := look_cons.1 hty
      obtain ⟨kvs, rfl⟩ := look_dict hty
      exact ⟨kvs, hv⟩
    · obtain ⟨w, hw⟩ := h0
      obtain ⟨v, hv, hw⟩ := look_cons.1 hw
      obtain ⟨kvs, rfl⟩ := look_dict hw
      exact ⟨kvs, hv⟩
  obtain ⟨kvs, hv⟩ := hsec
  have hkn : (kvs.map Prod.fst).Nodup := keys_distinct (at_wf (at_dict_one.2 (dlookup_mem hv)) hw)
  have hlen : ∀ l : List (Key × Val), (l.map Prod.fst).Nodup → (∀ k, k ∈ l.map Prod.fst ↔ Counts (.dict top) s.key k) → (k0 :: names').length = l.length := by
    intro l hn hm
    rw [((List.perm_ext_iff_of_nodup hnd hn).2 (fun k => (hc k).trans (hm k).symm)).length_eq, List.length_map]
  by_cases hs : s = .resources
  · subst hs
    have e : sectionCount (.dict top) .resources = .ok (kvs.filter isTyped).length := by
      simp only [Sect.key] at hv
      simp [sectionCount, getResources, Val.getD, hv]
    have hx := hcount _ e
    rw [← hlen (kvs.filter isTyped) (List.Nodup.sublist (List.Sublist.map _ List.filter_sublist) hkn) ?_] at hx
    · exact hx
    · intro k
      simp only [Counts, Sect.key, if_true, List.mem_map, List.mem_filter]
      constructor
      · rintro ⟨⟨k', r⟩, ⟨hm, hty⟩, rfl⟩
        obtain ⟨ty, h1, h2⟩ := isTyped_iff.1 hty
        exact ⟨ty, look_cons.2 ⟨_, hv, look_cons.2 ⟨_, dlookup_of_mem hkn hm, h1⟩⟩, h2⟩
      · rintro ⟨ty, h1, h2⟩
        obtain ⟨v, hv', h1⟩ := look_cons.1 h1
        simp only [Sect.key] at hv
        rw [hv] at hv'
        cases hv'
        obtain ⟨r, hr, h1⟩ := look_cons.1 h1
        exact ⟨(k, r), ⟨dlookup_mem hr, isTyped_iff.2 ⟨ty, h1, h2⟩⟩, rfl⟩
  · have hkey : s.key ≠ "Resources" := by cases s <;> first | decide | exact absurd rfl hs
    have e : sectionCount (.dict top) s = .ok kvs.length := by simp [sectionCount, hs, Val.getD, hv, pyLen]
    have hx := hcount _ e
    rw [← hlen kvs hkn ?_] at hx
    · exact hx
    · intro k
      simp only [Counts, if_neg hkey, HasEntry]
      constructor
      · intro hk
        obtain ⟨⟨k', r⟩, hm, rfl⟩ := List.mem_map.1 hk
        exact ⟨r, look_cons.2 ⟨_, hv, look_key.2 (dlookup_of_mem hkn hm)⟩⟩
      · rintro ⟨w, hw⟩
        obtain ⟨v, hv', h1⟩ := look_cons.1 hw
        rw [hv] at hv'
        cases hv'
        exact List.mem_map.2 ⟨_, dlookup_mem (look_key.1 h1), rfl⟩

/-- **C140** … and I1003 is in force, the length of the description is not near to 1024 characters. -/
theorem C140_description (h : CleanRun objs args all regions S beh name mark print ds) (hb : NoticeRules beh size place) {d : Decoded} (hd : d ∈ ds)
    (hf : InForce objs args d.template { id := "I1003" }) {s : String} (hs : look d.template [.str "Description"] = some (.str s)) :
    ¬ Near 1024 s.toList.length := by
  obtain ⟨top, ht⟩ := clean_object h hd
  rw [ht] at hs
  have hl : templateDescriptionLimit nearTest d.template =
      .ok (nearTest.report [.str "Description"] "The template description" " bytes" descriptionMax s.toList.length) := by
    rw [ht]
    simp [templateDescriptionLimit, Val.getD, look_key.1 hs, pyLen]
  exact notice_nil (by decide) (whole_found h hd hf hb.I1003 hl)

/-- **C140** … and I1002 is in force, the size of the file is not near to a million bytes. -/
theorem C140_size (h : CleanRun objs args all regions S beh name mark print ds) (hb : NoticeRules beh size place) {d : Decoded} (hd : d ∈ ds)
    (hf : InForce objs args d.template { id := "I1002" }) {n : Nat} (hs : size d.template = some n) : ¬ Near 1000000 n := by
  have hl := whole_found h hd hf hb.I1002 rfl
  rw [hs] at hl
  exact notice_nil (by decide) hl

/-- **C140** … and I2012 is in force, the sizes of the values of parameters are not near to 4096 characters. Missing: where a parameter is a text or a list, the rule stops
without a finding. -/
theorem C140_values_partial (h : CleanRun objs args all regions S beh name mark print ds) (hb : NoticeRules beh size place) {d : Decoded} (hd : d ∈ ds)
    (hf : InForce objs args d.template { id := "I2012" }) (hp : ∀ n v, ParamIs d.template n v → ¬ TextOrList v)
    {p : Key} {v : Val} {part : String} {n : Int} (hv : look d.template [.str "Parameters", p] = some v) (hn : ParameterSize v part n) :
    ¬ Near 4096 n := by
  obtain ⟨top, ht⟩ := clean_object h hd
  rw [ht] at hp hv
  obtain ⟨sec, hsec, hv⟩ := look_cons.1 hv
  obtain ⟨kvs, rfl⟩ := look_dict hv
  have hat : At (.dict top) [.str "Parameters"] (.dict kvs) := at_dict_one.2 (dlookup_mem hsec)
  have hm := dlookup_mem (look_key.1 hv)
  have htr : (Val.dict kvs).truthy = true := by
    cases kvs with
    | nil => cases hm
    | cons a b => rfl
  have hval : valueLimit nearTest (.dict top) = gatherAll (parameterValue nearTest) kvs := by
    simp [valueLimit, Val.getD, hsec, htr, pyItems]
  have hl := whole_silent h hd hf hb.I2012 (fun x he => by
    rw [ht, hval] at he
    obtain ⟨⟨k, w⟩, hmw, hw⟩ := gatherAll_error he
    unfold parameterValue at hw
    split at hw
    · split at hw
      · rename_i he'
        cases hw
        unfold iterOf at he'
        split at he' <;> cases he'
      · cases hw
    · rename_i hnd
      injection hw with hw
      exact attrErr_plain (hp k w ⟨kvs, hat, hmw⟩) hnd hw)
  rw [ht, hval] at hl
  have h0 := gatherAll_nil hl _ hm
  obtain ⟨o, rfl⟩ : ∃ o, v = .dict o := by
    cases hn <;> rename_i hx <;> first | exact look_dict hx | exact look_dict ‹look v _ = some _›
  simp only [parameterValue] at h0
  split at h0
  · cases h0
  rename_i vs hvs
  injection h0 with h0
  rw [List.append_eq_nil_iff, List.append_eq_nil_iff] at h0
  obtain ⟨⟨h1, h2⟩, h3⟩ := h0
  cases hn with
  | default hx =>
    rw [look_key.1 hx] at h1
    exact notice_nil (by decide) h1
  | maxInt hx =>
    rw [look_key.1 hx] at h2
    exact notice_nil (by decide) h2
  | maxBool hx =>
    rw [look_key.1 hx] at h2
    exact notice_nil (by decide) h2
  | maxStr hx hi =>
    rw [look_key.1 hx] at h2
    simp only [Option.getD_some, maxLengthMatches, maxLengthValue, hi] at h2
    exact notice_nil (by decide) h2
  | allowed hx hs =>
    rw [look_key.1 hx] at hvs
    cases hvs
    exact notice_nil (by decide) (List.flatMap_eq_nil_iff.1 h3 _ hs)

/-- **C140** … and I6012 is in force, the lengths of the descriptions of outputs are not near to 1024 characters. Missing: where an output is a text or a list, the rule stops
without a finding. -/
theorem C140_outputs_partial (h : CleanRun objs args all regions S beh name mark print ds) (hb : NoticeRules beh size place) {d : Decoded} (hd : d ∈ ds)
    (hf : InForce objs args d.template { id := "I6012" }) (hp : ∀ n v, OutputIs d.template n v → ¬ TextOrList v)
    {o : Key} {s : String} (hs : look d.template [.str "Outputs", o, .str "Description"] = some (.str s)) : ¬ Near 1024 s.toList.length := by
  obtain ⟨top, ht⟩ := clean_object h hd
  rw [ht] at hp hs
  obtain ⟨sec, hsec, hs⟩ := look_cons.1 hs
  obtain ⟨kvs, rfl⟩ := look_dict hs
  obtain ⟨v, hv, hs⟩ := look_cons.1 hs
  obtain ⟨out, rfl⟩ := look_dict hs
  have hat : At (.dict top) [.str "Outputs"] (.dict kvs) := at_dict_one.2 (dlookup_mem hsec)
  have hval : outputDescriptionLimit nearTest (.dict top) = gatherAll (outputDescription nearTest) kvs := by
    simp [outputDescriptionLimit, Val.getD, hsec, pyItems]
  have hl := whole_silent h hd hf hb.I6012 (fun x he => by
    rw [ht, hval] at he
    obtain ⟨⟨k, w⟩, hmw, hw⟩ := gatherAll_error he
    unfold outputDescription at hw
    split at hw
    · rename_i e he'
      cases hw
      have hpl := hp k w ⟨kvs, hat, hmw⟩
      cases w with
      | dict o => cases he'
      | str x => exact hpl (.inl ⟨_, rfl⟩)
      | list x => exact hpl (.inr ⟨_, rfl⟩)
      | none => cases he'
      | bool b => cases he'
      | int i => cases he'
      | flt r => cases he'
    · split at hw
      · split at hw
        · rename_i he'
          cases hw
          unfold pyLen at he'
          split at he' <;> cases he'
        · cases hw
      · cases hw)
  rw [ht, hval] at hl
  have h0 := gatherAll_nil hl _ (dlookup_mem hv)
  simp only [outputDescription, Val.getD, look_key.1 hs, Option.getD_some, pyLen] at h0
  split at h0
  · injection h0 with h0
    exact notice_nil (by decide) h0
  · rename_i hx
    have : s = "" := by simpa [Val.truthy] using hx
    subst this
    decide

/-- **C140** … and I7012 is in force, the numbers of attributes of keys of mappings are not near to 200. Missing: where a mapping is a text or a list, the rule stops without
a finding. -/
theorem C140_attributes_partial (h : CleanRun objs args all regions S beh name mark print ds) (hb : NoticeRules beh size place) {d : Decoded} (hd : d ∈ ds)
    (hf : InForce objs args d.template { id := "I7012" }) (hp : ∀ m v, look d.template [.str "Mappings", m] = some v → ¬ TextOrList v)
    {m a : Key} {e : List (Key × Val)} (he : look d.template [.str "Mappings", m, a] = some (.dict e)) : ¬ Near 200 e.length := by
  obtain ⟨top, ht⟩ := clean_object h hd
  have hw := clean_wf h hd
  rw [ht] at hp he hw
  obtain ⟨sec, hsec, he⟩ := look_cons.1 he
  obtain ⟨kvs, rfl⟩ := look_dict he
  obtain ⟨v, hv, he⟩ := look_cons.1 he
  obtain ⟨atts, rfl⟩ := look_dict he
  have hat : At (.dict top) [.str "Mappings"] (.dict kvs) := at_dict_one.2 (dlookup_mem hsec)
  have hnd : (kvs.map Prod.fst).Nodup := keys_distinct (at_wf hat hw)
  have hval : attributeLimit nearTest (.dict top) = gatherAll (mappingAttributes nearTest) kvs := by
    simp [attributeLimit, Val.getD, hsec, pyItems]
  have hl := whole_silent h hd hf hb.I7012 (fun x he => by
    rw [ht, hval] at he
    obtain ⟨⟨k, w⟩, hmw, hw⟩ := gatherAll_error he
    unfold mappingAttributes at hw
    split at hw
    · rename_i e' he'
      cases hw
      have hpl := hp k w (look_cons.2 ⟨_, hsec, look_key.2 (dlookup_of_mem hnd hmw)⟩)
      cases w with
      | dict o => cases he'
      | str x => exact hpl (.inl ⟨_, rfl⟩)
      | list x => exact hpl (.inr ⟨_, rfl⟩)
      | none => cases he'
      | bool b => cases he'
      | int i => cases he'
      | flt r => cases he'
    · obtain ⟨a, _, ha⟩ := gatherAll_error hw
      unfold mappingAttribute at ha
      split at ha
      · rename_i he'
        cases ha
        unfold pyLen at he'
        split at he' <;> cases he'
      · cases ha)
  rw [ht, hval] at hl
  have h0 := gatherAll_nil hl _ (dlookup_mem hv)
  simp only [mappingAttributes, pyItems] at h0
  have h1 := gatherAll_nil h0 _ (dlookup_mem (look_key.1 he))
  simp only [mappingAttribute, pyLen] at h1
  injection h1 with h1
  exact notice_nil (by decide) h1

/-- **C140** … and I3011 is in force, every resource that holds data states what is to be done with it when the resource is deleted and when it is replaced. -/
theorem C140_stateful {E : CondEnv} {R : RegionSpec} {msg : ListReport → String} (h : CleanRun objs args all regions S beh name mark print ds)
    (hb : AdviceRules beh E R msg) {d : Decoded} (hd : d ∈ ds)
    (hf : InForce objs args d.template { id := "I3011" }) {k : Key} {r : Val} (hr : ResourceAt d.template k r) (hty : TypedAs r stateful) :
    (∃ v, StatesPolicy r "DeletionPolicy" v) ∧ ∃ v, StatesPolicy r "UpdateReplacePolicy" v := by
  obtain ⟨l, h1, h2⟩ := C84_stateful (clean_wf h hd) (clean_object h hd)
  cases whole_found h hd hf hb.I3011 h1
  by_contra hc
  cases (h2 _).2 ⟨k, r, rfl, hr, hty, hc⟩

/-- **C140** … and I1022 is in force, no list is joined with an empty delimiter. -/
theorem C140_joins {E : CondEnv} {R : RegionSpec} {msg : ListReport → String} (h : CleanRun objs args all regions S beh name mark print ds)
    (hb : AdviceRules beh E R msg) {d : Decoded} (hd : d ∈ ds)
    (hf : InForce objs args d.template { id := "I1022" }) {q : Path} {x : Val} {xs : List Val} (hat : At d.template (q ++ [.str "Fn::Join"]) (.list (x :: xs))) : x ≠ .str "" := by
  have hl := whole_silent h hd hf hb.I1022 (fun m he => by
    unfold subNotJoinRule at he
    obtain ⟨a, -, ha⟩ := collectM_error he
    unfold emptyJoin at ha
    split at ha <;> cases ha)
  rintro rfl
  have hm : (q ++ [.str "Fn::Join"], Val.list (.str "" :: xs)) ∈ searchDeepKeys "Fn::Join" d.template (.dict []) := mem_keyAt.2 ⟨⟨q, rfl⟩, .inl hat⟩
  have := collectM_silent hl _ hm
  simp [emptyJoin] at this

/-- **C140** … and I3037 is in force, a list of texts or numbers that may have an element twice has none twice. Missing: lists under conditions. -/
theorem C140_repeats_partial {U R : RegionSpec} {E : CondEnv} {msg : ListReport → String} (h : CleanRun objs args all regions (traversed U) beh name mark print ds) (hbeh : AdviceRules beh E R msg)
    {d : Decoded} (hd : d ∈ ds) (hf : InForce objs args d.template { id := "I3037" }) (hfo : FollowedIn U d.template)
    {top : Bool} {ty : String} {p : Path} {kvs : List (Key × Val)} (ho : TypedObject U d.template top ty p kvs)
    {spec : Val} (hs : DeclaredIn R top ty spec) (hb : ∀ q u, Leaf (.dict kvs) q u → ∃ l, u = .dict l)
    {q : Path} {l : List (Key × Val)} (hl : Leaf (.dict kvs) q (.dict l)) {prop : String} {decl : List (Key × Val)} (hrow : DeclaredProp spec prop decl)
    (ht : MayRepeat decl) {xs : List Val} (hv : (Key.str prop, .list xs) ∈ l) (i : Nat) : ¬ Repeats xs i := by
  obtain ⟨hwk, hrun⟩ := tables_ran h hbeh.I3037 hd hf hfo ho (dlookup_listTables hs) (fun hwk => noAttr_dupRule hwk hb)
  intro hi
  cases C83_allowed_lists hwk hb hrun hl hv (declared_row hrow) (allows_row ht) hi

end Clean

/-- the sizes in the template are at most nine tenths of the limits -/
structure Spec.RoomLeft (t : Val) : Prop where
  names : ∀ sec ∈ countLimit.map Prod.fst, ∀ k, HasEntry t sec k → ∃ n, k = .str n ∧ 10 * n.toList.length ≤ 9 * nameLength
  numbers : ∀ sec limit, (sec, limit) ∈ countLimit → ∀ names : List Key, names.Nodup → (∀ k, k ∈ names ↔ Counts t sec k) → 10 * names.length ≤ 9 * limit
  description : ∀ s, look t [.str "Description"] = some (.str s) → 10 * s.toList.length ≤ 9 * 1024
  values : ∀ p v part n, look t [.str "Parameters", p] = some v → ParameterSize v part n → 10 * n ≤ 9 * 4096
  outputs : ∀ o s, look t [.str "Outputs", o, .str "Description"] = some (.str s) → 10 * s.toList.length ≤ 9 * 1024
  attributes : ∀ m a e, look t [.str "Mappings", m, a] = some (.dict e) → 10 * e.length ≤ 9 * 200

/-- the rules on sizes near to a limit -/
def noticeRuleIds : List String :=
  ["I1003", "I2010", "I2011", "I2012", "I3010", "I3012", "I6010", "I6011", "I6012", "I7010", "I7011", "I7012"]

theorem noticed_section {sec : String} (h : sec ∈ countLimit.map Prod.fst) : ∃ s : Sect, s.key = sec ∧ nameNoticeId s ∈ noticeRuleIds ∧ numberNoticeId s ∈ noticeRuleIds := by
  obtain ⟨s, hs, -⟩ := limited_section h
  exact ⟨s, hs, by cases s <;> decide, by cases s <;> decide⟩

theorem room_of {limit n : Nat} (h1 : n ≤ limit) (h2 : ¬ Near limit n) : 10 * n ≤ 9 * limit := by
  unfold Near at h2
  omega

/-- **C140** … and both the rules on limits and those on sizes near to them are in force, every size is at most nine tenths of its limit. Missing: parameters, outputs and
mappings that are texts or lists. -/
theorem C140_room_partial {objs : List RuleObj} {args : Sources} {all : List String} {regions : List Val} {S : TypeSpecs}
    {beh : RuleObj → Behaviour} {name : Val → String} {mark : Val → MVal} {print : List Match → PyM Unit} {ds : List Decoded}
    {size : Val → Option Nat} {place : LimitMatch → Path} (h : CleanRun objs args all regions S beh name mark print ds)
    (hb : LimitRules beh size place) (hn : NoticeRules beh size place) {d : Decoded} (hd : d ∈ ds)
    (hf : ∀ i ∈ limitRuleIds ++ noticeRuleIds, InForce objs args d.template { id := i })
    (hp : ∀ n v, ParamIs d.template n v → ¬ TextOrList v) (ho : ∀ n v, OutputIs d.template n v → ¬ TextOrList v)
    (hm : ∀ m v, look d.template [.str "Mappings", m] = some v → ¬ TextOrList v) : RoomLeft d.template := by
  have hl := C132_limits_partial h hb hd (fun i hi => hf i (List.mem_append_left _ hi)) hp ho hm
  have hf' : ∀ i ∈ noticeRuleIds, InForce objs args d.template { id := i } := fun i hi => hf i (List.mem_append_right _ hi)
  constructor
  · intro sec hsec k hk
    obtain ⟨s, rfl, h1, _⟩ := noticed_section hsec
    obtain ⟨n, rfl, h2⟩ := hl.names _ hsec k hk
    obtain ⟨n', e, h3⟩ := C140_names h hn hd (hf' _ h1) hk
    cases e
    exact ⟨n, rfl, room_of h2 h3⟩
  · intro sec limit hlim names hnd hc
    obtain ⟨s, rfl, _, h1⟩ := noticed_section (List.mem_map.2 ⟨_, hlim, rfl⟩)
    exact room_of (hl.numbers _ _ hlim names hnd (fun k hk => (hc k).1 hk)) (C140_numbers h hn hd (hf' _ h1) hlim hnd hc)
  · exact fun s hs => room_of (hl.description s hs) (C140_description h hn hd (hf' _ (by decide)) hs)
  · intro p v part n hv hs
    have h1 := hl.values p v part n hv hs
    have h2 := C140_values_partial h hn hd (hf' _ (by decide)) hp hv hs
    unfold Near at h2
    omega
  · exact fun o s hs => room_of (hl.outputs o s hs) (C140_outputs_partial h hn hd (hf' _ (by decide)) ho hs)
  · exact fun m a e he => room_of (hl.attributes m a e he) (C140_attributes_partial h hn hd (hf' _ (by decide)) hm he)

/-- **C140** in full: when the script ends with status 0 and the rules on limits and on sizes near to them are in force, every template has all its sizes at most nine tenths
of the limits -/
def C140_statement : Prop :=
  ∀ (objs : List RuleObj) (args : Sources) (all : List String) (regions : List Val) (S : TypeSpecs)
    (beh : RuleObj → Behaviour) (name : Val → String) (mark : Val → MVal) (print : List Match → PyM Unit) (ds : List Decoded)
    (size : Val → Option Nat) (place : LimitMatch → Path),
    CleanRun objs args all regions S beh name mark print ds → LimitRules beh size place → NoticeRules beh size place → ∀ d ∈ ds,
    (∀ i ∈ limitRuleIds ++ noticeRuleIds, InForce objs args d.template { id := i }) → RoomLeft d.template

/-! ### witnesses -/

/-- the command line with `--include-checks I` -/
def infoArgs : Sources where
  cli := fun n => if n = "include_checks" then .list [.str "I"] else (c50Args [] false []).cli n

/-- a run of rules on one template that shows the findings which only inform -/
theorem info_clean {S : TypeSpecs} {ids : List String} {beh : RuleObj → Behaviour} {t : Val}
    (hid : ids.all (fun i => i.toList.head? == some 'E' || i.toList.head? == some 'W' || i.toList.head? == some 'I') = true)
    (hb : ∀ r t, (beh r).setUp t = .ok ()) (hw : t.WF) (ht : t.truthy = true ∧ ∃ top, t = .dict top) (ha : setTemplateArgs t = .ok [])
    (hd : getDirectives (markAll default t) = .ok [])
    (h : runCommand .script (withIds ids) infoArgs (checkWith [] [] S beh (fun _ => "t") (markAll default))
      (fun _ => .ok ()) [⟨t, []⟩] = 0) :
    CleanRun (withIds ids) infoArgs [] [] S beh (fun _ => "t") (markAll default) (fun _ => .ok ()) [⟨t, []⟩] where
  marks := erase_markAll _
  ids := by
    intro r hr x hx
    obtain ⟨i, hi, rfl⟩ := List.mem_map.1 hr
    have hl := List.all_eq_true.1 hid i hi
    obtain ⟨c, cs, hc⟩ : ∃ c cs, i.toList = c :: cs := by
      cases hc : i.toList with
      | nil => rw [hc] at hl; exact absurd hl (by decide)
      | cons c cs => exact ⟨c, cs, rfl⟩
    have hx' : x.rule.id.toList = c :: cs := by rw [hx]; exact hc
    rw [hc] at hl
    simp only [List.head?_cons, Bool.or_eq_true, beq_iff_eq, Option.some.injEq] at hl
    rcases hl with (rfl | rfl) | rfl
    · exact .inr (.inr ⟨'E', cs, hx', .inl rfl⟩)
    · exact .inr (.inl ⟨'W', cs, hx', .inl rfl⟩)
    · exact .inl ⟨'I', cs, hx', .inl rfl⟩
  templates := by
    intro d hd _
    cases List.mem_singleton.1 hd
    exact ⟨hw, ht⟩
  notIgnored := by decide
  quietly := by
    intro d hd a h
    cases List.mem_singleton.1 hd
    rw [ha] at h
    cases h
    intro n _
    rfl
  levelled := by intro d hd m hm; cases List.mem_singleton.1 hd; cases hm
  noDirectives := by intro d h; cases List.mem_singleton.1 h; exact hd
  settable := by intro d _ r; exact hb _ _
  failuresShown := by
    rintro d h cfg ⟨targs, cfg0, h1, h2, rfl⟩
    cases List.mem_singleton.1 h
    rw [ha] at h1
    cases h1
    have h2' : currentCfg { infoArgs with template := [] } = .ok { incl := [.str "W", .str "E", .str "I"] } := by decide
    rw [h2'] at h2
    cases h2
    exact ⟨by decide, [], rfl⟩
  status := h

theorem info_inForce {ids : List String} {i : String} {t : Val} (hi : i ∈ ids) (ha : setTemplateArgs t = .ok [])
    (hen : isRuleEnabled { incl := addDefaults [.str "W", .str "E", .str "I"] } { id := i } = .ok true) :
    InForce (withIds ids) infoArgs t { id := i } := by
  refine ⟨List.mem_map.2 ⟨_, List.mem_map.2 ⟨i, hi, rfl⟩, rfl⟩, ?_⟩
  rintro cfg ⟨targs, cfg0, h1, h2, rfl⟩
  rw [ha] at h1
  cases h1
  have h2' : currentCfg { infoArgs with template := [] } = .ok { incl := [.str "W", .str "E", .str "I"] } := by decide
  rw [h2'] at h2
  cases h2
  exact hen

/-- the functions of the rules on sizes near to a limit, and otherwise those of the rules on limits -/
noncomputable def exNoticeWhole (i : String) : Option (Val → PyM (List (Path × String))) :=
  if i = "I1002" then some fun _ => withText (fun _ => []) (fun m => m.message) (.ok (templateSizeLimit nearTest (some 2000)))
  else if i = "I1003" then some fun t => withText (fun _ => []) (fun m => m.message) (templateDescriptionLimit nearTest t)
  else if i = "I2010" then some fun t => withText (fun _ => []) (fun m => m.message) (approachingNumberLimit t .parameters)
  else if i = "I2011" then some fun t => withText (fun _ => []) (fun m => m.message) (approachingNameLimit t .parameters)
  else if i = "I2012" then some fun t => withText (fun _ => []) (fun m => m.message) (valueLimit nearTest t)
  else if i = "I3010" then some fun t => withText (fun _ => []) (fun m => m.message) (approachingNumberLimit t .resources)
  else if i = "I3012" then some fun t => withText (fun _ => []) (fun m => m.message) (approachingNameLimit t .resources)
  else if i = "I6010" then some fun t => withText (fun _ => []) (fun m => m.message) (approachingNumberLimit t .outputs)
  else if i = "I6011" then some fun t => withText (fun _ => []) (fun m => m.message) (approachingNameLimit t .outputs)
  else if i = "I6012" then some fun t => withText (fun _ => []) (fun m => m.message) (outputDescriptionLimit nearTest t)
  else if i = "I7010" then some fun t => withText (fun _ => []) (fun m => m.message) (approachingNumberLimit t .mappings)
  else if i = "I7011" then some fun t => withText (fun _ => []) (fun m => m.message) (approachingNameLimit t .mappings)
  else if i = "I7012" then some fun t => withText (fun _ => []) (fun m => m.message) (attributeLimit nearTest t)
  else exBoundWhole i

noncomputable def exNoticeRules (r : RuleObj) : Behaviour := { whole := exNoticeWhole r.info.id }

theorem exNoticeRules_limits : LimitRules exNoticeRules (fun _ => some 2000) (fun _ => []) := by
  constructor <;> first
    | (intro s r hr; cases s <;> exact ⟨_, by simp [exNoticeRules, exNoticeWhole, exBoundWhole, hr, nameRuleId, numberRuleId]; rfl⟩)
    | (intro r hr; exact ⟨_, by simp [exNoticeRules, exNoticeWhole, exBoundWhole, hr]; rfl⟩)

theorem exNoticeRules_notices : NoticeRules exNoticeRules (fun _ => some 2000) (fun _ => []) := by
  constructor <;> first
    | (intro s r hr; cases s <;> exact ⟨_, by simp [exNoticeRules, exNoticeWhole, hr, nameNoticeId, numberNoticeId]; rfl⟩)
    | (intro r hr; exact ⟨_, by simp [exNoticeRules, exNoticeWhole, hr]; rfl⟩)

/-- the rules that are run -/
def exNoticeIds : List String := "I1002" :: (limitRuleIds ++ noticeRuleIds)

theorem exNotice_inForce {p text : Val} {n : Int} (ha : setTemplateArgs (exBounds p n text) = .ok []) {i : String} (hi : i ∈ exNoticeIds) :
    InForce (withIds exNoticeIds) infoArgs (exBounds p n text) { id := i } := by
  refine info_inForce hi ha ?_
  revert i
  decide

/-- the full statement does not hold: when a parameter is a text, the values of the others are not looked at -/
theorem C140_text_violated : ¬ C140_statement := by
  intro h
  have ha : setTemplateArgs (exBounds (.str "x") 4000 (.str "${B}")) = .ok [] := by decide
  have hrun := info_clean (S := ⟨[], []⟩) (ids := exNoticeIds) (beh := exNoticeRules) (t := exBounds (.str "x") 4000 (.str "${B}")) (by decide) (fun _ _ => rfl)
    (by simp [exBounds, Val.WF, Val.WFDict, Val.WFList]) ⟨rfl, _, rfl⟩ ha (by decide +kernel) (by decide +kernel)
  have hl := h _ _ _ _ _ _ _ _ _ _ _ _ hrun exNoticeRules_limits exNoticeRules_notices _ List.mem_cons_self
    (fun i hi => exNotice_inForce ha (List.mem_cons_of_mem _ hi))
  exact absurd (hl.values (.str "B") (.dict [(.str "Type", .str "String"), (.str "MaxLength", .int 4000)]) "MaxLength" 4000 (by decide) (.maxInt (by decide))) (by decide)

theorem exNotice_clean : CleanRun (withIds exNoticeIds) infoArgs [] [] ⟨[], []⟩ exNoticeRules (fun _ => "t") (markAll default)
      (fun _ => .ok ()) [⟨exWithin, []⟩] :=
  info_clean (by decide) (fun _ _ => rfl) exBound_wf ⟨rfl, _, rfl⟩ exBound_args (by decide +kernel) (by decide +kernel)

theorem exNotice_forced {i : String} (hi : i ∈ exNoticeIds) : InForce (withIds exNoticeIds) infoArgs exWithin { id := i } :=
  exNotice_inForce exBound_args hi

/-- `C140_room_partial` -/
example : RoomLeft exWithin :=
  C140_room_partial exNotice_clean exNoticeRules_limits exNoticeRules_notices List.mem_cons_self (fun _ hi => exNotice_forced (List.mem_cons_of_mem _ hi))
    (fun _ _ => exBound_params) (fun _ _ => exBound_outputs) (fun _ _ => exBound_maps)

/-- `C140_names` -/
example : ∃ n, Key.str "R" = .str n ∧ ¬ Near nameLength n.toList.length :=
  C140_names exNotice_clean exNoticeRules_notices List.mem_cons_self (s := .resources) (exNotice_forced (by decide)) (k := .str "R")
    ⟨.dict [(.str "Type", .str "T"), (.str "Condition", .str "C")], by decide⟩

/-- `C140_numbers` -/
example : ¬ Near (200 : Nat) ([Key.str "M"].length : Nat) :=
  C140_numbers exNotice_clean exNoticeRules_notices List.mem_cons_self (s := .mappings) (exNotice_forced (by decide)) (limit := 200) (by decide) (by decide)
    (fun k => by
      simp only [Counts, Sect.key, List.mem_singleton]
      constructor
      · rintro rfl
        exact ⟨.dict [(.str "k", .dict [(.str "a", .str "x")])], by decide⟩
      · rintro ⟨w, hw⟩
        obtain ⟨v, h1, h2⟩ := look_cons.1 hw
        rw [show dlookup (Key.str "Mappings") _ = some (.dict [(.str "M", .dict [(.str "k", .dict [(.str "a", .str "x")])])]) from by decide] at h1
        cases h1
        have := dlookup_mem (look_key.1 h2)
        simp at this
        exact this.1)

/-- `C140_description` -/
example : ¬ Near 1024 "a template".toList.length :=
  C140_description exNotice_clean exNoticeRules_notices List.mem_cons_self (exNotice_forced (by decide)) (by decide)

/-- `C140_size` -/
example : ¬ Near 1000000 (2000 : Nat) :=
  C140_size exNotice_clean exNoticeRules_notices List.mem_cons_self (exNotice_forced (by decide)) rfl

/-- `C140_values_partial` -/
example : ¬ Near 4096 50 :=
  C140_values_partial exNotice_clean exNoticeRules_notices List.mem_cons_self (exNotice_forced (by decide)) (fun _ _ => exBound_params) (p := .str "B")
    (v := .dict [(.str "Type", .str "String"), (.str "MaxLength", .int 50)]) (by decide) (.maxInt (by decide))

/-- `C140_outputs_partial` -/
example : ¬ Near 1024 "the resource".toList.length :=
  C140_outputs_partial exNotice_clean exNoticeRules_notices List.mem_cons_self (exNotice_forced (by decide)) (fun _ _ => exBound_outputs)
    (o := .str "O") (by decide)

/-- `C140_attributes_partial` -/
example : ¬ Near 200 [(Key.str "a", Val.str "x")].length :=
  C140_attributes_partial exNotice_clean exNoticeRules_notices List.mem_cons_self (exNotice_forced (by decide)) (fun _ _ => exBound_maps)
    (m := .str "M") (a := .str "k") (by decide)

/-- the functions of the other rules that inform -/
noncomputable def exAdvice (R : RegionSpec) (r : RuleObj) : Behaviour :=
  if r.info.id = "I3011" then { whole := some fun t => withText id (fun _ => "stateful") (statefulRule t) }
  else if r.info.id = "I1022" then { whole := some fun t => withText id (fun _ => "join") (subNotJoinRule t (.dict [])) }
  else allowedRepeatsOf exGroupEnv R (fun _ => "m")

theorem exAdvice_rules (R : RegionSpec) : AdviceRules (exAdvice R) exGroupEnv R (fun _ => "m") where
  I3011 := fun r hr => ⟨_, by simp [exAdvice, hr]; rfl⟩
  I1022 := fun r hr => ⟨_, by simp [exAdvice, hr]; rfl⟩
  I3037 := fun r hr => by simp [exAdvice, hr]

theorem exAdvice_setUp (R : RegionSpec) (r : RuleObj) (t : Val) : (exAdvice R r).setUp t = .ok () := by
  unfold exAdvice
  split
  · rfl
  · split <;> rfl

/-- a table that states both policies, and the text of an output -/
def exRetained : Val := .dict [
  (.str "Resources", .dict [(.str "R", .dict [(.str "Type", .str "AWS::DynamoDB::Table"), (.str "DeletionPolicy", .str "Retain"), (.str "UpdateReplacePolicy", .str "Retain")])]),
  (.str "Outputs", .dict [(.str "O", .dict [(.str "Value", .dict [(.str "Fn::Join", .list [.str ",", .list [.str "a", .str "b"]])])])])]

theorem exRetained_run : CleanRun (withIds ["I3011", "I1022"]) infoArgs [] [] ⟨[], []⟩ (exAdvice ⟨[], [], []⟩) (fun _ => "t") (markAll default)
      (fun _ => .ok ()) [⟨exRetained, []⟩] :=
  info_clean (by decide) (exAdvice_setUp _) (by simp [exRetained, Val.WF, Val.WFDict, Val.WFList]) ⟨rfl, _, rfl⟩ rfl (by decide +kernel) (by decide +kernel)

/-- `C140_stateful` -/
example {r : Val} (hr : look exRetained [.str "Resources", .str "R"] = some r) :
    (∃ v, StatesPolicy r "DeletionPolicy" v) ∧ ∃ v, StatesPolicy r "UpdateReplacePolicy" v := by
  have e : look exRetained [.str "Resources", .str "R"] =
    some (.dict [(.str "Type", .str "AWS::DynamoDB::Table"), (.str "DeletionPolicy", .str "Retain"), (.str "UpdateReplacePolicy", .str "Retain")]) := by decide
  have hr' := hr
  rw [e] at hr'
  cases hr'
  exact C140_stateful exRetained_run (exAdvice_rules _) List.mem_cons_self (info_inForce (by decide) rfl (by decide)) ⟨hr, .str "AWS::DynamoDB::Table", by decide, by simp⟩
    ⟨_, by decide, rfl⟩

/-- `C140_joins` -/
example : Val.str "," ≠ .str "" :=
  C140_joins exRetained_run (exAdvice_rules _) List.mem_cons_self (info_inForce (by decide) rfl (by decide)) (q := [.str "Outputs", .str "O", .str "Value"])
    (.key (List.mem_cons_of_mem _ List.mem_cons_self) (.key List.mem_cons_self (.key List.mem_cons_self (.key List.mem_cons_self .here))))

/-- a specification with a list of texts that may be repeated -/
def exMaySpec : RegionSpec where
  resourceTypes := [("T", .dict [(.str "Properties", .dict [(.str "A", .dict [(.str "Type", .str "List"), (.str "DuplicatesAllowed", .bool true),
    (.str "PrimitiveItemType", .str "String")])])])]
  propertyTypes := []
  valueTypes := []

/-- `C140_repeats_partial` -/
example (i : Nat) : ¬ Repeats [.str "x", .str "y"] i := by
  obtain ⟨spec, decl, h1, h2, h3⟩ : ∃ spec decl, DeclaredIn exMaySpec true "T" spec ∧ DeclaredProp spec "A" decl ∧ MayRepeat decl :=
    ⟨_, _, rfl, ⟨_, rfl, rfl⟩, rfl, rfl, _, .inl rfl, rfl⟩
  have ha : setTemplateArgs (exGroup (exRepeat (.list [.str "x", .str "y"]))) = .ok [] := by decide
  have hi : ¬ IsIf (.dict (exRepeat (.list [.str "x", .str "y"]))) := by simp [IsIf, exRepeat]
  have hw : (exGroup (exRepeat (.list [.str "x", .str "y"]))).WF := exRel_wf (exGroupRes_wf (by simp [exRepeat, Val.WF, Val.WFDict, Val.WFList]))
  have hrun := info_clean (S := traversed ⟨[], [], []⟩) (ids := ["I3037"]) (beh := exAdvice exMaySpec) (by decide) (exAdvice_setUp _) hw ⟨rfl, _, rfl⟩ ha
    (by decide +kernel) (by decide +kernel)
  exact C140_repeats_partial hrun (exAdvice_rules _) List.mem_cons_self (info_inForce (by decide) ha (by decide)) (exGroup_followed _) (exGroup_object _ _ _) h1
    (fun q u h => ⟨_, leaf_of_two h⟩) (.here hi (by simp [exRepeat, noValue])) h2 h3 List.mem_cons_self i

end CfnLint
