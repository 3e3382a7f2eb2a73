import Verif.Props.Closed
import Verif.Props.FnShape
import Verif.Props.Cidr
import Verif.Props.Join
import Verif.Props.RefRules
import Verif.Props.SubNeeded
import Verif.Lemmas.NoAttr
/-
Property C135: what status 0 says of the calls of functions, when the rules on their form are in force. Calls on which such a rule
raises are excluded too, since the run then ends with an error of its own; so most of these hold without conditions on the template.
-/
namespace CfnLint

open Spec

/-- the rules on calls that are called on the whole template, each with its function; the messages are arbitrary. The ids are those of
If.py:12, Select.py:12, Split.py:12, ImportValue.py:12, Base64.py:12, GetAz.py:12, Not.py:11, Cidr.py:15, Join.py:13, SubNeeded.py:14,
SubUnneeded.py:12 and SubParametersUsed.py:12, all in rules/functions -/
structure CallRules (beh : RuleObj → Behaviour) (zones : List String) (fltOk custom : String → Bool) (A : AttrSpecs) : Prop where
  E1028 : ∀ r, r.info.id = "E1028" → ∃ msg, (beh r).whole = some (fun t => withText id msg (ifRule t (.dict [])))
  E1017 : ∀ r, r.info.id = "E1017" → ∃ msg, (beh r).whole = some (fun t => withText id msg (selectRule t (.dict [])))
  E1018 : ∀ r, r.info.id = "E1018" → ∃ msg, (beh r).whole = some (fun t => withText id msg (splitRule t (.dict [])))
  E1016 : ∀ r, r.info.id = "E1016" → ∃ msg, (beh r).whole = some (fun t => withText id msg (importRule t (.dict [])))
  E1021 : ∀ r, r.info.id = "E1021" → ∃ msg, (beh r).whole = some (fun t => withText id msg (base64Rule t (.dict [])))
  E1015 : ∀ r, r.info.id = "E1015" → ∃ msg, (beh r).whole = some (fun t => withText id msg (getAzRule zones t (.dict [])))
  E1023 : ∀ r, r.info.id = "E1023" → ∃ msg, (beh r).whole = some (fun t => withText id msg (notRule t (.dict [])))
  E1024 : ∀ r, r.info.id = "E1024" → ∃ msg, (beh r).whole = some (fun t => withText id msg (cidrRule fltOk t (.dict [])))
  E1022 : ∀ r, r.info.id = "E1022" → ∃ msg, (beh r).whole = some (fun t => withText id msg (joinRule A t (.dict [])))
  E1029 : ∀ r, r.info.id = "E1029" → ∃ msg, (beh r).whole = some (fun t => withText id msg (subNeeded custom t))
  W1020 : ∀ r, r.info.id = "W1020" → ∃ msg, (beh r).whole = some (fun t => withText id msg (subUnneeded t))
  W1019 : ∀ r, r.info.id = "W1019" → ∃ msg, (beh r).whole = some (fun t => withText Prod.fst msg (.ok (subUnused t (.dict []))))

/-- the text has a variable, `${`, something without `}` and line breaks, `}`, whose name is `x` up to white space around it -/
def Spec.TextVar (s x : String) : Prop :=
  ∃ pre b post, s.toList = pre ++ '$' :: '{' :: (b ++ '}' :: post) ∧ b ≠ [] ∧ b.head? ≠ some '!' ∧
    (∀ c ∈ b.tail, c ≠ '}' ∧ c ≠ '\n') ∧ Trimmed b x.toList

/-- a silent loop was silent on every element -/
theorem collectM_silent {α β : Type} {f : α → PyM (List β)} : ∀ {l : List α}, collectM f l = .ok [] → ∀ a ∈ l, f a = .ok [] := by
  intro l h a ha
  obtain ⟨r, hr⟩ := collectM_each h a ha
  cases r with
  | nil => exact hr
  | cons b r => cases (mem_collectM h (b := b)).2 ⟨a, ha, _, hr, List.mem_cons_self⟩

theorem noAttr_cidrParameter {fltOk : String → Bool} {t : Val} (hw : t.WF) (ht : ∃ top, t = .dict top)
    (hs_ : ∀ v, At t [.str "Parameters"] v → ∃ kvs, v = .dict kvs) (hp : ∀ k v, At t [.str "Parameters", k] v → ∃ kvs, v = .dict kvs) (v : Val) :
    NoAttr (cidrParameter fltOk t v) := by
  obtain ⟨top, rfl⟩ := ht
  have hb : ∀ x, NoAttr (cidrBound fltOk x) := by
    intro x s hx
    unfold cidrBound at hx
    repeat' split at hx
    all_goals cases hx
  have hg : ∀ (o : List (Key × Val)) (f : String) (e : PyErr), (Val.dict o).getD f .none ≠ .error e := by
    intro o f e he
    unfold Val.getD at he
    cases he
  intro s hs
  unfold cidrParameter at hs
  split at hs
  · cases hs
  · cases hs
  · have hps : ∃ ps, (Val.dict top).getD "Parameters" (.dict []) = .ok (.dict ps) ∧ (∀ k v, (k, v) ∈ ps → ∃ kvs, v = .dict kvs) := by
      unfold Val.getD
      cases hl : dlookup (Key.str "Parameters") top with
      | none => exact ⟨[], by simp [hl], fun k v h => by cases h⟩
      | some v =>
        have hm := at_dict_one.2 (dlookup_mem hl)
        obtain ⟨kvs, rfl⟩ := hs_ v hm
        exact ⟨kvs, by simp [hl], fun k v h => hp k v (at_cons.2 ⟨_, hm, at_dict_one.2 h⟩)⟩
    obtain ⟨ps, hps, hent⟩ := hps
    rw [hps] at hs
    have hitems : itemsOf (if (Val.dict ps).truthy = true then Val.dict ps else Val.dict []) = .ok ps := by cases ps <;> rfl
    simp only [hitems] at hs
    split at hs
    · cases hs
    · rename_i k o hk
      have ho : ∃ kvs, o = .dict kvs := by
        obtain ⟨k', -, h2⟩ := Option.bind_eq_some_iff.1 hk
        obtain ⟨o', h3, h4⟩ := Option.map_eq_some_iff.1 h2
        cases h4
        exact hent _ _ (dlookup_mem h3)
      obtain ⟨o, rfl⟩ := ho
      split at hs
      · split at hs
        · rename_i he
          exact hg _ _ _ he
        · split at hs
          · split at hs
            · split at hs
              · rename_i he
                cases hs
                exact hb _ _ he
              · split at hs
                · rename_i he
                  cases hs
                  exact hb _ _ he
                · cases hs
            · rename_i he
              exact hg _ _ _ he
            · rename_i he _
              exact hg _ _ _ he
          · cases hs
      · cases hs

section Clean

variable {objs : List RuleObj} {args : Sources} {all : List String} {regions : List Val} {S : TypeSpecs} {beh : RuleObj → Behaviour}
  {name : Val → String} {mark : Val → MVal} {print : List Match → PyM Unit} {ds : List Decoded} {zones : List String}
  {fltOk custom : String → Bool} {A : AttrSpecs}

/-- a check of calls that was in force was silent on every call -/
theorem call_silent (h : CleanRun objs args all regions S beh name mark print ds) {d : Decoded} (hd : d ∈ ds) {info : RuleInfo}
    (hf : InForce objs args d.template info) {fn : String} {check : Path → Val → PyM (List Path)}
    (hb : ∀ r, r.info.id = info.id → ∃ msg, (beh r).whole = some (fun t => withText id msg (callRule fn check t (.dict []))))
    (hn : ∀ p v, NoAttr (check p v)) {q : Path} {v : Val} (hat : At d.template (q ++ [.str fn]) v) : check (q ++ [.str fn]) v = .ok [] :=
  collectM_silent (whole_silent h hd hf (rule := fun t => callRule fn check t (.dict [])) hb
    (noAttr_collectM fun _ _ => hn _ _)) (_, v) (((C27_search_partial fn _ (clean_wf h hd)).1 _ _).2 ⟨hat, q, rfl⟩)

/-- **C135** If the command ends with status 0 and E1028 is in force, each `Fn::If` has a text and two branches. -/
theorem C135_if (h : CleanRun objs args all regions S beh name mark print ds) (hb : CallRules beh zones fltOk custom A) {d : Decoded} (hd : d ∈ ds)
    (hf : InForce objs args d.template { id := "E1028" }) {q : Path} {v : Val} (hat : At d.template (q ++ [.str "Fn::If"]) v) :
    ∃ c a b, v = .list [.str c, a, b] := by
  have hc := call_silent h hd hf (check := ifShape) hb.E1028 (by intro p v s hs; unfold ifShape at hs; split at hs <;> cases hs) hat
  unfold ifShape at hc
  split at hc
  · cases hc
  · rename_i c xs
    have h1 := Except.ok.inj hc
    simp only [List.append_eq_nil_iff] at h1
    obtain ⟨h1, h2⟩ := h1
    have h3 : xs.length = 2 := by
      by_contra hx
      rw [if_pos hx] at h1
      cases h1
    have h4 : isText c = true := by
      by_contra hx
      rw [if_neg hx] at h2
      cases h2
    obtain ⟨s, rfl⟩ := isText_iff.1 h4
    match xs, h3 with
    | [a, b], _ => exact ⟨s, a, b, rfl⟩
  · cases hc

theorem noAttr_selectIndex (v : Val) : NoAttr (selectIndex v) := by
  intro s hs
  unfold selectIndex at hs
  repeat' split at hs
  all_goals cases hs

theorem noAttr_selectShape (p : Path) (v : Val) : NoAttr (selectShape p v) := by
  intro s hs
  unfold selectShape at hs
  split at hs
  · split at hs
    · rename_i he
      cases hs
      exact noAttr_selectIndex _ _ he
    · cases hs
  · cases hs

/-- **C135** … and E1017 is in force, each `Fn::Select` has an index and a list. Missing: indexes that are Booleans, decimal numbers or objects with no or several
keys, which pass. -/
theorem C135_select_partial (h : CleanRun objs args all regions S beh name mark print ds) (hb : CallRules beh zones fltOk custom A) {d : Decoded} (hd : d ∈ ds)
    (hf : InForce objs args d.template { id := "E1017" }) {q : Path} {v : Val} (hat : At d.template (q ++ [.str "Fn::Select"]) v) :
    ∃ i l, v = .list [i, l] ∧ SelectSource l ∧ ((∃ b, i = .bool b) ∨ (∃ r, i = .flt r) ∨ (∃ kvs, i = .dict kvs ∧ kvs.length ≠ 1) ∨ SelectIndex i) := by
  have hc := call_silent h hd hf (check := selectShape) hb.E1017 noAttr_selectShape hat
  unfold selectShape at hc
  split at hc
  · rename_i i l
    split at hc
    · cases hc
    · rename_i b hi
      have h1 := Except.ok.inj hc
      simp only [List.append_eq_nil_iff] at h1
      obtain ⟨h1, h2⟩ := h1
      have hb' : b = true := by
        by_contra hx
        rw [if_neg hx] at h1
        cases h1
      have hl : selectList l = true := by
        by_contra hx
        rw [if_neg hx] at h2
        cases h2
      subst hb'
      refine ⟨i, l, rfl, ?_, ?_⟩
      · unfold selectList at hl
        split at hl
        · exact .call (oneCall_dict.2 hl)
        · exact .list
        · cases hl
      · unfold selectIndex at hi
        split at hi
        · exact .inr (.inr (.inr (.call (oneCall_dict.2 (Except.ok.inj hi)))))
        · rename_i kvs hne
          refine .inr (.inr (.inl ⟨kvs, rfl, fun hlen => ?_⟩))
          match kvs, hlen with
          | [(k, a)], _ => exact hne k a rfl
        · exact .inr (.inr (.inr .int))
        · exact .inl ⟨_, rfl⟩
        · exact .inr (.inr (.inr (.text (isIntText_iff.1 (Except.ok.inj hi)))))
        · exact .inr (.inl ⟨_, rfl⟩)
        · cases hi
  · cases hc

/-- **C135** … and E1018 is in force, each `Fn::Split` has a delimiter and a text or a call that gives one. -/
theorem C135_split (h : CleanRun objs args all regions S beh name mark print ds) (hb : CallRules beh zones fltOk custom A) {d : Decoded} (hd : d ∈ ds)
    (hf : InForce objs args d.template { id := "E1018" }) {q : Path} {v : Val} (hat : At d.template (q ++ [.str "Fn::Split"]) v) :
    ∃ s w, v = .list [.str s, w] ∧ SplitSource w := by
  have hc := call_silent h hd hf (check := splitShape) hb.E1018 (by intro p v s hs; unfold splitShape at hs; split at hs <;> cases hs) hat
  unfold splitShape at hc
  split at hc
  · rename_i a w
    have h1 := Except.ok.inj hc
    simp only [List.append_eq_nil_iff] at h1
    obtain ⟨h1, h2⟩ := h1
    have h4 : isText a = true := by
      by_contra hx
      rw [if_neg hx] at h1
      cases h1
    obtain ⟨s, rfl⟩ := isText_iff.1 h4
    refine ⟨s, w, rfl, ?_⟩
    unfold splitSource at h2
    split at h2
    · split at h2
      · rename_i hk
        exact .call (oneCall_dict.2 hk)
      · cases h2
    · exact .text
    · cases h2
  · cases hc

/-- **C135** … and E1016 is in force, each `Fn::ImportValue` is outside of the conditions and has a text or a call that gives one. -/
theorem C135_import (h : CleanRun objs args all regions S beh name mark print ds) (hb : CallRules beh zones fltOk custom A) {d : Decoded} (hd : d ∈ ds)
    (hf : InForce objs args d.template { id := "E1016" }) {q : Path} {v : Val} (hat : At d.template (q ++ [.str "Fn::ImportValue"]) v) :
    (∀ r, q ≠ .str "Conditions" :: r) ∧ ((∃ s, v = .str s) ∨
      OneCall ["Fn::Base64", "Fn::FindInMap", "Fn::If", "Fn::Join", "Fn::Select", "Fn::Split", "Fn::Sub", "Ref"] v) := by
  obtain ⟨l, h1, h2⟩ := C72_import (clean_wf h hd)
  cases whole_found h hd hf hb.E1016 h1
  have hno : ∀ s, ¬ BadImport (q ++ [.str "Fn::ImportValue"]) v s := fun s hs => by cases (h2 _).2 ⟨q, v, s, hat, hs, rfl⟩
  constructor
  · rintro r rfl
    exact hno [] .place
  · by_contra hc
    push Not at hc
    exact hno [] (.value hc.1 hc.2)

/-- **C135** … and E1021 is in force, each `Fn::Base64` has a text or a call of something but `Fn::Split`. -/
theorem C135_base64 (h : CleanRun objs args all regions S beh name mark print ds) (hb : CallRules beh zones fltOk custom A) {d : Decoded} (hd : d ∈ ds)
    (hf : InForce objs args d.template { id := "E1021" }) {q : Path} {v : Val} (hat : At d.template (q ++ [.str "Fn::Base64"]) v) :
    (∃ s, v = .str s) ∨ ∃ k a, v = .dict [(k, a)] ∧ k ≠ .str "Fn::Split" := by
  obtain ⟨l, h1, h2⟩ := C72_base64 (clean_wf h hd)
  cases whole_found h hd hf hb.E1021 h1
  by_contra hc
  push Not at hc
  cases (h2 _).2 ⟨q, v, [], hat, ⟨rfl, hc.1, hc.2⟩, rfl⟩

/-- **C135** … and E1015 is in force, each `Fn::GetAZs` is for a region of the run or that of the stack. Missing: values that are neither texts nor objects, which
pass. -/
theorem C135_zones_partial (h : CleanRun objs args all regions S beh name mark print ds) (hb : CallRules beh zones fltOk custom A) {d : Decoded} (hd : d ∈ ds)
    (hf : InForce objs args d.template { id := "E1015" }) {q : Path} {v : Val} (hat : At d.template (q ++ [.str "Fn::GetAZs"]) v)
    (hv : (∃ s, v = .str s) ∨ ∃ kvs, v = .dict kvs) : ZonesOf zones v := by
  have hc := call_silent h hd hf (check := getAzShape zones) hb.E1015 (by intro p v s hs; unfold getAzShape at hs; split at hs <;> cases hs) hat
  rcases hv with ⟨s, rfl⟩ | ⟨kvs, rfl⟩
  · have h1 := Except.ok.inj hc
    by_cases hs : s = ""
    · subst hs
      exact .here
    · refine .region ?_
      by_contra hr
      rw [if_pos ⟨hs, hr⟩] at h1
      cases h1
  · match kvs, hc with
    | [(k, v)], hc =>
      have h1 := Except.ok.inj hc
      by_cases hk : k = .str "Ref" ∧ v = .str "AWS::Region"
      · obtain ⟨rfl, rfl⟩ := hk
        exact .ref
      · rw [if_pos (by tauto)] at h1
        cases h1
    | [], hc => cases Except.ok.inj hc
    | _ :: _ :: _, hc => cases Except.ok.inj hc

/-- **C135** … and E1023 is in force, each `Fn::Not` has a list. -/
theorem C135_not (h : CleanRun objs args all regions S beh name mark print ds) (hb : CallRules beh zones fltOk custom A) {d : Decoded} (hd : d ∈ ds)
    (hf : InForce objs args d.template { id := "E1023" }) {q : Path} {v : Val} (hat : At d.template (q ++ [.str "Fn::Not"]) v) : ∃ xs, v = .list xs := by
  obtain ⟨l, h1, h2⟩ := C72_not (clean_wf h hd)
  cases whole_found h hd hf hb.E1023 h1
  by_contra hc
  push Not at hc
  cases (h2 _).2 ⟨q, v, [], hat, ⟨rfl, hc⟩, rfl⟩

/-- the three parts of the rule on `Fn::Cidr` were silent -/
theorem cidr_silent (h : CleanRun objs args all regions S beh name mark print ds) (hb : CallRules beh zones fltOk custom A) {d : Decoded} (hd : d ∈ ds)
    (hf : InForce objs args d.template { id := "E1024" }) (hs : ∀ v, At d.template [.str "Parameters"] v → ∃ kvs, v = .dict kvs)
    (hp : ∀ k v, At d.template [.str "Parameters", k] v → ∃ kvs, v = .dict kvs) :
    callRule "Fn::Cidr" cidrShape d.template (.dict []) = .ok [] ∧
    (∀ get ∈ [cidrCounts, cidrMasks],
      collectM (cidrParameter fltOk d.template) ((searchDeepKeys "Fn::Cidr" d.template (.dict [])).flatMap (fun f => get f.2)) = .ok []) := by
  have hsh : NoAttr (callRule "Fn::Cidr" cidrShape d.template (.dict [])) :=
    noAttr_collectM fun _ _ => by intro s hs; unfold cidrShape at hs; split at hs <;> cases hs
  have hpar : ∀ get : Val → List Val, NoAttr (collectM (cidrParameter fltOk d.template) ((searchDeepKeys "Fn::Cidr" d.template (.dict [])).flatMap (fun f => get f.2))) :=
    fun get => noAttr_collectM fun v _ => noAttr_cidrParameter (clean_wf h hd) (clean_object h hd) hs hp v
  have hl := whole_silent h hd hf (rule := fun t => cidrRule fltOk t (.dict [])) hb.E1024 (by
    intro s hs
    unfold cidrRule at hs
    split at hs
    · rename_i he
      cases hs
      exact hsh _ he
    · split at hs
      · rename_i he
        cases hs
        exact hpar _ _ he
      · split at hs
        · rename_i he
          cases hs
          exact hpar _ _ he
        · cases hs)
  unfold cidrRule at hl
  split at hl
  · cases hl
  · rename_i a ha
    split at hl
    · cases hl
    · rename_i b hb'
      split at hl
      · cases hl
      · rename_i c hc
        have := Except.ok.inj hl
        simp only [List.append_eq_nil_iff] at this
        obtain ⟨⟨rfl, rfl⟩, rfl⟩ := this
        refine ⟨ha, ?_⟩
        simp only [List.mem_cons, List.not_mem_nil, or_false]
        rintro get (rfl | rfl)
        · exact hb'
        · exact hc

/-- **C135** … and E1024 is in force, each `Fn::Cidr` has a block, a count and a mask. Missing: templates whose parameters are no objects, on which the rule may
fail unnoticed; and blocks, counts and masks that are objects with no or several keys, Booleans or texts with a line break at the end. -/
theorem C135_cidr_partial (h : CleanRun objs args all regions S beh name mark print ds) (hb : CallRules beh zones fltOk custom A) {d : Decoded} (hd : d ∈ ds)
    (hf : InForce objs args d.template { id := "E1024" }) (hs : ∀ v, At d.template [.str "Parameters"] v → ∃ kvs, v = .dict kvs)
    (hp : ∀ k v, At d.template [.str "Parameters", k] v → ∃ kvs, v = .dict kvs) {q : Path} {v : Val} (hat : At d.template (q ++ [.str "Fn::Cidr"]) v) :
    ∃ b c m, v = .list [b, c, m] ∧ (OneKey b → (∀ s : String, b = .str s → ¬ ∃ l, s.toList = l ++ ['\n']) → CidrBlock b) ∧
      ∀ x ∈ [c, m], OneKey x → (∀ y, x ≠ .bool y) → CidrNumber x := by
  have hc : cidrShape (q ++ [.str "Fn::Cidr"]) v = .ok [] := collectM_silent (cidr_silent h hb hd hf hs hp).1 (_, v) (((C27_search_partial "Fn::Cidr" _ (clean_wf h hd)).1 _ _).2 ⟨hat, q, rfl⟩)
  have hnum : ∀ x, cidrNumber x = true → OneKey x → (∀ y, x ≠ .bool y) → CidrNumber x := by
    intro x hx h1 h2
    unfold cidrNumber at hx
    split at hx
    · exact .call (oneCall_dict.2 hx)
    · rename_i kvs hne
      match kvs, h1 kvs rfl with
      | [(k, a)], _ => exact absurd rfl (hne k a)
    · exact .int
    · exact absurd rfl (h2 _)
    · cases hx
  unfold cidrShape at hc
  split at hc
  · have := Except.ok.inj hc
    simp at this
  · rename_i b c m
    have h1 := Except.ok.inj hc
    simp only [List.append_eq_nil_iff] at h1
    obtain ⟨⟨h1, h2⟩, h3⟩ := h1
    have i1 : cidrBlock b = true := by
      by_contra hx
      rw [if_neg hx] at h1
      cases h1
    have i2 : cidrNumber c = true := by
      by_contra hx
      rw [if_neg hx] at h2
      cases h2
    have i3 : cidrNumber m = true := by
      by_contra hx
      rw [if_neg hx] at h3
      cases h3
    refine ⟨b, c, m, rfl, fun k1 k2 => (cidrBlock_iff k2 k1).1 i1, ?_⟩
    simp only [List.mem_cons, List.not_mem_nil, or_false]
    rintro x (rfl | rfl)
    · exact hnum _ i2
    · exact hnum _ i3
  · have := Except.ok.inj hc
    simp at this

/-- **C135** … and a parameter that gives a count or a mask is a number from 1 to 256. Missing: bounds that are no integers, and the limit of 128 for masks. -/
theorem C135_counts_partial (h : CleanRun objs args all regions S beh name mark print ds) (hb : CallRules beh zones fltOk custom A) {d : Decoded} (hd : d ∈ ds)
    (hf : InForce objs args d.template { id := "E1024" }) (hs : ∀ v, At d.template [.str "Parameters"] v → ∃ kvs, v = .dict kvs)
    (hp : ∀ k v, At d.template [.str "Parameters", k] v → ∃ kvs, v = .dict kvs) {n : String} (hn : CountRef d.template n ∨ MaskRef d.template n)
    {fs : List (Key × Val)} (hat : At d.template [.str "Parameters", .str n] (.dict fs)) (hne : fs ≠ [])
    (hi : ∀ b v, b ∈ ["MinValue", "MaxValue"] → (.str b, v) ∈ fs → ∃ i, v = .int i) :
    (.str "Type", .str "Number") ∈ fs ∧ ∀ b ∈ ["MinValue", "MaxValue"], ∃ i : Int, (.str b, .int i) ∈ fs ∧ 1 ≤ i ∧ i ≤ 256 := by
  have hw := clean_wf h hd
  obtain ⟨-, hg⟩ := cidr_silent h hb hd hf hs hp
  have hsil : cidrParameter fltOk d.template (.str n) = .ok [] := by
    rcases hn with ⟨q, b, r, hq, hr⟩ | ⟨q, b, c, hq⟩
    · exact collectM_silent (hg cidrCounts (by simp)) _ (List.mem_flatMap.2 ⟨(_, _), ((C27_search_partial "Fn::Cidr" _ hw).1 _ _).2 ⟨hq, q, rfl⟩,
        cidrCounts_mem.2 ⟨b, r, rfl, hr⟩⟩)
    · exact collectM_silent (hg cidrMasks (by simp)) _ (List.mem_flatMap.2 ⟨(_, _), ((C27_search_partial "Fn::Cidr" _ hw).1 _ _).2 ⟨hq, q, rfl⟩,
        by simp [cidrMasks, refArgument]⟩)
  obtain ⟨l, h1, h2⟩ := cidrParameter_spec (fltOk := fltOk) (n := n) hw (clean_object h hd) hs
    (fun v hv => by cases at_det hw hv hat; exact ⟨_, rfl, hne⟩)
    (fun b v hb' hv => by
      obtain ⟨u, h1, h2⟩ := at_split (p := [.str "Parameters", .str n]) (q := [.str b]) hv
      cases at_det hw h1 hat
      exact hi b v hb' (at_dict_one.1 h2))
  rw [hsil] at h1
  cases h1
  have hty : (Key.str "Type", Val.str "Number") ∈ fs := by
    by_contra hc
    cases (h2 _).2 ⟨fs, hat, .inl ⟨hc, rfl⟩⟩
  refine ⟨hty, fun b hb' => ?_⟩
  by_contra hc
  cases (h2 _).2 ⟨fs, hat, .inr ⟨hty, b, hb', hc, rfl⟩⟩

/-- **C135** … and E1022 is in force, each `Fn::Join` has a delimiter and values that can be joined. Missing: templates outside of the shape that C73 needs. -/
theorem C135_join_partial (h : CleanRun objs args all regions S beh name mark print ds) (hb : CallRules beh zones fltOk custom A) {d : Decoded} (hd : d ∈ ds)
    (hf : InForce objs args d.template { id := "E1022" }) (hA : NoStar A) (ht : PlainSections d.template) (hc : ClosedTypes d.template)
    (hj : PlainJoins d.template) {q : Path} {v : Val} (hat : At d.template (q ++ [.str "Fn::Join"]) v) :
    ∃ s o, v = .list [.str s, o] ∧ JoinList A d.template o := by
  obtain ⟨l, h1, h2⟩ := C73_exact_partial hA ht hc hj
  cases whole_found h hd hf hb.E1022 h1
  by_contra hx
  cases (h2 _).2 ⟨q, v, [], hat, ⟨rfl, hx⟩, rfl⟩

/-- **C135** … and E1029 is in force, no text outside of `Fn::Sub` has a variable that would be replaced there. Missing: a `DefinitionString` below something that is no
object, on which the rule fails unnoticed. -/
theorem C135_needed_partial (h : CleanRun objs args all regions S beh name mark print ds) (hb : CallRules beh zones fltOk custom A) {d : Decoded} (hd : d ∈ ds)
    (hf : InForce objs args d.template { id := "E1029" }) (hp : PlainDefinitions d.template d.template)
    (hg : ∀ g, At d.template [.str "Globals"] g → PlainDefinitions d.template g) (p : Path) : ¬ NeedsSub custom d.template d.template p := by
  obtain ⟨l, h1, h2⟩ := C79_reports_partial (custom := custom) (clean_wf h hd) (clean_object h hd) hp hg
  cases whole_found h hd hf hb.E1029 h1
  intro hn
  by_cases hm : Key.str "DefinitionString" ∈ p
  · obtain ⟨a, b, rfl, ha⟩ := List.eq_append_cons_of_mem hm
    cases (h2 _).2 (.inl ⟨_, hn, .swapped ha⟩)
  · cases (h2 _).2 (.inl ⟨_, hn, .same hm⟩)

/-- **C135** … and W1020 is in force, each text of a `Fn::Sub` has a variable. -/
theorem C135_unneeded (h : CleanRun objs args all regions S beh name mark print ds) (hb : CallRules beh zones fltOk custom A) {d : Decoded} (hd : d ∈ ds)
    (hf : InForce objs args d.template { id := "W1020" }) {q : Path} {v : Val} (hat : At d.template (q ++ [.str "Fn::Sub"]) v)
    {s : String} (hv : v = .str s ∨ ∃ w, v = .list [.str s, w]) : ∃ x, TextVar s x := by
  have hc := collectM_silent (whole_silent h hd hf (rule := subUnneeded) hb.W1020 (noAttr_collectM fun f _ s hs => by
    unfold subUnneededAt at hs
    split at hs <;> cases hs)) (_, v) (((C27_search_partial "Fn::Sub" _ (clean_wf h hd)).1 _ _).2 ⟨hat, q, rfl⟩)
  have hne : subParams s ≠ [] := by
    intro he
    rcases hv with rfl | ⟨w, rfl⟩ <;> simp [subUnneededAt, he] at hc
  obtain ⟨x, hx⟩ := List.exists_mem_of_ne_nil _ hne
  exact ⟨x, C56_sound_partial s x hx⟩

/-- **C135** … and W1019 is in force, each variable that a `Fn::Sub` defines is used in its text. -/
theorem C135_used (h : CleanRun objs args all regions S beh name mark print ds) (hb : CallRules beh zones fltOk custom A) {d : Decoded} (hd : d ∈ ds)
    (hf : InForce objs args d.template { id := "W1019" }) {q : Path} {s : String} {m : List (Key × Val)}
    (hat : At d.template (q ++ [.str "Fn::Sub"]) (.list [.str s, .dict m])) {k : Key} {w : Val} (hk : (k, w) ∈ m) : ∃ x, k = .str x ∧ TextVar s x := by
  have hl := whole_found h hd hf (rule := fun t => .ok (subUnused t (.dict []))) hb.W1019 rfl
  by_contra hc
  have hm : (q ++ [.str "Fn::Sub"] ++ [.int 1], k) ∈ subUnused d.template (.dict []) := by
    refine List.mem_flatMap.2 ⟨(_, _), ((C27_search_partial "Fn::Sub" _ (clean_wf h hd)).1 _ _).2 ⟨hat, q, rfl⟩, ?_⟩
    refine List.mem_map.2 ⟨(k, w), List.mem_filter.2 ⟨hk, ?_⟩, rfl⟩
    refine List.all_eq_true.2 fun x hx => bne_iff_ne.2 ?_
    rintro rfl
    exact hc ⟨x, rfl, C56_sound_partial s x hx⟩
  rw [hl] at hm
  cases hm

end Clean

/-- the rules on calls -/
def callIds : List String := ["E1028", "E1017", "E1018", "E1016", "E1021", "E1015", "E1023", "E1024", "E1022", "E1029", "W1020", "W1019"]

/-- what the rules on calls are for -/
structure Spec.CallsRight (zones : List String) (custom : String → Bool) (A : AttrSpecs) (t : Val) : Prop where
  if_ : ∀ q v, At t (q ++ [.str "Fn::If"]) v → ∃ c a b, v = .list [.str c, a, b]
  select : ∀ q v, At t (q ++ [.str "Fn::Select"]) v → ∃ i l, v = .list [i, l] ∧ SelectIndex i ∧ SelectSource l
  split : ∀ q v, At t (q ++ [.str "Fn::Split"]) v → ∃ s w, v = .list [.str s, w] ∧ SplitSource w
  import_ : ∀ q v, At t (q ++ [.str "Fn::ImportValue"]) v → (∀ r, q ≠ .str "Conditions" :: r) ∧ ((∃ s, v = .str s) ∨
    OneCall ["Fn::Base64", "Fn::FindInMap", "Fn::If", "Fn::Join", "Fn::Select", "Fn::Split", "Fn::Sub", "Ref"] v)
  base64 : ∀ q v, At t (q ++ [.str "Fn::Base64"]) v → (∃ s, v = .str s) ∨ ∃ k a, v = .dict [(k, a)] ∧ k ≠ .str "Fn::Split"
  zones : ∀ q v, At t (q ++ [.str "Fn::GetAZs"]) v → ZonesOf zones v
  not : ∀ q v, At t (q ++ [.str "Fn::Not"]) v → ∃ xs, v = .list xs
  cidr : ∀ p, ¬ BadCall "Fn::Cidr" BadCidr t p
  counts : ∀ n p, CountRef t n → ¬ BadNumber t n 256 p
  masks : ∀ n p, MaskRef t n → ¬ BadNumber t n 128 p
  join : ∀ q v, At t (q ++ [.str "Fn::Join"]) v → ∃ s o, v = .list [.str s, o] ∧ JoinList A t o
  needed : ∀ p, ¬ NeedsSub custom t t p
  unneeded : ∀ q v s, At t (q ++ [.str "Fn::Sub"]) v → (v = .str s ∨ ∃ w, v = .list [.str s, w]) → ∃ x, TextVar s x
  used : ∀ q s m k w, At t (q ++ [.str "Fn::Sub"]) (.list [.str s, .dict m]) → (k, w) ∈ m → ∃ x, k = .str x ∧ TextVar s x

/-- **C135** The full statement: if the command ends with status 0 and the rules on calls are in force, all calls of the templates are right. -/
def C135_statement : Prop :=
  ∀ (objs : List RuleObj) (args : Sources) (all : List String) (regions : List Val) (S : TypeSpecs) (beh : RuleObj → Behaviour) (name : Val → String)
    (mark : Val → MVal) (print : List Match → PyM Unit) (ds : List Decoded) (zones : List String) (fltOk custom : String → Bool) (A : AttrSpecs),
    CleanRun objs args all regions S beh name mark print ds → CallRules beh zones fltOk custom A → ∀ d ∈ ds,
    (∀ i ∈ callIds, InForce objs args d.template { id := i }) → CallsRight zones custom A d.template

/-- the functions of these rules -/
def exCallWhole (i : String) : Option (Val → PyM (List (Path × String))) :=
  if i = "E1028" then some fun t => withText id (fun _ => "if") (ifRule t (.dict []))
  else if i = "E1017" then some fun t => withText id (fun _ => "select") (selectRule t (.dict []))
  else if i = "E1018" then some fun t => withText id (fun _ => "split") (splitRule t (.dict []))
  else if i = "E1016" then some fun t => withText id (fun _ => "import") (importRule t (.dict []))
  else if i = "E1021" then some fun t => withText id (fun _ => "base64") (base64Rule t (.dict []))
  else if i = "E1015" then some fun t => withText id (fun _ => "zones") (getAzRule ["eu-west-1"] t (.dict []))
  else if i = "E1023" then some fun t => withText id (fun _ => "not") (notRule t (.dict []))
  else if i = "E1024" then some fun t => withText id (fun _ => "cidr") (cidrRule (fun _ => false) t (.dict []))
  else if i = "E1022" then some fun t => withText id (fun _ => "join") (joinRule [] t (.dict []))
  else if i = "E1029" then some fun t => withText id (fun _ => "needed") (subNeeded (fun _ => false) t)
  else if i = "W1020" then some fun t => withText id (fun _ => "unneeded") (subUnneeded t)
  else if i = "W1019" then some fun t => withText Prod.fst (fun _ => "unused") (.ok (subUnused t (.dict [])))
  else none

/-- rules with these functions -/
def exCallRules (r : RuleObj) : Behaviour := { whole := exCallWhole r.info.id }

theorem exCallRules_rules : CallRules exCallRules ["eu-west-1"] (fun _ => false) (fun _ => false) [] := by
  constructor <;> intro r hr <;> exact ⟨_, by simp [exCallRules, exCallWhole, hr]; rfl⟩

theorem exCall_run {t : Val} (hw : t.WF) (ht : t.truthy = true ∧ ∃ top, t = .dict top) (ha : setTemplateArgs t = .ok [])
    (hd : getDirectives (markAll default t) = .ok [])
    (hr : runCommand .script (withIds callIds) (c50Args [] false []) (checkWith [] [] ⟨[], []⟩ exCallRules (fun _ => "t") (markAll default))
      (fun _ => .ok ()) [⟨t, []⟩] = 0) :
    CleanRun (withIds callIds) (c50Args [] false []) [] [] ⟨[], []⟩ exCallRules (fun _ => "t") (markAll default) (fun _ => .ok ()) [⟨t, []⟩] :=
  rules_clean (severity_ids (by decide)) (fun _ _ => rfl) hw ht ha hd hr

theorem exCall_inForce {t : Val} (ha : setTemplateArgs t = .ok []) {i : String} (hi : i ∈ callIds) :
    InForce (withIds callIds) (c50Args [] false []) t { id := i } := by
  refine rules_inForce hi ha ?_
  revert i
  decide

/-- a template with one call in an output -/
def exCall (fn : String) (v : Val) : Val :=
  .dict [(.str "Parameters", .dict [(.str "N", .dict [(.str "Type", .str "Number"), (.str "MinValue", .int 1), (.str "MaxValue", .int 8)])]),
    (.str "Outputs", .dict [(.str "O", .dict [(.str "Value", .dict [(.str fn, v)])])])]

theorem exCall_at (fn : String) (v : Val) : At (exCall fn v) ([.str "Outputs", .str "O", .str "Value"] ++ [.str fn]) v :=
  .key (List.mem_cons_of_mem _ List.mem_cons_self) (.key List.mem_cons_self (.key List.mem_cons_self (.key List.mem_cons_self .here)))

theorem exCall_wf {fn : String} {v : Val} (h : v.WF) : (exCall fn v).WF := by
  simp [exCall, Val.WF, Val.WFDict, h]

theorem exCall_args (fn : String) (v : Val) : setTemplateArgs (exCall fn v) = .ok [] := rfl

theorem exCall_clean {fn : String} {v : Val} (hw : v.WF) (hd : getDirectives (markAll default (exCall fn v)) = .ok [])
    (hr : runCommand .script (withIds callIds) (c50Args [] false []) (checkWith [] [] ⟨[], []⟩ exCallRules (fun _ => "t") (markAll default))
      (fun _ => .ok ()) [⟨exCall fn v, []⟩] = 0) :
    CleanRun (withIds callIds) (c50Args [] false []) [] [] ⟨[], []⟩ exCallRules (fun _ => "t") (markAll default) (fun _ => .ok ()) [⟨exCall fn v, []⟩] :=
  exCall_run (exCall_wf hw) ⟨rfl, _, rfl⟩ (exCall_args fn v) hd hr

theorem exCall_parameters {fn : String} {v w : Val} (h : At (exCall fn v) [.str "Parameters"] w) : ∃ kvs, w = .dict kvs := by
  have := at_dict_one.1 h
  simp at this
  exact ⟨_, this⟩

theorem exCall_parameter {fn : String} {v w : Val} {k : Key} (h : At (exCall fn v) [.str "Parameters", k] w) : ∃ kvs, w = .dict kvs := by
  obtain ⟨u, h1, h2⟩ := at_cons.1 h
  have := at_dict_one.1 h1
  simp at this
  subst this
  have := at_dict_one.1 h2
  simp at this
  exact ⟨_, this.2⟩

/-- C135 fails as it stands: the zones of a list of regions pass. -/
theorem C135_zones_violated : ¬ C135_statement := by
  intro h
  have hrun := exCall_clean (fn := "Fn::GetAZs") (v := .list [.str "x"]) (by simp [Val.WF, Val.WFList]) (by decide +kernel) (by decide +kernel)
  cases (h _ _ _ _ _ _ _ _ _ _ _ _ _ _ hrun exCallRules_rules _ List.mem_cons_self (fun i hi => exCall_inForce (exCall_args _ _) hi)).zones _ _ (exCall_at _ _)

/-- C135 fails as it stands: a Boolean is taken for an index. -/
theorem C135_select_violated : ¬ C135_statement := by
  intro h
  have hrun := exCall_clean (fn := "Fn::Select") (v := .list [.bool true, .list []]) (by simp [Val.WF, Val.WFList]) (by decide +kernel) (by decide +kernel)
  obtain ⟨i, l, e, hi, -⟩ := (h _ _ _ _ _ _ _ _ _ _ _ _ _ _ hrun exCallRules_rules _ List.mem_cons_self
    (fun i hi => exCall_inForce (exCall_args _ _) hi)).select _ _ (exCall_at _ _)
  cases e
  cases hi with
  | call h =>
    obtain ⟨f, -, a, h⟩ := h
    cases h

/-! ### the hypotheses are met -/

/-- `C135_if` -/
example : ∃ c a b, Val.list [.str "C", .int 1, .int 2] = .list [.str c, a, b] :=
  C135_if (exCall_clean (fn := "Fn::If") (by simp [Val.WF, Val.WFList]) (by decide +kernel) (by decide +kernel)) exCallRules_rules List.mem_cons_self
    (exCall_inForce (exCall_args _ _) (by decide)) (exCall_at _ _)

/-- `C135_select_partial` -/
example : ∃ i l, Val.list [.str " 1", .list []] = .list [i, l] ∧ SelectSource l ∧
    ((∃ b, i = .bool b) ∨ (∃ r, i = .flt r) ∨ (∃ kvs, i = .dict kvs ∧ kvs.length ≠ 1) ∨ SelectIndex i) :=
  C135_select_partial (exCall_clean (fn := "Fn::Select") (by simp [Val.WF, Val.WFList]) (by decide +kernel) (by decide +kernel)) exCallRules_rules
    List.mem_cons_self (exCall_inForce (exCall_args _ _) (by decide)) (exCall_at _ _)

/-- `C135_split` -/
example : ∃ s w, Val.list [.str ",", .dict [(.str "Ref", .str "N")]] = .list [.str s, w] ∧ SplitSource w :=
  C135_split (exCall_clean (fn := "Fn::Split") (by simp [Val.WF, Val.WFList, Val.WFDict]) (by decide +kernel) (by decide +kernel)) exCallRules_rules
    List.mem_cons_self (exCall_inForce (exCall_args _ _) (by decide)) (exCall_at _ _)

/-- `C135_import` -/
example : (∀ r, [Key.str "Outputs", .str "O", .str "Value"] ≠ .str "Conditions" :: r) ∧ ((∃ s, Val.str "x" = .str s) ∨
    OneCall ["Fn::Base64", "Fn::FindInMap", "Fn::If", "Fn::Join", "Fn::Select", "Fn::Split", "Fn::Sub", "Ref"] (.str "x")) :=
  C135_import (exCall_clean (fn := "Fn::ImportValue") (by simp [Val.WF]) (by decide +kernel) (by decide +kernel)) exCallRules_rules
    List.mem_cons_self (exCall_inForce (exCall_args _ _) (by decide)) (exCall_at _ _)

/-- `C135_base64` -/
example : (∃ s, Val.dict [(.str "Ref", .str "N")] = .str s) ∨ ∃ k a, Val.dict [(.str "Ref", .str "N")] = .dict [(k, a)] ∧ k ≠ .str "Fn::Split" :=
  C135_base64 (exCall_clean (fn := "Fn::Base64") (by simp [Val.WF, Val.WFDict]) (by decide +kernel) (by decide +kernel)) exCallRules_rules
    List.mem_cons_self (exCall_inForce (exCall_args _ _) (by decide)) (exCall_at _ _)

/-- `C135_zones_partial` -/
example : ZonesOf ["eu-west-1"] (.str "eu-west-1") :=
  C135_zones_partial (exCall_clean (fn := "Fn::GetAZs") (by simp [Val.WF]) (by decide +kernel) (by decide +kernel)) exCallRules_rules
    List.mem_cons_self (exCall_inForce (exCall_args _ _) (by decide)) (exCall_at _ _) (.inl ⟨_, rfl⟩)

/-- `C135_not` -/
example : ∃ xs, Val.list [.int 1] = .list xs :=
  C135_not (exCall_clean (fn := "Fn::Not") (by simp [Val.WF, Val.WFList]) (by decide +kernel) (by decide +kernel)) exCallRules_rules
    List.mem_cons_self (exCall_inForce (exCall_args _ _) (by decide)) (exCall_at _ _)

/-- a call of `Fn::Cidr` whose count is a parameter -/
def exBlock : Val := .list [.str "10.0.0.0/8", .dict [(.str "Ref", .str "N")], .int 8]

theorem exBlock_clean : CleanRun (withIds callIds) (c50Args [] false []) [] [] ⟨[], []⟩ exCallRules (fun _ => "t") (markAll default) (fun _ => .ok ())
    [⟨exCall "Fn::Cidr" exBlock, []⟩] :=
  exCall_clean (by simp [exBlock, Val.WF, Val.WFList, Val.WFDict]) (by decide +kernel) (by decide +kernel)

/-- `C135_cidr_partial` -/
example : ∃ b c m, exBlock = .list [b, c, m] ∧ (OneKey b → (∀ s : String, b = .str s → ¬ ∃ l, s.toList = l ++ ['\n']) → CidrBlock b) ∧
    ∀ x ∈ [c, m], OneKey x → (∀ y, x ≠ .bool y) → CidrNumber x :=
  C135_cidr_partial exBlock_clean exCallRules_rules List.mem_cons_self (exCall_inForce (exCall_args _ _) (by decide)) (fun _ => exCall_parameters)
    (fun _ _ => exCall_parameter) (exCall_at _ _)

/-- `C135_counts_partial` -/
example : ∀ b ∈ ["MinValue", "MaxValue"], ∃ i : Int, (Key.str b, Val.int i) ∈ [(Key.str "Type", Val.str "Number"), (.str "MinValue", .int 1), (.str "MaxValue", .int 8)] ∧
    1 ≤ i ∧ i ≤ 256 :=
  (C135_counts_partial exBlock_clean exCallRules_rules List.mem_cons_self (exCall_inForce (exCall_args _ _) (by decide)) (fun _ => exCall_parameters)
    (fun _ _ => exCall_parameter) (n := "N") (.inl ⟨_, _, _, exCall_at _ _, by simp⟩) (.key List.mem_cons_self (.key List.mem_cons_self .here)) (by simp)
    (by
      intro b v hb hv
      simp at hb hv
      rcases hb with rfl | rfl <;> simp at hv <;> exact ⟨_, hv⟩)).2

/-- `C135_unneeded` -/
example : ∃ x, TextVar "a ${N}" x :=
  C135_unneeded (exCall_clean (fn := "Fn::Sub") (v := .str "a ${N}") (by simp [Val.WF]) (by decide +kernel) (by decide +kernel)) exCallRules_rules
    List.mem_cons_self (exCall_inForce (exCall_args _ _) (by decide)) (exCall_at _ _) (.inl rfl)

/-- `C135_used` -/
example : ∃ x, Key.str "V" = .str x ∧ TextVar "a ${V}" x :=
  C135_used (exCall_clean (fn := "Fn::Sub") (v := .list [.str "a ${V}", .dict [(.str "V", .int 1)]]) (by simp [Val.WF, Val.WFList, Val.WFDict])
    (by decide +kernel) (by decide +kernel)) exCallRules_rules
    List.mem_cons_self (exCall_inForce (exCall_args _ _) (by decide)) (exCall_at _ _) List.mem_cons_self

/-- a call of `Fn::Join` -/
def exJoined : Val := .list [.str ",", .list [.str "a", .dict [(.str "Ref", .str "N")]]]

theorem exJoined_wf : exJoined.WF := by simp [exJoined, Val.WF, Val.WFList, Val.WFDict]

theorem exJoined_part {x : Val} (h : JoinPart (exCall "Fn::Join" exJoined) x) :
    x = .list [.str "a", .dict [(.str "Ref", .str "N")]] ∨ x = .str "a" ∨ x = .dict [(.str "Ref", .str "N")] := by
  obtain ⟨q, a, o, hat, ho⟩ := h
  have hm := ((C27_search_partial "Fn::Join" _ (exCall_wf exJoined_wf)).1 _ _).2 ⟨hat, q, rfl⟩
  rw [show searchDeepKeys "Fn::Join" (exCall "Fn::Join" exJoined) (.dict []) =
    [([.str "Outputs", .str "O", .str "Value", .str "Fn::Join"], exJoined)] by decide +kernel] at hm
  simp only [List.mem_cons, List.not_mem_nil, or_false, Prod.mk.injEq, exJoined, Val.list.injEq, List.cons.injEq, and_true] at hm
  obtain ⟨-, rfl, rfl⟩ := hm
  rcases ho with rfl | ⟨xs, e, hx⟩
  · exact .inl rfl
  · cases e
    simp only [List.mem_cons, List.not_mem_nil, or_false] at hx
    exact .inr hx

/-- `C135_join_partial` -/
example : ∃ s o, exJoined = .list [.str s, o] ∧ JoinList [] (exCall "Fn::Join" exJoined) o := by
  have hno : ∀ v, ¬ At (exCall "Fn::Join" exJoined) [.str "Resources"] v := by
    intro v h
    have := at_dict_one.1 h
    simp at this
  have hnr : ∀ R ty, ¬ HasResource (exCall "Fn::Join" exJoined) R ty := by
    rintro R ty ⟨top, rs, fs, e, h1, -⟩
    cases e
    exact hno _ (at_dict_one.2 h1)
  refine C135_join_partial (exCall_clean exJoined_wf (by decide +kernel) (by decide +kernel)) exCallRules_rules List.mem_cons_self
    (exCall_inForce (exCall_args _ _) (by decide)) ?_ ⟨exCall_wf exJoined_wf, ⟨_, rfl⟩, fun v h => absurd h (hno v), ?_, fun _ _ => exCall_parameter⟩
    ⟨fun R ty h => absurd h (hnr R ty), fun R ty h => absurd h (hnr R ty)⟩ ⟨?_, ?_⟩ (exCall_at _ _)
  · intro ty attrs a h
    cases h
  · intro k v h
    obtain ⟨u, h1, -⟩ := at_cons.1 h
    exact absurd h1 (hno u)
  · intro x h
    rcases exJoined_part h with e | e | e <;> cases e
    exact ⟨_, rfl⟩
  · intro x h
    rcases exJoined_part h with e | e | e <;> simp at e

/-- `C135_needed_partial` -/
example (p : Path) : ¬ NeedsSub (fun _ => false) (exCall "Fn::Sub" (.str "a ${N}")) (exCall "Fn::Sub" (.str "a ${N}")) p := by
  have hw : (exCall "Fn::Sub" (.str "a ${N}")).WF := exCall_wf (by simp [Val.WF])
  refine C135_needed_partial (exCall_clean (by simp [Val.WF]) (by decide +kernel) (by decide +kernel)) exCallRules_rules List.mem_cons_self
    (exCall_inForce (exCall_args _ _) (by decide)) ?_ ?_ p
  · intro a b s x hat
    obtain ⟨u, h1, -⟩ := at_split (p := a ++ [.str "DefinitionString"]) (q := b) (by simpa using hat)
    have hm := ((C27_search_partial "DefinitionString" _ hw).1 _ _).2 ⟨h1, a, rfl⟩
    rw [show searchDeepKeys "DefinitionString" (exCall "Fn::Sub" (.str "a ${N}")) (.dict []) = [] by decide +kernel] at hm
    cases hm
  · intro g h
    have := at_dict_one.1 h
    simp at this

end CfnLint
