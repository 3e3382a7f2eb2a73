import Verif.Props.RunUnion
/-
Properties C154 and C156 for rules that depend on their options, when no rule is configured.
-/
namespace CfnLint

open Spec

variable {objs : List RuleObj} {args : Sources} {all : List String} {regions : List Val} {S : TypeSpecs} {beh beh' : RuleObj → Behaviour}
  {name : Val → String} {mark : Val → MVal} {print : List Match → PyM Unit} {ds : List Decoded}

/-! ### the rules are never touched -/

theorem register'_untouched {c c' : Coll} {i : Nat} (hn : c.cfg.configureRules = []) (h : c.register' i = .ok c') : c'.objs = c.objs := by
  unfold Coll.register' at h
  rw [hn] at h
  split at h
  · cases h
  · split at h
    · cases h
    · cases h; rfl
    · simp only [dlookup] at h
      cases h; rfl

theorem registerAll_untouched : ∀ {is : List Nat} {c c' : Coll}, c.cfg.configureRules = [] → c.registerAll is = .ok c' → c'.objs = c.objs
  | [], c, c', _, h => by cases h; rfl
  | i :: is, c, c', hn, h => by
    rw [Coll.registerAll] at h
    cases h1 : c.register' i with
    | error e => rw [h1] at h; cases h
    | ok c1 =>
      rw [h1] at h
      rw [registerAll_untouched (by rw [(register'_ok h1).2.1]; exact hn) h, register'_untouched hn h1]

theorem extend_untouched : ∀ {is : List Nat} {c c' : Coll}, c.cfg.configureRules = [] → c.extend is = .ok c' → c'.objs = c.objs
  | [], c, c', _, h => by cases h; rfl
  | i :: is, c, c', hn, h => by
    rw [Coll.extend, Coll.register] at h
    cases h1 : Coll.register' { c with all := c.all ++ [i] } i with
    | error e => rw [h1] at h; cases h
    | ok c1 =>
      rw [h1] at h
      rw [extend_untouched (by rw [(register'_ok h1).2.1]; exact hn) h]
      exact register'_untouched (c := { c with all := c.all ++ [i] }) hn h1

theorem getRules_untouched {cfg : Cfg} {c : Coll} (hn : cfg.configureRules = []) (h : getRules objs cfg = .ok c) : c.objs = objs := by
  unfold getRules Coll.init at h
  cases h1 : Coll.configure { objs := objs } cfg with
  | error e => rw [h1] at h; cases h
  | ok c1 =>
    rw [h1] at h
    have e1 := registerAll_untouched (c := { objs := objs, cfg := { cfg with incl := addDefaults cfg.incl } }) hn h1
    rw [extend_untouched (by rw [(registerAll_ok h1).2.1]; exact hn) h, e1]

/-- no rule is configured for the template -/
def Spec.Unconfigured (args : Sources) (t : Val) : Prop := ∀ cfg, ConfiguredBy args t cfg → cfg.configureRules = []

theorem template_untouched {st : LintState} {d : Decoded} {st' : LintState} {t : Val} {c : Coll} {es : List Match} (hn : Unconfigured args d.template)
    (hst : ∀ c0, st.cached = some c0 → c0.objs = objs) (h : getTemplateRules objs args st d = .ok (st', t, some c, es)) : c.objs = objs := by
  obtain ⟨targs, cfg, h1, h2, -, -, -, -, hg⟩ := getTemplateRules_some h
  have hn' : cfg.configureRules = [] := hn { cfg with incl := addDefaults cfg.incl } ⟨targs, cfg, h1, h2, rfl⟩
  rcases hg with hg | ⟨c0, h0, hg⟩
  · exact getRules_untouched hn' hg
  · rw [registerAll_untouched (c := { c0 with rules := [], cfg := { cfg with incl := addDefaults cfg.incl } }) hn' hg]
    exact hst c0 h0

/-! ### behaviours that agree on the rules -/

theorem collectionRun_agree {c : Coll} (hb : ∀ r ∈ c.active, beh r = beh' r) (filename : String) (t : MVal) :
    collectionRun S beh c filename t = collectionRun S beh' c filename t := by
  have hi : ∀ l : List RuleObj, (∀ r ∈ l, beh r = beh' r) → initializeAll beh t.erase l = initializeAll beh' t.erase l := fun l => by
    induction l with
    | nil => exact fun _ => rfl
    | cons r l ih =>
      intro h
      rw [initializeAll, initializeAll, h r List.mem_cons_self, ih fun x hx => h x (List.mem_cons_of_mem _ hx)]
  have hm : ∀ {α : Type} (F : RuleObj → Behaviour → α), c.active.map (fun r => F r (beh r)) = c.active.map (fun r => F r (beh' r)) :=
    fun F => List.map_congr_left fun r hr => by rw [hb r hr]
  have hres : ∀ k v, resourceChecks S beh c.active filename t k v = resourceChecks S beh' c.active filename t k v := fun k v => by
    unfold resourceChecks
    split
    · split
      · rename_i kvs _ _ rt props _ _
        rw [hm (fun r b => (r.info.id, matchProperties filename t (.dict props) rt [.str "Resources", k, .str "Properties"] r.info b))]
        congr 1
        refine congrArg₂ _ (funext fun v => ?_) rfl
        exact hm (fun r b => (r.info.id, matchSubProperties filename t v r.info b))
      · rfl
    · rfl
  unfold collectionRun
  rw [hi _ hb, hm (fun r b => (r.info.id, matchAll filename t r.info b))]
  simp only [hres]

theorem lintAll_untouched (hb : ∀ r ∈ objs, beh r = beh' r) : ∀ (ds : List Decoded) (st : LintState), (∀ d ∈ ds, Unconfigured args d.template) →
    (∀ c0, st.cached = some c0 → c0.objs = objs) →
    (∀ d ∈ ds, d.errors = []) → (∀ d ∈ ds, ∀ st st' t c es, getTemplateRules objs args st d = .ok (st', t, c, es) → ∃ c', c = some c' ∧ st'.cached = some c' ∧ t = d.template) →
    lintAll objs args (checkWith all regions S beh name mark) st ds = lintAll objs args (checkWith all regions S beh' name mark) st ds
  | [], _, _, _, _, _ => rfl
  | d :: ds, st, hn, hst, he, hs => by
    rw [lintAll, lintAll]
    cases hg : getTemplateRules objs args st d with
    | error e => rfl
    | ok x =>
      obtain ⟨st', t, c, es⟩ := x
      obtain ⟨c', rfl, hc', rfl⟩ := hs d List.mem_cons_self _ _ _ _ _ hg
      have hobj := template_untouched (hn d List.mem_cons_self) hst hg
      have hck : checkWith all regions S beh name mark d.template (some c') = checkWith all regions S beh' name mark d.template (some c') := by
        simp only [checkWith, lintTemplate]
        rw [collectionRun_agree]
        intro r hr
        obtain ⟨i, -, hi⟩ := List.mem_filterMap.1 hr
        rw [hobj] at hi
        exact hb r (List.mem_of_getElem? hi)
      have ih := lintAll_untouched hb ds st' (fun x hx => hn x (List.mem_cons_of_mem _ hx)) (fun c0 h0 => by rw [hc'] at h0; cases h0; exact hobj)
        (fun x hx => he x (List.mem_cons_of_mem _ hx)) (fun x hx => hs x (List.mem_cons_of_mem _ hx))
      simp only [hck, ih]

theorem rules_some (h : ∀ d ∈ ds, d.errors = []) : ∀ d ∈ ds, ∀ st st' t c es, getTemplateRules objs args st d = .ok (st', t, c, es) →
    ∃ c', c = some c' ∧ st'.cached = some c' ∧ t = d.template := by
  intro d hd st st' t c es hg
  cases c with
  | some c' =>
    obtain ⟨targs, cfg, -, -, rfl, rfl, -⟩ := getTemplateRules_some hg
    exact ⟨c', rfl, rfl, rfl⟩
  | none =>
    exfalso
    unfold getTemplateRules at hg
    rw [h d hd] at hg
    revert hg
    repeat' split
    all_goals try simp_all
    all_goals (repeat' split) <;> simp

/-- the behaviour of the rule of the collection with the same description -/
def behaviourOf (objs : List RuleObj) (beh : RuleObj → Behaviour) (r : RuleObj) : Behaviour :=
  beh ((objs.find? (fun o => decide (o.info = r.info))).getD { info := r.info })

theorem behaviourOf_same (r r' : RuleObj) (h : r.info = r'.info) : behaviourOf objs beh r = behaviourOf objs beh r' := by
  unfold behaviourOf
  rw [h]

theorem behaviourOf_agree (hd : (objs.map RuleObj.info).Nodup) : ∀ r ∈ objs, beh r = behaviourOf objs beh r := by
  intro r hr
  unfold behaviourOf
  cases hf : objs.find? (fun o => decide (o.info = r.info)) with
  | none => exact absurd (List.find?_eq_none.1 hf r hr) (by simp)
  | some o =>
    have ho := List.mem_of_find?_eq_some hf
    have hi : o.info = r.info := by simpa using List.find?_some hf
    rw [Option.getD_some, List.inj_on_of_nodup_map hd ho hr hi]

theorem behaviourOf_ready (h : ReadyRun objs args all regions beh mark print ds) : ReadyRun objs args all regions (behaviourOf objs beh) mark print ds :=
  { h with settable := fun d hd _ => h.settable d hd _ }

/-- **C156** With rules that depend on their options: when no template and no configuration configures any rule, and no two rules have the same description, a
run reports for every template what the run on that template alone reports. -/
theorem C156_unconfigured (h : ReadyRun objs args all regions beh mark print ds) (hd : (objs.map RuleObj.info).Nodup)
    (hn : ∀ d ∈ ds, Unconfigured args d.template) :
    ∃ outs, lintAll objs args (checkWith all regions S beh name mark) {} ds = .ok outs ∧
      List.Forall₂ (fun d out => lintAll objs args (checkWith all regions S beh name mark) {} [d] = .ok [out]) ds outs := by
  have he : ∀ d ∈ ds, d.errors = [] := fun d hd => (h.decoded d hd).1
  have agree : ∀ l : List Decoded, (∀ d ∈ l, d ∈ ds) → lintAll objs args (checkWith all regions S beh name mark) {} l =
      lintAll objs args (checkWith all regions S (behaviourOf objs beh) name mark) {} l := fun l hl =>
    lintAll_untouched (behaviourOf_agree hd) l {} (fun d hm => hn d (hl d hm)) (fun c0 h0 => by cases h0) (fun d hm => he d (hl d hm))
      (rules_some fun d hm => he d (hl d hm))
  obtain ⟨outs, h1, h2⟩ := C156_alone (S := S) (name := name) (behaviourOf_ready h) behaviourOf_same
  refine ⟨outs, by rw [agree ds fun d hd => hd]; exact h1, ?_⟩
  rw [List.forall₂_iff_get] at h2 ⊢
  refine ⟨h2.1, fun i hi hi' => ?_⟩
  rw [agree _ fun d hm => by cases List.mem_singleton.1 hm; exact List.get_mem _ _]
  exact h2.2 i hi hi'

/-- **C154** With rules that depend on their options: the status is the union of the statuses when no rule is configured. -/
theorem C154_unconfigured {ds1 ds2 : List Decoded} (h : ReadyRun objs args all regions beh mark print (ds1 ++ ds2)) (hd : (objs.map RuleObj.info).Nodup)
    (hn : ∀ d ∈ ds1 ++ ds2, Unconfigured args d.template) (hp : ∀ ms, print ms = .ok ()) (hids : ∀ r ∈ objs, r.info.id ≠ "")
    (ht : ∀ d ∈ ds1 ++ ds2, d.template.truthy = true) (hdir : ∀ d ∈ ds1 ++ ds2, Directed mark d.template)
    (hmand : ∀ d ∈ ds1 ++ ds2, ∀ cfg, ConfiguredBy args d.template cfg → ∃ mand : List String, cfg.mandatory = mand.map .str) (launch : Launch) :
    runCommand launch objs args (checkWith all regions S beh name mark) print (ds1 ++ ds2) =
      runCommand launch objs args (checkWith all regions S beh name mark) print ds1 |||
      runCommand launch objs args (checkWith all regions S beh name mark) print ds2 := by
  have he : ∀ d ∈ ds1 ++ ds2, d.errors = [] := fun d hd => (h.decoded d hd).1
  have agree : ∀ l : List Decoded, (∀ d ∈ l, d ∈ ds1 ++ ds2) → runCommand launch objs args (checkWith all regions S beh name mark) print l =
      runCommand launch objs args (checkWith all regions S (behaviourOf objs beh) name mark) print l := fun l hl => by
    unfold runCommand
    rw [lintAll_untouched (behaviourOf_agree hd) l {} (fun d hm => hn d (hl d hm)) (fun c0 h0 => by cases h0) (fun d hm => he d (hl d hm))
      (rules_some fun d hm => he d (hl d hm))]
  rw [agree _ fun d hd => hd, agree _ fun d hd => List.mem_append_left _ hd, agree _ fun d hd => List.mem_append_right _ hd]
  exact C154_union ⟨behaviourOf_ready h, hp, hids, ht, hdir, hmand, behaviourOf_same⟩ launch

/-- some rule in force whose id begins with one of the letters has, in a call all of whose results have a place, a result that is not ignored -/
def Spec.KeptAmong (objs : List RuleObj) (args : Sources) (S : TypeSpecs) (beh : RuleObj → Behaviour) (name : Val → String) (mark : Val → MVal)
    (upper lower : Char) (t : Val) : Prop :=
  ∃ r ∈ objs, InForce objs args t r.info ∧ Lettered upper lower r.info.id ∧ ∃ rs, Call S (beh r) (mark t).erase (.ok rs) ∧ ¬ Lost (mark t) rs ∧
    ∃ p msg, (p, msg) ∈ rs ∧ ∃ x, ShowsAt (name t) r.info (mark t) p msg x ∧ ¬ Ignored args mark t x

/-- some rule in force breaks -/
def Spec.BrokenAmong (objs : List RuleObj) (args : Sources) (S : TypeSpecs) (beh : RuleObj → Behaviour) (mark : Val → MVal) (t : Val) : Prop :=
  ∃ r ∈ objs, InForce objs args t r.info ∧ Broken S (beh r) (mark t)

theorem keptAmong_iff (hd : (objs.map RuleObj.info).Nodup) {u l : Char} {t : Val} :
    KeptBy objs args S (behaviourOf objs beh) name mark u l t ↔ KeptAmong objs args S beh name mark u l t := by
  constructor
  · rintro ⟨r, hr, hrest⟩
    obtain ⟨r0, hr0, e⟩ := List.mem_map.1 hr.1
    refine ⟨r0, hr0, ?_⟩
    rw [behaviourOf_agree (beh := beh) hd r0 hr0, behaviourOf_same r0 r e, e]
    exact ⟨hr, hrest⟩
  · rintro ⟨r, hr, hrest⟩
    rw [behaviourOf_agree (beh := beh) hd r hr] at hrest
    exact ⟨r, hrest⟩

theorem brokenAmong_iff (hd : (objs.map RuleObj.info).Nodup) {t : Val} :
    BrokenBy objs args S (behaviourOf objs beh) mark t ↔ BrokenAmong objs args S beh mark t := by
  constructor
  · rintro ⟨r, hr, hrest⟩
    obtain ⟨r0, hr0, e⟩ := List.mem_map.1 hr.1
    refine ⟨r0, hr0, ?_⟩
    rw [behaviourOf_agree (beh := beh) hd r0 hr0, behaviourOf_same r0 r e, e]
    exact ⟨hr, hrest⟩
  · rintro ⟨r, hr, hrest⟩
    rw [behaviourOf_agree (beh := beh) hd r hr] at hrest
    exact ⟨r, hrest⟩

/-- **C153** With rules that depend on their options: every bit of the status when no rule is configured. -/
theorem C153_unconfigured (h : ReadyRun objs args all regions beh mark print ds) (hd : (objs.map RuleObj.info).Nodup)
    (hn : ∀ d ∈ ds, Unconfigured args d.template) (hp : ∀ ms, print ms = .ok ()) (hids : ∀ r ∈ objs, r.info.id ≠ "")
    (ht : ∀ d ∈ ds, d.template.truthy = true) (hdir : ∀ d ∈ ds, Directed mark d.template)
    (hmand : ∀ d ∈ ds, ∀ cfg, ConfiguredBy args d.template cfg → ∃ mand : List String, cfg.mandatory = mand.map .str) (launch : Launch) :
    let status := runCommand launch objs args (checkWith all regions S beh name mark) print ds
    (status.testBit 3 = true ↔ ∃ d ∈ ds, KeptAmong objs args S beh name mark 'I' 'i' d.template) ∧
    (status.testBit 2 = true ↔ ∃ d ∈ ds, KeptAmong objs args S beh name mark 'W' 'w' d.template) ∧
    (status.testBit 1 = true ↔ ∃ d ∈ ds, KeptAmong objs args S beh name mark 'E' 'e' d.template ∨ BrokenAmong objs args S beh mark d.template) ∧
    ∀ i, i ≠ 1 → i ≠ 2 → i ≠ 3 → status.testBit i = false := by
  have he : ∀ d ∈ ds, d.errors = [] := fun d hd => (h.decoded d hd).1
  have agree : runCommand launch objs args (checkWith all regions S beh name mark) print ds =
      runCommand launch objs args (checkWith all regions S (behaviourOf objs beh) name mark) print ds := by
    unfold runCommand
    rw [lintAll_untouched (behaviourOf_agree hd) ds {} hn (fun c0 h0 => by cases h0) he (rules_some he)]
  simp only [agree, ← keptAmong_iff (beh := beh) hd, ← brokenAmong_iff (beh := beh) hd]
  exact C153_status (behaviourOf_ready h) hp hids ht hdir hmand behaviourOf_same launch

example : ((withIds ["W1001"]).map RuleObj.info).Nodup ∧
    ∀ d ∈ [(⟨asksToIgnore "W1001", []⟩ : Decoded)] ++ [⟨asksToIgnore "W1002", []⟩], Unconfigured (c50Args [] false []) d.template := by
  refine ⟨by decide, fun d hd cfg hc => ?_⟩
  rcases List.mem_append.1 hd with hd | hd <;> cases List.mem_singleton.1 hd <;>
    cases plain_configured (asksToIgnore_args (by simp)).1 hc <;> rfl

end CfnLint
