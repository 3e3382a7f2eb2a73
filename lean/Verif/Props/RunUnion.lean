import Verif.Props.StatusUnion
/-
Property C156: what a run reports for a template is what the run on that template alone reports.
-/
namespace CfnLint

open Spec

variable {objs : List RuleObj} {args : Sources} {all : List String} {regions : List Val} {S : TypeSpecs} {beh : RuleObj → Behaviour}
  {name : Val → String} {mark : Val → MVal} {print : List Match → PyM Unit} {ds : List Decoded}

theorem active_infos_eq (c : Coll) : c.active.map RuleObj.info = c.rules.filterMap (fun i => (c.objs.map RuleObj.info)[i]?) := by
  unfold Coll.active
  rw [List.map_filterMap]
  congr 1
  funext i
  rw [List.getElem?_map]

/-- collections of the same rules with the same configuration have the same active rules -/
theorem active_same {cfg0 cfg1 : Cfg} {c c' : Coll} (h : CollOK objs cfg0 c) (h' : CollOK objs cfg1 c') (hc : c.cfg = c'.cfg) :
    c.active.map RuleObj.info = c'.active.map RuleObj.info := by
  have hi : c.objs.map RuleObj.info = c'.objs.map RuleObj.info := h.infos.trans h'.infos.symm
  have hr : c.rules = c'.rules := by
    rw [h.inv, h'.inv, h.all, h'.all, hc]
    congr 1
    funext i
    exact enabledB_congr _ hi i
  rw [active_infos_eq, active_infos_eq, hr, hi]

theorem initializeAll_same (hb : ∀ r r' : RuleObj, r.info = r'.info → beh r = beh r') {t : Val} : ∀ {a b : List RuleObj}, a.map RuleObj.info = b.map RuleObj.info →
    initializeAll beh t a = initializeAll beh t b
  | [], [], _ => rfl
  | [], _ :: _, h => by cases h
  | _ :: _, [], h => by cases h
  | x :: a, y :: b, h => by
    rw [List.map_cons, List.map_cons, List.cons.injEq] at h
    rw [initializeAll, initializeAll, hb x y h.1, initializeAll_same hb h.2]

theorem map_same (hb : ∀ r r' : RuleObj, r.info = r'.info → beh r = beh r') {α : Type} (F : RuleInfo → Behaviour → α) {a b : List RuleObj}
    (h : a.map RuleObj.info = b.map RuleObj.info) : a.map (fun r => F r.info (beh r)) = b.map (fun r => F r.info (beh r)) := by
  have key : ∀ l : List RuleObj, l.map (fun r => F r.info (beh r)) = (l.map RuleObj.info).map (fun i => F i (beh { info := i })) := fun l => by
    rw [List.map_map]
    exact List.map_congr_left fun r _ => by rw [Function.comp_apply, hb { info := r.info } r rfl]
  rw [key, key, h]

theorem resourceChecks_same (hb : ∀ r r' : RuleObj, r.info = r'.info → beh r = beh r') {a b : List RuleObj} (h : a.map RuleObj.info = b.map RuleObj.info)
    (filename : String) (t : MVal) (k : Key) (v : Val) : resourceChecks S beh a filename t k v = resourceChecks S beh b filename t k v := by
  unfold resourceChecks
  split
  · split
    · rename_i kvs _ _ rt props _ _
      rw [map_same hb (fun i b => (i.id, matchProperties filename t (.dict props) rt [.str "Resources", k, .str "Properties"] i b)) h]
      congr 1
      refine congrArg₂ _ (funext fun v => ?_) rfl
      exact map_same hb (fun i b => (i.id, matchSubProperties filename t v i b)) h
    · rfl
  · rfl

theorem collectionRun_same (hb : ∀ r r' : RuleObj, r.info = r'.info → beh r = beh r') {c c' : Coll} (h : c.active.map RuleObj.info = c'.active.map RuleObj.info)
    (hc : c.cfg = c'.cfg) (filename : String) (t : MVal) : collectionRun S beh c filename t = collectionRun S beh c' filename t := by
  unfold collectionRun
  rw [initializeAll_same hb h, hc, map_same hb (fun i b => (i.id, matchAll filename t i b)) h]
  simp only [resourceChecks_same (S := S) hb h]

theorem check_succeeds (h : ReadyRun objs args all regions beh mark print ds) {d : Decoded} (hd : d ∈ ds) {c : Coll} (hc : ConfiguredBy args d.template c.cfg) :
    ∃ out, checkWith all regions S beh name mark d.template (some c) = .ok out := by
  obtain ⟨-, ⟨b, hb⟩, -⟩ := h.decided d hd _ hc
  have hreg : (if regions.isEmpty then .ok true else regionsSupported all regions : PyM Bool) = .ok true := by
    rcases h.supported with rfl | hr
    · rfl
    · rw [hr]; split <;> rfl
  simp only [checkWith, lintTemplate, runChecks, hreg, transformErrorRule, hb]
  split <;> exact ⟨_, rfl⟩

/-- one template, in whatever state the templates before left the program -/
theorem lint_one (h : ReadyRun objs args all regions beh mark print ds) (hb : ∀ r r' : RuleObj, r.info = r'.info → beh r = beh r') {d : Decoded} (hd : d ∈ ds) :
    ∃ out, ∀ st, Reach objs args st → (∃ b, ignoreBadTemplate (sourcesWith args st) = .ok b) →
      ∃ st', Reach objs args st' ∧ (∃ b, ignoreBadTemplate (sourcesWith args st') = .ok b) ∧ setTemplateArgs d.template = .ok st'.templateArgs ∧ ∀ rest,
        lintAll objs args (checkWith all regions S beh name mark) st (d :: rest) =
          match lintAll objs args (checkWith all regions S beh name mark) st' rest with
          | .error e => .error e
          | .ok outs => .ok (out :: outs) := by
  obtain ⟨b0, hb0⟩ := h.start
  obtain ⟨targs0, c0, b1, hg0, -⟩ := template_rules h (st := {}) .init ⟨b0, hb0⟩ hd
  obtain ⟨t0, cfg0, x1, x2, hok0⟩ := template_coll .init hg0
  have hc0 : ConfiguredBy args d.template c0.cfg := ⟨t0, cfg0, x1, x2, hok0.cfg⟩
  obtain ⟨out0, hout0⟩ := check_succeeds (S := S) (name := name) h hd hc0
  refine ⟨if d.template.truthy then out0 else [], fun st hr hst => ?_⟩
  obtain ⟨targs, c, b, hg, h3⟩ := template_rules h hr hst hd
  obtain ⟨t1, cfg1, y1, y2, hok⟩ := template_coll hr hg
  have hcfg : c.cfg = c0.cfg := configuredBy_unique (t := d.template) ⟨t1, cfg1, y1, y2, hok.cfg⟩ hc0
  have hck : checkWith all regions S beh name mark d.template (some c) = .ok out0 := by
    rw [← hout0]
    simp only [checkWith, lintTemplate]
    rw [collectionRun_same hb (active_same hok hok0 hcfg) hcfg, hcfg]
  obtain ⟨targs1, -, z1, -, z2, -⟩ := getTemplateRules_some hg
  refine ⟨_, .step hr hg, ⟨b, h3⟩, by rw [z1, z2], fun rest => ?_⟩
  rw [lintAll, hg]
  simp only [hck]
  cases d.template.truthy <;> rfl

/-- **C156** A run that is ready to start completes, and reports for every template what the run on that template alone reports, when a rule does the same
whatever its options; the rules and the configuration left by other templates do not matter. -/
theorem C156_alone (h : ReadyRun objs args all regions beh mark print ds) (hb : ∀ r r' : RuleObj, r.info = r'.info → beh r = beh r') :
    ∃ outs, lintAll objs args (checkWith all regions S beh name mark) {} ds = .ok outs ∧
      List.Forall₂ (fun d out => lintAll objs args (checkWith all regions S beh name mark) {} [d] = .ok [out]) ds outs := by
  obtain ⟨b0, hb0⟩ := h.start
  suffices key : ∀ (l : List Decoded) (st : LintState), (∀ d ∈ l, d ∈ ds) → Reach objs args st → (∃ b, ignoreBadTemplate (sourcesWith args st) = .ok b) →
      ∃ outs, lintAll objs args (checkWith all regions S beh name mark) st l = .ok outs ∧
        List.Forall₂ (fun d out => lintAll objs args (checkWith all regions S beh name mark) {} [d] = .ok [out]) l outs from
    key ds {} (fun d hd => hd) .init ⟨b0, hb0⟩
  intro l
  induction l with
  | nil => exact fun st _ _ _ => ⟨[], rfl, .nil⟩
  | cons d l ih =>
    intro st hm hr hst
    obtain ⟨out, hout⟩ := lint_one (S := S) (name := name) h hb (hm d List.mem_cons_self)
    obtain ⟨st', hr', hst', -, e⟩ := hout st hr hst
    obtain ⟨outs, ho, hf⟩ := ih st' (fun x hx => hm x (List.mem_cons_of_mem _ hx)) hr' hst'
    obtain ⟨st0, -, -, -, e0⟩ := hout {} .init ⟨b0, hb0⟩
    exact ⟨out :: outs, by rw [e, ho], .cons (by rw [e0]; rfl) hf⟩

/-- **C156** What is reported for a template is a function of the template: runs on any of the templates, in any order and with any repetitions, report for each
of them the same. -/
theorem C156_function (h : ReadyRun objs args all regions beh mark print ds) (hb : ∀ r r' : RuleObj, r.info = r'.info → beh r = beh r') :
    ∃ report : Decoded → List Match, ∀ l : List Decoded, (∀ d ∈ l, d ∈ ds) →
      lintAll objs args (checkWith all regions S beh name mark) {} l = .ok (l.map report) := by
  refine ⟨fun d => match lintAll objs args (checkWith all regions S beh name mark) {} [d] with | .ok (out :: _) => out | _ => [], fun l hl => ?_⟩
  obtain ⟨outs, h1, h2⟩ := C156_alone (S := S) (name := name) (ready_of_subset h hl) hb
  rw [h1]
  congr 1
  clear h1
  induction h2 with
  | nil => rfl
  | cons hab _ ih => rw [List.map_cons, hab, ← ih fun d hd => hl d (List.mem_cons_of_mem _ hd)]

/-- **C156** The order of the templates does not matter for what is found. -/
theorem C156_order {l l' : List Decoded} (h : ReadyRun objs args all regions beh mark print l) (hb : ∀ r r' : RuleObj, r.info = r'.info → beh r = beh r')
    (hp : l.Perm l') : ∃ outs outs', lintAll objs args (checkWith all regions S beh name mark) {} l = .ok outs ∧
      lintAll objs args (checkWith all regions S beh name mark) {} l' = .ok outs' ∧ outs.flatten.Perm outs'.flatten := by
  obtain ⟨report, hr⟩ := C156_function (S := S) (name := name) h hb
  exact ⟨_, _, hr l fun d hd => hd, hr l' fun d hd => hp.mem_iff.2 hd, (hp.map report).flatten⟩

example : ∃ outs, lintAll (withIds ["W1001"]) (c50Args [] false []) (checkWith [] [] ⟨[], []⟩ onlyWarns (fun _ => "t") (markAll default)) {}
    ([⟨asksToIgnore "W1001", []⟩] ++ [⟨asksToIgnore "W1002", []⟩]) = .ok outs ∧ outs.map List.length = [0, 1] := by
  obtain ⟨outs, h1, h2⟩ := C156_alone (S := ⟨[], []⟩) (name := fun _ => "t") twoIgnoring_steady.ready twoIgnoring_steady.same
  refine ⟨outs, h1, ?_⟩
  rcases h2 with _ | ⟨a, _ | ⟨b, _ | _⟩⟩
  have ea : lintAll (withIds ["W1001"]) (c50Args [] false []) (checkWith [] [] ⟨[], []⟩ onlyWarns (fun _ => "t") (markAll default)) {}
      [⟨asksToIgnore "W1001", []⟩] = .ok [[]] := by decide +kernel
  rw [ea] at a
  cases a
  have hlen : ((lintAll (withIds ["W1001"]) (c50Args [] false []) (checkWith [] [] ⟨[], []⟩ onlyWarns (fun _ => "t") (markAll default)) {}
      [⟨asksToIgnore "W1002", []⟩]).toOption.map (List.map List.length)) = some [1] := by decide +kernel
  rw [b] at hlen
  simpa [Except.toOption] using hlen

end CfnLint
