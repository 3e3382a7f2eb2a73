import Verif.Model.TargetsRule
import Verif.Props.Targets
import Verif.Props.TypesClosed
/-
Property C144: what status 0 says of the targets of the event rules of a template.
-/
namespace CfnLint

open Spec

/-- the place of the properties of a resource -/
def propsPlace (name : Key) : Path := [.str "Resources", name, .str "Properties"]

/-! ### the counts -/

theorem collectM_congr {α β : Type} {f g : α → PyM (List β)} : ∀ {as : List α}, (∀ a ∈ as, f a = g a) → collectM f as = collectM g as
  | [], _ => rfl
  | a :: as, h => by
    rw [collectM, collectM, h a List.mem_cons_self, collectM_congr (fun b hb => h b (List.mem_cons_of_mem _ hb))]

/-- C144: the calls one after the other are those of a rule that keeps its counts. -/
theorem C144_replay {fuel : Nat} : ∀ {rs : List (Key × Val)} {c : TargetCounts} {res : List Path}, (rs.map Prod.fst).Nodup → targetsRun fuel c rs = .ok res →
    collectM (fun r => targetsFrom fuel c rs r.2 (propsPlace r.1)) rs = .ok res
  | [], c, res, _, h => by
    cases h
    rfl
  | (k, props) :: rest, c, res, hd, h => by
    rw [targetsRun] at h
    rw [List.map_cons, List.nodup_cons] at hd
    cases hs : targetsStep fuel c props [.str "Resources", k, .str "Properties"] with
    | error e => rw [hs] at h; cases h
    | ok x =>
      obtain ⟨c', fs⟩ := x
      rw [hs] at h
      simp only at h
      cases hr : targetsRun fuel c' rest with
      | error e => rw [hr] at h; cases h
      | ok gs =>
        rw [hr] at h
        cases h
        have hc : collectM (fun r => targetsFrom fuel c ((k, props) :: rest) r.2 (propsPlace r.1)) rest = .ok gs := by
          rw [collectM_congr (g := fun r => targetsFrom fuel c' rest r.2 (propsPlace r.1)), C144_replay hd.2 hr]
          intro r hm
          have hne : k ≠ r.1 := fun e => hd.1 (List.mem_map.2 ⟨r, hm, e.symm⟩)
          simp only [targetsFrom, propsPlace, countsBefore, if_neg hne, hs]
        have hh : targetsFrom fuel c ((k, props) :: rest) props (propsPlace k) = .ok fs := by
          simp only [targetsFrom, propsPlace, countsBefore, if_pos, hs]
        rw [collectM, hh]
        simp only [hc]

/-- what a rule keeps of a call: the new counts, or those it had when the call fails -/
def Spec.keptCounts (step : TargetCounts → Val → Path → PyM (TargetCounts × List Path)) (c : TargetCounts) (r : Key × Val) : TargetCounts :=
  ((step c r.2 (propsPlace r.1)).toOption.map Prod.fst).getD c

theorem countsBefore_fold {fuel : Nat} {k : Key} {props : Val} {after : List (Key × Val)} : ∀ {before : List (Key × Val)} {c : TargetCounts},
    k ∉ before.map Prod.fst → countsBefore fuel c (before ++ (k, props) :: after) k = before.foldl (keptCounts (targetsStep fuel)) c
  | [], c, _ => by simp [countsBefore]
  | (k', p') :: before, c, h => by
    rw [List.map_cons, List.mem_cons, not_or] at h
    rw [List.cons_append, countsBefore, if_neg (Ne.symm h.1), List.foldl_cons]
    cases hs : targetsStep fuel c p' [.str "Resources", k', .str "Properties"] with
    | error e =>
      rw [countsBefore_fold h.2]
      simp [keptCounts, propsPlace, hs, Except.toOption]
    | ok x =>
      simp only
      rw [countsBefore_fold h.2]
      simp [keptCounts, propsPlace, hs, Except.toOption]

/-- C144: whether or not calls before it failed, the call on a resource has the outcome, be it findings or an error, that it has for the counts kept from the
calls on the resources before. -/
theorem C144_call {fuel : Nat} {c : TargetCounts} {before after : List (Key × Val)} {k : Key} {props : Val} (h : k ∉ before.map Prod.fst) :
    targetsFrom fuel c (before ++ (k, props) :: after) props (propsPlace k) =
      (targetsStep fuel (before.foldl (keptCounts (targetsStep fuel)) c) props (propsPlace k)).map Prod.snd := by
  rw [propsPlace, targetsFrom, countsBefore_fold h]
  cases targetsStep fuel (before.foldl (keptCounts (targetsStep fuel)) c) props [.str "Resources", k, .str "Properties"] <;> rfl

example : (Key.str "B") ∉ [(Key.str "A", Val.dict [])].map Prod.fst := by decide

/-! ### the resources -/

theorem mem_eventRules {t : Val} {k : Key} {v : Val} (h : (k, v) ∈ eventRules t) : ∃ kvs, v = .dict kvs ∧ ResourceWith t k "AWS::Events::Rule" kvs := by
  unfold eventRules at h
  split at h <;> try (cases h)
  split at h <;> try (cases h)
  rename_i top _ rs he
  obtain ⟨kv, hm, h⟩ := List.mem_flatMap.1 h
  unfold eventRule at h
  split at h <;> try (cases h)
  rename_i kvs hv
  split at h <;> try (cases h)
  rename_i ty props h1 h2
  split at h
  · rename_i hty
    subst hty
    cases List.mem_singleton.1 h
    exact ⟨_, rfl, top, rs, kvs, rfl, dlookup_mem he, hv ▸ hm, h1, h2⟩
  · cases h

/-- C144: the rule is called on the event rules of the template, each once and no other. -/
theorem C144_resources {t : Val} (hw : t.WF) {k : Key} {v : Val} : (k, v) ∈ eventRules t ↔ ∃ kvs, v = .dict kvs ∧ ResourceWith t k "AWS::Events::Rule" kvs := by
  refine ⟨mem_eventRules, ?_⟩
  rintro ⟨kvs, rfl, top, rs, as, rfl, h1, h2, h3, h4⟩
  rw [Val.WF] at hw
  rw [eventRules, dlookup_of_mem hw.1 h1]
  refine List.mem_flatMap.2 ⟨_, h2, ?_⟩
  simp [eventRule, h3, h4]

theorem eventRule_name {kv r : Key × Val} (h : r ∈ eventRule kv) : r.1 = kv.1 := by
  unfold eventRule at h
  split at h <;> try (cases h)
  split at h <;> try (cases h)
  split at h
  · cases List.mem_singleton.1 h
    rfl
  · cases h

theorem eventRule_sub (kv : Key × Val) : ((eventRule kv).map Prod.fst).Sublist [kv.1] := by
  unfold eventRule
  split <;> try (exact List.nil_sublist _)
  split <;> try (exact List.nil_sublist _)
  split
  · exact List.Sublist.refl _
  · exact List.nil_sublist _

theorem eventRules_sub : ∀ rs : List (Key × Val), ((rs.flatMap eventRule).map Prod.fst).Sublist (rs.map Prod.fst)
  | [] => List.Sublist.refl _
  | kv :: rs => by
    rw [List.flatMap_cons, List.map_append, List.map_cons]
    exact (eventRule_sub kv).append (eventRules_sub rs)

/-- C144: no name is that of two event rules. -/
theorem C144_distinct {t : Val} (hw : t.WF) : ((eventRules t).map Prod.fst).Nodup := by
  unfold eventRules
  split <;> try (exact List.nodup_nil)
  rename_i top
  rw [Val.WF] at hw
  split <;> try (exact List.nodup_nil)
  rename_i rs he
  have h := wfDict_mem hw.2 _ (dlookup_mem he)
  simp only at h
  rw [Val.WF] at h
  exact (eventRules_sub rs).nodup h.1

/-! ### status 0 -/

variable {objs : List RuleObj} {args : Sources} {all : List String} {regions : List Val} {S : TypeSpecs} {beh : RuleObj → Behaviour} {name : Val → String} {mark : Val → MVal}
  {print : List Match → PyM Unit} {ds : List Decoded}

/-- E3021 -/
def TargetsRule (beh : RuleObj → Behaviour) (n : Nat) : Prop := OnTypes beh "E3021" ["AWS::Events::Rule"] id (targetsIn (n + 2))

/-- the event rules have names without full stops, and no nulls for targets -/
def Spec.PlainEventRules (t : Val) : Prop :=
  ∀ k kvs, ResourceWith t k "AWS::Events::Rule" kvs → DotFree k ∧ ∀ v, dlookup (Key.str "Targets") kvs = some v → SomeTargets v

theorem plain_good {t : Val} (hw : t.WF) (hp : PlainEventRules t) : GoodRules (eventRules t) where
  good := fun ⟨k, v⟩ hr => by
    obtain ⟨kvs, rfl, h⟩ := (C144_resources hw).1 hr
    exact ⟨kvs, rfl, (hp _ _ h).2⟩
  names := fun ⟨k, v⟩ hr => by
    obtain ⟨kvs, rfl, h⟩ := (C144_resources hw).1 hr
    exact (hp _ _ h).1
  distinct := C144_distinct hw

theorem targets_silent {n : Nat} (h : CleanRun objs args all regions S beh name mark print ds) (hb : TargetsRule beh n) {d : Decoded} (hd : d ∈ ds)
    (hf : InForce objs args d.template { id := "E3021" }) {res : List Path} (hr : targetsRun (n + 2) [] (eventRules d.template) = .ok res) : res = [] := by
  have hc := C144_replay (C144_distinct (clean_wf h hd)) hr
  rw [List.eq_nil_iff_forall_not_mem]
  intro q hq
  obtain ⟨⟨k, v⟩, hm, l, hl, hql⟩ := (mem_collectM hc).1 hq
  obtain ⟨kvs, rfl, hres⟩ := mem_eventRules hm
  have := types_found h hb hd hf hres List.mem_cons_self hl
  rw [this] at hql
  cases hql

/-- C144: no event rule has more than five targets in one branch of the outermost condition. -/
theorem C144_branches {n : Nat} (h : CleanRun objs args all regions S beh name mark print ds) (hb : TargetsRule beh n) {d : Decoded} (hd : d ∈ ds)
    (hf : InForce objs args d.template { id := "E3021" }) (hp : PlainEventRules d.template) {k : Key} {kvs : List (Key × Val)}
    (hr : ResourceWith d.template k "AWS::Events::Rule" kvs) {v : Val} (hv : dlookup (Key.str "Targets") kvs = some v) (g : Option Key) :
    ¬ MoreThan 5 (InBranch v g) := by
  intro hm
  obtain ⟨res, q, p, h1, h2, -⟩ := C91_complete (plain_good (clean_wf h hd) hp) n ((C144_resources (clean_wf h hd)).2 ⟨kvs, rfl, hr⟩) ⟨kvs, rfl, hv⟩ hm
  rw [targets_silent h hb hd hf h1] at h2
  cases h2

/-- C144: under no truth values of the conditions an event rule has more than five targets, none of which is a call. -/
theorem C144_targets_partial {n : Nat} (h : CleanRun objs args all regions S beh name mark print ds) (hb : TargetsRule beh n) {d : Decoded} (hd : d ∈ ds)
    (hf : InForce objs args d.template { id := "E3021" }) (hp : PlainEventRules d.template) {k : Key} {kvs : List (Key × Val)}
    (hr : ResourceWith d.template k "AWS::Events::Rule" kvs) {v : Val} (hv : dlookup (Key.str "Targets") kvs = some v) {σ : String → Bool} {q : Path}
    {xs : List Val} (hc : Chosen σ v q (.list xs)) (hx : ∀ x ∈ xs, ¬ Removed σ x → ∃ s w, Chosen σ x s w ∧ w ≠ noValue ∧ NoCall w) :
    sizeOfList σ xs ≤ 5 := by
  by_contra hlt
  obtain ⟨res, p, h1, h2⟩ := C91_deployed (plain_good (clean_wf h hd) hp) n ((C144_resources (clean_wf h hd)).2 ⟨kvs, rfl, hr⟩) ⟨kvs, rfl, hv⟩ hc
    (by omega) hx
  rw [targets_silent h hb hd hf h1] at h2
  cases h2

/-- C144 in full: after status 0 no event rule has more than five targets in a deployment. -/
def C144_statement : Prop :=
  ∀ (objs : List RuleObj) (args : Sources) (all : List String) (regions : List Val) (S : TypeSpecs) (beh : RuleObj → Behaviour) (name : Val → String) (mark : Val → MVal)
    (print : List Match → PyM Unit) (ds : List Decoded) (n : Nat), CleanRun objs args all regions S beh name mark print ds → TargetsRule beh n →
    ∀ d ∈ ds, InForce objs args d.template { id := "E3021" } → PlainEventRules d.template → ∀ k kvs v σ m, ResourceWith d.template k "AWS::Events::Rule" kvs →
      dlookup (Key.str "Targets") kvs = some v → ListOf σ v m → m ≤ 5

/-- E3021 as the only rule -/
def exTargetsRules (r : RuleObj) : Behaviour where
  propertyTypes := if r.info.id = "E3021" then ["AWS::Events::Rule"] else []
  properties := some (onObject (fun t kvs ty path => withText id (fun _ => "targets") (targetsIn 2 t kvs ty path)))

theorem exTargets_rule : TargetsRule exTargetsRules 0 := fun r hr =>
  ⟨fun ty h => by simpa [exTargetsRules, hr] using h, _, _, rfl, fun t kvs ty path => rfl⟩

/-- an event rule with the targets -/
abbrev exTargets (xs : List Val) : Val := exTypedOne "AWS::Events::Rule" [(.str "Targets", .list xs)]

theorem exTargets_in (xs : List Val) : InForce (withIds ["E3021"]) (c50Args [] false []) (exTargets xs) { id := "E3021" } :=
  rules_inForce List.mem_cons_self (exTypedOne_args _ _) (by decide)

theorem exTargets_only {xs : List Val} {k : Key} {ty : String} {kvs : List (Key × Val)} (h : ResourceWith (exTargets xs) k ty kvs) :
    k = .str "R" ∧ kvs = [(.str "Targets", .list xs)] := by
  obtain ⟨top, rs, as, e, h1, h2, h3, h4⟩ := h
  cases e
  simp at h1
  subst h1
  simp at h2
  obtain ⟨rfl, rfl⟩ := h2
  simp [dlookup] at h4
  exact ⟨rfl, h4.symm⟩

theorem exTargets_plain (xs : List Val) : PlainEventRules (exTargets xs) := by
  intro k kvs h
  obtain ⟨rfl, rfl⟩ := exTargets_only h
  refine ⟨⟨"R", rfl, by decide⟩, fun v hv => ?_⟩
  simp [dlookup] at hv
  exact hv ▸ some_list xs

/-- six targets that are calls -/
def sixCalls : List Val := List.replicate 6 (.dict [(.str "Ref", .str "P")])

theorem sixCalls_size (σ : String → Bool) : sizeOfList σ sixCalls = 6 := by
  classical
  unfold sizeOfList
  rw [List.filter_eq_self.2 (fun x hx => by
    rw [decide_eq_true_eq, (List.mem_replicate.1 hx).2, removed_not_if (by rintro ⟨x, h⟩; simp at h)]
    simp [noValue])]
  rfl

/-- C144 fails as it stands: targets that are calls are not counted. -/
theorem C144_calls_violated : ¬ C144_statement := by
  intro h
  have := h _ _ _ _ _ _ _ _ _ _ 0
    (rules_clean (S := ⟨[], []⟩) (ids := ["E3021"]) (beh := exTargetsRules) (t := exTargets sixCalls) (severity_ids (by decide)) (fun _ _ => rfl)
      (by simp [exTypedOne, sixCalls, Val.WF, Val.WFDict, Val.WFList, List.replicate]) ⟨rfl, _, rfl⟩ (exTypedOne_args _ _) (by decide +kernel) (by decide +kernel))
    exTargets_rule _ List.mem_cons_self (exTargets_in _) (exTargets_plain _) _ _ _ (fun _ => true) 6 (exTypedOne_resource _ _) rfl
    ⟨[], sixCalls, .here (by rintro ⟨_, h⟩; cases h), (sixCalls_size _).symm⟩
  omega

/-! ### the hypotheses are met -/

/-- `C144_branches` and `C144_targets_partial` -/
example : (∀ g, ¬ MoreThan 5 (InBranch (.list [oneTarget "a"]) g)) ∧ sizeOfList (fun _ => true) [oneTarget "a"] ≤ 5 := by
  have hrun := rules_clean (S := ⟨[], []⟩) (ids := ["E3021"]) (beh := exTargetsRules) (t := exTargets [oneTarget "a"]) (severity_ids (by decide)) (fun _ _ => rfl)
      (by simp [exTypedOne, oneTarget, Val.WF, Val.WFDict, Val.WFList]) ⟨rfl, _, rfl⟩ (exTypedOne_args _ _) (by decide +kernel) (by decide +kernel)
  refine ⟨fun g => C144_branches hrun exTargets_rule List.mem_cons_self (exTargets_in _) (exTargets_plain _) (exTypedOne_resource _ _) rfl g,
    C144_targets_partial hrun exTargets_rule List.mem_cons_self (exTargets_in _) (exTargets_plain _) (exTypedOne_resource _ _) rfl
      (.here (by rintro ⟨_, h⟩; cases h)) (fun x hx _ => ?_)⟩
  cases List.mem_singleton.1 hx
  exact ⟨[], _, .here (steady_target _).1.1, (steady_target _).1.2.1, (steady_target _).2⟩

/-- `C144_replay`: the second of two rules is called with the counts of the first -/
example : collectM (fun r => targetsFrom 2 [] [(.str "R", .dict [(.str "Targets", .list sixTargets)]), (.str "S", .dict [])] r.2 (propsPlace r.1))
    [(.str "R", .dict [(.str "Targets", .list sixTargets)]), (.str "S", .dict [])] = .ok [targetsOf (.str "R"), targetsOf (.str "R")] :=
  C144_replay (by decide) (by decide +kernel)

end CfnLint
