import Verif.Props.StatusKept
/-
Property C154: the status of a run on several templates is the union of the statuses of the runs on each of them.
-/
namespace CfnLint

open Spec

variable {objs : List RuleObj} {args : Sources} {all : List String} {regions : List Val} {S : TypeSpecs} {beh : RuleObj → Behaviour}
  {name : Val → String} {mark : Val → MVal} {print : List Match → PyM Unit} {ds : List Decoded}

theorem ready_of_subset {ds' : List Decoded} (h : ReadyRun objs args all regions beh mark print ds) (hs : ∀ d ∈ ds', d ∈ ds) :
    ReadyRun objs args all regions beh mark print ds' where
  marks := h.marks
  decoded := fun d hd => h.decoded d (hs d hd)
  start := h.start
  configured := fun d hd => h.configured d (hs d hd)
  decided := fun d hd => h.decided d (hs d hd)
  configurable := fun d hd => h.configurable d (hs d hd)
  settable := fun d hd => h.settable d (hs d hd)
  supported := h.supported
  printed := h.printed

/-- what is assumed of the templates and rules besides -/
structure Spec.SteadyRun (objs : List RuleObj) (args : Sources) (all : List String) (regions : List Val) (beh : RuleObj → Behaviour) (mark : Val → MVal)
    (print : List Match → PyM Unit) (ds : List Decoded) : Prop where
  ready : ReadyRun objs args all regions beh mark print ds
  prints : ∀ ms, print ms = .ok ()
  ids : ∀ r ∈ objs, r.info.id ≠ ""
  nonempty : ∀ d ∈ ds, d.template.truthy = true
  directed : ∀ d ∈ ds, Directed mark d.template
  mandatory : ∀ d ∈ ds, ∀ cfg, ConfiguredBy args d.template cfg → ∃ mand : List String, cfg.mandatory = mand.map .str
  same : ∀ r r' : RuleObj, r.info = r'.info → beh r = beh r'

theorem Spec.SteadyRun.of_subset {ds' : List Decoded} (h : SteadyRun objs args all regions beh mark print ds) (hs : ∀ d ∈ ds', d ∈ ds) :
    SteadyRun objs args all regions beh mark print ds' :=
  ⟨ready_of_subset h.ready hs, h.prints, h.ids, fun d hd => h.nonempty d (hs d hd), fun d hd => h.directed d (hs d hd),
    fun d hd => h.mandatory d (hs d hd), h.same⟩

/-- **C154** A bit of the status of a run on templates is set exactly if it is set in the status of the run on some one of them by itself. -/
theorem C154_bits (h : SteadyRun objs args all regions beh mark print ds) (launch : Launch) (i : Nat) :
    (runCommand launch objs args (checkWith all regions S beh name mark) print ds).testBit i = true ↔
      ∃ d ∈ ds, (runCommand launch objs args (checkWith all regions S beh name mark) print [d]).testBit i = true := by
  obtain ⟨a3, a2, a1, a0⟩ := C153_status (S := S) (name := name) h.ready h.prints h.ids h.nonempty h.directed h.mandatory h.same launch
  have sub : ∀ d ∈ ds, SteadyRun objs args all regions beh mark print [d] := fun d hd =>
    h.of_subset (fun x hx => by cases List.mem_singleton.1 hx; exact hd)
  have one := fun d hd => C153_status (S := S) (name := name) (sub d hd).ready (sub d hd).prints (sub d hd).ids (sub d hd).nonempty (sub d hd).directed
    (sub d hd).mandatory (sub d hd).same launch
  by_cases e1 : i = 1
  · subst e1
    rw [a1]
    exact exists_congr fun d => and_congr_right fun hd => by rw [(one d hd).2.2.1]; simp
  by_cases e2 : i = 2
  · subst e2
    rw [a2]
    exact exists_congr fun d => and_congr_right fun hd => by rw [(one d hd).2.1]; simp
  by_cases e3 : i = 3
  · subst e3
    rw [a3]
    exact exists_congr fun d => and_congr_right fun hd => by rw [(one d hd).1]; simp
  rw [a0 i e1 e2 e3]
  refine iff_of_false (by simp) ?_
  rintro ⟨d, hd, hb⟩
  rw [(one d hd).2.2.2 i e1 e2 e3] at hb
  cases hb

/-- **C154** The status of a run on templates is the union of the statuses of the runs on each of two parts of them. -/
theorem C154_union {ds1 ds2 : List Decoded} (h : SteadyRun objs args all regions beh mark print (ds1 ++ ds2)) (launch : Launch) :
    runCommand launch objs args (checkWith all regions S beh name mark) print (ds1 ++ ds2) =
      runCommand launch objs args (checkWith all regions S beh name mark) print ds1 |||
      runCommand launch objs args (checkWith all regions S beh name mark) print ds2 := by
  refine Nat.eq_of_testBit_eq fun i => ?_
  rw [Nat.testBit_or, Bool.eq_iff_iff, Bool.or_eq_true, C154_bits h, C154_bits (h.of_subset fun d hd => List.mem_append_left _ hd),
    C154_bits (h.of_subset fun d hd => List.mem_append_right _ hd)]
  simp only [List.mem_append, or_and_right, exists_or]

/-- **C154** The order of the templates and repetitions do not matter. -/
theorem C154_order {ds' : List Decoded} (h : SteadyRun objs args all regions beh mark print ds) (hs : ∀ d, d ∈ ds' ↔ d ∈ ds) (launch : Launch) :
    runCommand launch objs args (checkWith all regions S beh name mark) print ds' =
      runCommand launch objs args (checkWith all regions S beh name mark) print ds := by
  refine Nat.eq_of_testBit_eq fun i => ?_
  rw [Bool.eq_iff_iff, C154_bits h, C154_bits (h.of_subset fun d hd => (hs d).1 hd)]
  simp only [hs]

/-- two templates, one of which asks to ignore the warning -/
theorem twoIgnoring_steady : SteadyRun (withIds ["W1001"]) (c50Args [] false []) [] [] onlyWarns (markAll default) (fun _ => .ok ())
    ([⟨asksToIgnore "W1001", []⟩] ++ [⟨asksToIgnore "W1002", []⟩]) := by
  have ha := asksToIgnore_ready (id := "W1001") (by simp)
  have hb := asksToIgnore_ready (id := "W1002") (by simp)
  have split : ∀ {P : Decoded → Prop}, P ⟨asksToIgnore "W1001", []⟩ → P ⟨asksToIgnore "W1002", []⟩ →
      ∀ d ∈ [(⟨asksToIgnore "W1001", []⟩ : Decoded)] ++ [⟨asksToIgnore "W1002", []⟩], P d := by
    intro P h1 h2 d hd
    rcases List.mem_append.1 hd with hd | hd <;> cases List.mem_singleton.1 hd <;> assumption
  have m1 : ∀ {x : Decoded}, x ∈ [x] := List.mem_singleton.2 rfl
  exact {
    ready := {
      marks := ha.marks
      decoded := split (ha.decoded _ m1) (hb.decoded _ m1)
      start := ha.start
      configured := split (ha.configured _ m1) (hb.configured _ m1)
      decided := split (ha.decided _ m1) (hb.decided _ m1)
      configurable := split (ha.configurable _ m1) (hb.configurable _ m1)
      settable := split (ha.settable _ m1) (hb.settable _ m1)
      supported := ha.supported
      printed := rfl }
    prints := fun _ => rfl
    ids := fun r hr => by cases List.mem_singleton.1 hr; decide
    nonempty := split rfl rfl
    directed := split (asksToIgnore_args (by simp)).2.1 (asksToIgnore_args (by simp)).2.1
    mandatory := split (fun cfg hc => by cases plain_configured (asksToIgnore_args (by simp)).1 hc; exact ⟨[], rfl⟩)
      (fun cfg hc => by cases plain_configured (asksToIgnore_args (by simp)).1 hc; exact ⟨[], rfl⟩)
    same := fun r r' e => by unfold onlyWarns; rw [e] }

example : runCommand .script (withIds ["W1001"]) (c50Args [] false []) (checkWith [] [] ⟨[], []⟩ onlyWarns (fun _ => "t") (markAll default))
    (fun _ => .ok ()) ([⟨asksToIgnore "W1001", []⟩] ++ [⟨asksToIgnore "W1002", []⟩]) = 4 := by
  rw [C154_union twoIgnoring_steady]
  decide +kernel

end CfnLint
