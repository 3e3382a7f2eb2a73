import Verif.Lemmas.Core
import Verif.Lemmas.Runner
/-
Properties C09-C14 and C16: exit codes, report order, failures, regions, transforms, parse errors and
mandatory checks.
-/
namespace CfnLint
open Spec

/-! ## C09 -/

/-- C09: the exit code is computed for every list of findings of rules with a non-empty id; its bits 8, 4
and 2 are set exactly when there is an informational, warning, error finding; no other bit is set. -/
theorem C09_exit_code (ms : List Match) (h : ∀ m ∈ ms, m.rule.id ≠ "") :
    ∃ n, getExitCode ms = .ok n ∧
      (n.testBit 3 = true ↔ ∃ m ∈ ms, IsInfo m) ∧
      (n.testBit 2 = true ↔ ∃ m ∈ ms, IsWarning m) ∧
      (n.testBit 1 = true ↔ ∃ m ∈ ms, IsError m) ∧
      (∀ i, i ≠ 1 → i ≠ 2 → i ≠ 3 → n.testBit i = false) := by
  obtain ⟨n, h1, h2⟩ := exitCode_total ms h
  refine ⟨n, h1, ?_, ?_, ?_, ?_⟩
  · rw [h2]; simp
  · rw [h2]; simp
  · rw [h2]; simp
  · intro i a b c
    rw [← Bool.not_eq_true, h2]; simp [a, b, c]

/-- C09: the exit code is 0 exactly when no finding is informational, a warning or an error. -/
theorem C09_zero_iff (ms : List Match) (h : ∀ m ∈ ms, m.rule.id ≠ "") :
    getExitCode ms = .ok 0 ↔ ∀ m ∈ ms, ¬ IsInfo m ∧ ¬ IsWarning m ∧ ¬ IsError m := by
  obtain ⟨n, h1, h2⟩ := exitCode_total ms h
  rw [h1]
  simp only [Except.ok.injEq]
  constructor
  · rintro rfl m hm
    refine ⟨fun g => ?_, fun g => ?_, fun g => ?_⟩
    · have := (h2 3).2 (.inl ⟨rfl, m, hm, g⟩); simp at this
    · have := (h2 2).2 (.inr (.inl ⟨rfl, m, hm, g⟩)); simp at this
    · have := (h2 1).2 (.inr (.inr ⟨rfl, m, hm, g⟩)); simp at this
  · intro hall
    refine Nat.eq_of_testBit_eq fun i => ?_
    rw [Nat.zero_testBit, ← Bool.not_eq_true, h2]
    rintro (⟨_, m, hm, g⟩ | ⟨_, m, hm, g⟩ | ⟨_, m, hm, g⟩)
    · exact (hall m hm).1 g
    · exact (hall m hm).2.1 g
    · exact (hall m hm).2.2 g

/-- C09: only the set of findings matters, neither their order nor their multiplicity. -/
theorem C09_order_multiplicity (ms ms' : List Match) (h : ∀ m ∈ ms, m.rule.id ≠ "")
    (hs : ∀ m, m ∈ ms ↔ m ∈ ms') : getExitCode ms = getExitCode ms' := by
  obtain ⟨n, h1, h2⟩ := exitCode_total ms h
  obtain ⟨n', g1, g2⟩ := exitCode_total ms' (fun m hm => h m ((hs m).2 hm))
  rw [h1, g1]
  congr 1
  refine Nat.eq_of_testBit_eq fun i => ?_
  rw [Bool.eq_iff_iff, h2, g2]
  simp only [hs]

/-- C09: more findings never clear a bit, so findings of several templates combine by disjunction. -/
theorem C09_union (ms ms' : List Match) (h : ∀ m ∈ ms ++ ms', m.rule.id ≠ "") :
    ∃ a b, getExitCode ms = .ok a ∧ getExitCode ms' = .ok b ∧
      getExitCode (ms ++ ms') = .ok (a ||| b) := by
  obtain ⟨a, h1, h2⟩ := exitCode_total ms (fun m hm => h m (List.mem_append_left _ hm))
  obtain ⟨b, g1, g2⟩ := exitCode_total ms' (fun m hm => h m (List.mem_append_right _ hm))
  obtain ⟨c, k1, k2⟩ := exitCode_total (ms ++ ms') h
  refine ⟨a, b, h1, g1, ?_⟩
  rw [k1]
  congr 1
  refine Nat.eq_of_testBit_eq fun i => ?_
  rw [Bool.eq_iff_iff, k2, Nat.testBit_or, Bool.or_eq_true, h2, g2]
  simp only [List.mem_append, or_and_right, exists_or]
  clear * -; grind

/-- a finding for examples -/
def exMatch (file id : String) (line : Int) : Match :=
  { line := line, col := 1, lineEnd := line, colEnd := 2, filename := file, rule := { id := id },
    message := "" }

example : getExitCode [exMatch "a" "W1001" 1, exMatch "a" "I3011" 2, exMatch "a" "w2" 1] = .ok 12 := by
  decide

/-! ## C10 -/

/-- C10: the report of a template consists of exactly the findings of its run, sorted by file, line and
rule id, and findings that agree in these keep their order of discovery. -/
theorem C10_sorted_report (all : List String) (regions : List Val) (cfg : Cfg) (ms out : List Match)
    (h : runChecks all regions cfg (.ok ()) (.ok []) (.ok ms) = .ok out) :
    out.Perm ms ∧ out.Pairwise ReportLE ∧
    ∀ x, out.filter (SamePlace x) = ms.filter (SamePlace x) := by
  have : out = ms.mergeSort sortKeyLe := by
    unfold runChecks at h
    split at h
    · cases h
    · cases h
    · simp only at h
      split at h
      · cases h
      · exact (Except.ok.inj h).symm
  subst this
  refine ⟨List.mergeSort_perm _ _, ?_, mergeSort_filter_same ms⟩
  exact (List.pairwise_mergeSort sortKeyLe_trans sortKeyLe_total ms).imp
    (by intro a b h; exact (sortKeyLe_iff a b).1 h)

example : ∃ out, runChecks ["us-east-1"] [.str "us-east-1"] { incl := [.str "E"] } (.ok ()) (.ok [])
    (.ok [exMatch "a" "W1" 2, exMatch "a" "E1" 1]) = .ok out := ⟨_, rfl⟩

/-! ## C11 -/

/-- The full C11 claim: an exception of the engine does not end in an empty report. -/
def C11_statement : Prop :=
  ∀ (all : List String) (regions : List Val) (cfg : Cfg) (construct : PyM Unit)
    (transform run : PyM (List Match)),
    (∃ e, construct = .error e) ∨ (∃ e, transform = .error e) ∨
      (construct = .ok () ∧ transform = .ok [] ∧ ∃ e, run = .error e) →
    runChecks all regions cfg construct transform run ≠ .ok []

/-- C11 fails: an exception while the rules run is swallowed (core.py:243-245 builds an exception without
raising it) and the template is reported clean with exit code 0. -/
theorem C11_swallowed_violated : ¬ C11_statement := by
  intro h
  exact h [] [] { incl := [.str "E"] } (.ok ()) (.ok []) (.error (.typeError "boom"))
    (.inr (.inr ⟨rfl, rfl, _, rfl⟩)) rfl

/-- The failure is not an accident of the witness: every exception of the rule run is swallowed. -/
theorem C11_every_exception_lost (all : List String) (regions : List Val) (cfg : Cfg) (e : PyErr)
    (out : List Match)
    (h : runChecks all regions cfg (.ok ()) (.ok []) (.error e) = .ok out) :
    out = [] ∧ getExitCode out = .ok 0 := by
  have : out = [] := by
    unfold runChecks at h
    split at h
    · cases h
    · cases h
    · simp only at h
      split at h
      · cases h
      · exact (Except.ok.inj h).symm
  subst this
  exact ⟨rfl, rfl⟩

/-- C11 for the phases before the rule run: an exception there is never turned into a report. Missing
for the full claim: exceptions of the rule run itself. -/
theorem C11_setup_failure_partial (all : List String) (regions : List Val) (cfg : Cfg)
    (construct : PyM Unit) (transform run : PyM (List Match))
    (h : (∃ e, construct = .error e) ∨ (∃ e, transform = .error e)) :
    ∃ e, runChecks all regions cfg construct transform run = .error e := by
  unfold runChecks
  split
  · exact ⟨_, rfl⟩
  · exact ⟨_, rfl⟩
  · rcases h with ⟨e, rfl⟩ | ⟨e, rfl⟩
    · exact ⟨_, rfl⟩
    · cases construct with
      | error e => exact ⟨_, rfl⟩
      | ok u =>
        simp only
        cases isRuleEnabled cfg transformErrorRule with
        | error e => exact ⟨_, rfl⟩
        | ok b => exact ⟨_, rfl⟩

/-! ## C12 -/

/-- C12: with regions given as strings, the run aborts with exit code 32 exactly when some requested
region is not supported - whatever the rest of the run would do. -/
theorem C12_regions (all regions : List String) (cfg : Cfg) (construct : PyM Unit)
    (transform run : PyM (List Match)) :
    runChecks all (regions.map .str) cfg construct transform run = .error (.exit 32) ↔
      ∃ r ∈ regions, r ∉ all := by
  have hsup : regionsSupported all (regions.map .str) = .ok (regions.all (fun r => all.contains r)) := by
    unfold regionsSupported
    have h1 : (regions.map Val.str).any (fun r => !hashable r) = false := by
      simp [hashable]
    rw [h1]
    simp only [Bool.false_eq_true, if_false]
    congr 1
    rw [List.all_map]
    congr 1
    funext r
    rw [Bool.eq_iff_iff]
    simp
  unfold runChecks
  by_cases hem : regions = []
  · subst hem
    simp only [List.map_nil, List.isEmpty_nil, if_true, List.not_mem_nil, false_and, exists_false,
      iff_false]
    cases construct with
    | error e => simp
    | ok u =>
      simp only
      cases isRuleEnabled cfg transformErrorRule with
      | error e => simp
      | ok b =>
        simp only
        cases transform with
        | error e => simp
        | ok ts =>
          cases ts with
          | cons t ts => cases b <;> simp
          | nil => cases run <;> simp
  · have : (regions.map Val.str).isEmpty = false := by
      cases regions with
      | nil => exact absurd rfl hem
      | cons => rfl
    rw [this, hsup]
    simp only [Bool.false_eq_true, if_false]
    cases hall : regions.all (fun r => all.contains r) with
    | false =>
      simp only [true_iff]
      rw [List.all_eq_false] at hall
      obtain ⟨r, hr, h⟩ := hall
      exact ⟨r, hr, by simpa using h⟩
    | true =>
      rw [List.all_eq_true] at hall
      have hno : ¬ ∃ r ∈ regions, r ∉ all := by
        rintro ⟨r, hr, h⟩
        exact h (by simpa using hall r hr)
      simp only [hno, iff_false]
      cases construct with
      | error e => simp
      | ok u =>
        simp only
        cases isRuleEnabled cfg transformErrorRule with
        | error e => simp
        | ok b =>
          simp only
          cases transform with
          | error e => simp
          | ok ts =>
            cases ts with
            | cons t ts => cases b <;> simp
            | nil => cases run <;> simp

example : ∃ r ∈ ["us-east-1", "moon-1"], r ∉ ["us-east-1", "eu-west-1"] := ⟨"moon-1", by decide, by decide⟩

/-! ## C13 -/

/-- C13: transform errors are returned, all of them and in order, when E0001 is enabled; nothing is
returned when it is not; in both cases nothing a rule could find or raise has any influence. -/
theorem C13_transform_short_circuit (all : List String) (regions : List Val) (cfg : Cfg)
    (t : Match) (ts : List Match) (run : PyM (List Match)) (out : List Match)
    (h : runChecks all regions cfg (.ok ()) (.ok (t :: ts)) run = .ok out) :
    (isRuleEnabled cfg transformErrorRule = .ok true ∧ out = t :: ts) ∨
    (isRuleEnabled cfg transformErrorRule = .ok false ∧ out = []) := by
  unfold runChecks at h
  split at h
  · cases h
  · cases h
  · simp only at h
    cases h1 : isRuleEnabled cfg transformErrorRule with
    | error e => rw [h1] at h; cases h
    | ok b =>
      rw [h1] at h
      cases b with
      | true => left; simp at h; exact ⟨rfl, h.symm⟩
      | false => right; simp at h; exact ⟨rfl, h⟩

/-- C13: with transform errors the outcome does not depend on the rule run at all. -/
theorem C13_rules_not_run (all : List String) (regions : List Val) (cfg : Cfg) (construct : PyM Unit)
    (t : Match) (ts : List Match) (run run' : PyM (List Match)) :
    runChecks all regions cfg construct (.ok (t :: ts)) run =
    runChecks all regions cfg construct (.ok (t :: ts)) run' := by
  unfold runChecks; rfl

/-- C13: without transform errors every finding of the rule run is reported. -/
theorem C13_rules_run (all : List String) (regions : List Val) (cfg : Cfg) (ms out : List Match)
    (h : runChecks all regions cfg (.ok ()) (.ok []) (.ok ms) = .ok out) :
    ∀ m, m ∈ out ↔ m ∈ ms :=
  fun _ => (C10_sorted_report all regions cfg ms out h).1.mem_iff

example : runChecks [] [] { incl := [.str "E"] } (.ok ()) (.ok [exMatch "a" "E0001" 1])
    (.error (.other "unused")) = .ok [exMatch "a" "E0001" 1] := by decide
example : runChecks [] [] { incl := [.str "E"], ignore := [.str "E0001"] } (.ok ())
    (.ok [exMatch "a" "E0001" 1]) (.ok [exMatch "a" "E1" 1]) = .ok [] := by decide

/-! ## C14 -/

/-- The full C14 claim: what is reported for a template that cannot be decoded is the same whatever
templates were linted before it. -/
def C14_statement : Prop :=
  ∀ (objs : List RuleObj) (args : Sources) (check : Val → Option Coll → RunM (List Match))
    (pre : List Decoded) (d : Decoded) (outs outs' : List (List Match)),
    d.errors ≠ [] → lintAll objs args check {} (pre ++ [d]) = .ok outs →
    lintAll objs args check {} [d] = .ok outs' → outs.getLast? = outs'.getLast?

/-- A template that switches on `ignore_bad_template` in its Metadata. -/
def leakyTemplate : Val :=
  .dict [(.str "Metadata", .dict [(.str "cfn-lint", .dict [(.str "config",
    .dict [(.str "ignore_bad_template", .bool true)])])])]

/-- command line without options -/
def plainArgs : Sources := { cli := fun _ => .list [] }

/-- C14 fails: after a template with `ignore_bad_template: true` the next template's parse error is
dropped. -/
theorem C14_history_violated : ¬ C14_statement := by
  intro h
  have := h [] plainArgs (fun _ _ => .ok []) [⟨leakyTemplate, []⟩]
    ⟨.none, [exMatch "b" "E0000" 1]⟩ [[], []] [[exMatch "b" "E0000" 1]] (by simp) (by decide)
    (by decide)
  revert this; decide

/-- C14: parse errors depend on the template and the global configuration only, provided that no earlier
template sets `ignore_bad_template`, `ignore_checks` or `include_checks` in its Metadata. Missing for the
full claim: exactly those templates. -/
theorem C14_history_partial (objs : List RuleObj) (args : Sources)
    (check : Val → Option Coll → RunM (List Match)) (pre : List Decoded) (d : Decoded)
    (outs outs' : List (List Match)) (hd : d.errors ≠ [])
    (hpre : ∀ p ∈ pre, p.errors = [] → ∀ targs, setTemplateArgs p.template = .ok targs →
      ∀ n ∈ ["ignore_bad_template", "ignore_checks", "include_checks"], dlookup n targs = none)
    (h : lintAll objs args check {} (pre ++ [d]) = .ok outs)
    (h' : lintAll objs args check {} [d] = .ok outs') : outs.getLast? = outs'.getLast? := by
  have hq0 : quiet ({} : LintState).templateArgs := fun n _ => rfl
  -- the outcome of `[d]` is the same from every quiet state
  have hsame : ∀ st : LintState, quiet st.templateArgs →
      lintAll objs args check st [d] = lintAll objs args check {} [d] := by
    intro st hq
    unfold lintAll getTemplateRules sourcesWith
    rw [ignoreBadTemplate_quiet args _ hq, ignoreBadTemplate_quiet args _ hq0]
    cases ignoreBadTemplate { args with template := [] } with
    | error e => rfl
    | ok ib =>
      simp only
      cases he : d.errors with
      | nil => exact absurd he hd
      | cons e es =>
        simp only
        by_cases hc : (es.isEmpty && ib && e.rule.id == "E0000") = true
        · simp only [hc, if_true]; rfl
        · simp only [hc]; rfl
  -- run through the earlier templates
  have hrun : ∀ (pre : List Decoded) (st : LintState), quiet st.templateArgs →
      (∀ p ∈ pre, p.errors = [] → ∀ targs, setTemplateArgs p.template = .ok targs →
        ∀ n ∈ ["ignore_bad_template", "ignore_checks", "include_checks"], dlookup n targs = none) →
      ∀ outs, lintAll objs args check st (pre ++ [d]) = .ok outs →
        ∃ front last, outs = front ++ last ∧ lintAll objs args check {} [d] = .ok last := by
    intro pre
    induction pre with
    | nil =>
      intro st hq _ outs ho
      refine ⟨[], outs, rfl, ?_⟩
      rw [← hsame st hq]; exact ho
    | cons p pre ih =>
      intro st hq hp outs ho
      rw [List.cons_append, lintAll] at ho
      cases hg : getTemplateRules objs args st p with
      | error e => rw [hg] at ho; cases ho
      | ok res =>
        obtain ⟨st', t, oc, es⟩ := res
        rw [hg] at ho
        simp only at ho
        have hq' : quiet st'.templateArgs := by
          cases oc with
          | none => rw [getTemplateRules_none hg]; exact hq
          | some c =>
            obtain ⟨targs, cfg, h1, _, rfl, _, _, h2, _⟩ := getTemplateRules_some hg
            exact hp p List.mem_cons_self h2 targs h1
        split at ho
        · cases ho
        · split at ho
          · cases ho
          · next rest hrest =>
            obtain ⟨front, last, h1, h2⟩ :=
              ih st' hq' (fun x hx => hp x (List.mem_cons_of_mem _ hx)) _ hrest
            simp only [Except.ok.injEq] at ho
            exact ⟨_ :: front, last, by rw [← ho, h1]; rfl, h2⟩
  obtain ⟨front, last, h1, h2⟩ := hrun pre {} hq0 hpre outs h
  rw [h'] at h2
  simp only [Except.ok.injEq] at h2
  subst h2
  have hne : outs' ≠ [] := by
    intro hnil
    subst hnil
    unfold lintAll at h'
    split at h'
    · cases h'
    · simp only at h'
      split at h'
      · cases h'
      · simp [lintAll] at h'
  rw [h1, List.getLast?_append]
  cases hl : outs'.getLast? with
  | none => exact absurd (List.getLast?_eq_none_iff.1 hl) hne
  | some x => rfl

-- an earlier template that sets the regions does not matter
example : lintAll [] plainArgs (fun _ _ => .ok []) {} [⟨.dict [(.str "Metadata", .dict [(.str "cfn-lint",
      .dict [(.str "config", .dict [(.str "regions", .list [.str "eu-west-1"])])])])], []⟩,
    ⟨.none, [exMatch "b" "E0000" 1]⟩] = .ok [[], [exMatch "b" "E0000" 1]] := by decide

/-! ## C16 -/

/-- The full C16 claim, for parse errors: when E0000 is mandatory, the parse error of a template is
reported, whatever templates were linted before. -/
def C16_parse_statement : Prop :=
  ∀ (objs : List RuleObj) (args : Sources) (check : Val → Option Coll → RunM (List Match))
    (pre : List Decoded) (d : Decoded) (outs : List (List Match)),
    args.template = [] → args.ignoreBadTemplate.truthy = false → args.mandatoryChecks = .list [.str "E0000"] →
    d.errors = [exMatch "b" "E0000" 1] →
    lintAll objs args check {} (pre ++ [d]) = .ok outs → outs.getLast? = some d.errors

/-- C16 fails for parse errors: a template's Metadata suppresses the mandatory E0000 of the next one. -/
theorem C16_parse_error_violated : ¬ C16_parse_statement := by
  intro h
  have := h [] { cli := fun n => if n = "mandatory_checks" then .list [.str "E0000"] else .list [] }
    (fun _ _ => .ok []) [⟨leakyTemplate, []⟩] ⟨.none, [exMatch "b" "E0000" 1]⟩ [[], []] rfl
    (by decide) (by decide) rfl (by decide)
  revert this; decide

/-- C16: whatever templates came before and whatever the Metadata of the current one says, a
non-experimental W or E rule with a mandatory prefix is active when the template is checked. Missing for
the full claim: parse errors (see above). -/
theorem C16_mandatory_active_partial (objs : List RuleObj) (args : Sources) (st : LintState)
    (hst : Reach objs args st) (d : Decoded) (st' : LintState) (t : Val) (c : Coll) (es : List Match)
    (h : getTemplateRules objs args st d = .ok (st', t, some c, es))
    (man : List Val) (hman : args.mandatoryChecks = .list man)
    (i : Nat) (r : RuleObj) (hr : objs[i]? = some r) (hx : r.info.experimental = false)
    (hwe : Begins "W" r.info.id ∨ Begins "E" r.info.id)
    (p : String) (hp : Val.str p ∈ man) (hpre : Begins p r.info.id) : i ∈ c.rules := by
  obtain ⟨targs, cfg, _, hcfg, hok⟩ := template_coll hst h
  obtain ⟨_, f2, f3⟩ := currentCfg_fields hcfg
  have hb : ∀ q, Begins q r.info.id → startsWith r.info.id q = true := by
    rintro q ⟨u, hu⟩
    unfold startsWith
    rw [List.isPrefixOf_iff_prefix]
    exact ⟨u, hu⟩
  have hlt : i < objs.length := by
    by_contra hge
    rw [List.getElem?_eq_none (by omega)] at hr
    cases hr
  have hinfo : (objs.map RuleObj.info)[i]? = some r.info := by
    rw [List.getElem?_map, hr]; rfl
  obtain ⟨b, hb'⟩ := hok.decided i hlt r.info hinfo
  have hmand : cfg.mandatory = man := by
    have : ({ args with template := targs } : Sources).mandatoryChecks = args.mandatoryChecks := by
      unfold Sources.mandatoryChecks getArgumentValue
      simp
    rw [this, hman] at f3
    unfold Val.orEmpty Val.asList at f3
    cases man with
    | nil => cases hp
    | cons x xs => simp [Val.truthy] at f3; exact f3.symm
  have hbt : b = true := by
    rw [hok.cfg] at hb'
    refine isEnabled_mandatory hb' hx ?_ ⟨p, by simpa [hmand] using hp, hb p hpre⟩
    have hin : Val.str "W" ∈ addDefaults cfg.incl ∧ Val.str "E" ∈ addDefaults cfg.incl := by
      unfold addDefaults
      simp only [List.foldl]
      constructor
      · split <;> split <;> simp_all
      · split <;> split <;> simp_all
    rcases hwe with hw | he
    · exact ⟨"W", hin.1, hb _ hw⟩
    · exact ⟨"E", hin.2, hb _ he⟩
  subst hbt
  rw [hok.inv, List.mem_filter]
  refine ⟨by rw [hok.all]; exact List.mem_range.2 hlt, ?_⟩
  rw [enabledB_congr _ hok.infos]
  unfold enabledB
  rw [hr]
  simp [hb']

-- the template ignores everything, the mandatory rule stays active
example : (getTemplateRules [{ info := { id := "E3012" } }, { info := { id := "E3001" } }]
    { cli := fun n => if n = "mandatory_checks" then .list [.str "E30"] else .list [] } {}
    ⟨.dict [(.str "Metadata", .dict [(.str "cfn-lint", .dict [(.str "config",
      .dict [(.str "ignore_checks", .list [.str "E", .str "W"])])])])], []⟩).map
      (fun x => x.2.2.1.map (·.rules)) = .ok (some [0, 1]) := by decide

end CfnLint
