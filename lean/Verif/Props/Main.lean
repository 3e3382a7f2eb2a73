import Verif.Lemmas.Main
import Verif.Props.Core
/-
Properties C50 and C51: the listing of the rules and the status of the process.
-/
namespace CfnLint
open Spec

/-! ## C50 -/

/-- The full C50 statement: `--list-rules` prints the rules that run, with the same options, on a template
that does not configure the linter itself. -/
def C50_statement : Prop :=
  ∀ (objs : List RuleObj) (args : Sources) (c : Conf), Says args c →
    ∀ (t t' : Val) (st : LintState) (coll : Coll) (es : List Match) (listed : List RuleInfo),
      setTemplateArgs t = .ok [] →
      getTemplateRules objs args {} ⟨t, []⟩ = .ok (st, t', some coll, es) →
      listRules objs args = .ok listed → listed.Perm coll.infos

/-- The sources with the given command line. -/
def c50Args (mandatory : List String) (experimental : Bool) (ignore : List String) : Sources :=
  { cli := fun n => if n = "mandatory_checks" then .list (mandatory.map .str)
      else if n = "include_experimental" then .bool experimental
      else if n = "ignore_checks" then .list (ignore.map .str)
      else if n = "configure_rules" then .dict [] else .list [] }

theorem c50Args_says (m : List String) (x : Bool) (i : List String) :
    Says (c50Args m x i) { ignore := i, mandatory := m, includeExperimental := x } := by
  refine ⟨rfl, ?_, ?_, ?_, ?_, ?_⟩
  · cases i <;> simp [Sources.ignoreChecks, getArgumentValue, c50Args, getOpt, dlookup, Val.truthy]
  · rfl
  · cases m <;> simp [Sources.mandatoryChecks, getArgumentValue, c50Args, getOpt, dlookup, Val.truthy]
  · cases x <;> rfl
  · rfl

theorem c50_refute (h : C50_statement) (objs : List RuleObj) (m : List String) (x : Bool)
    (i : List String) (l1 l2 : List RuleInfo)
    (h1 : (getTemplateRules objs (c50Args m x i) {} ⟨.dict [], []⟩).map
      (fun r => r.2.2.1.map Coll.infos) = .ok (some l1))
    (h2 : (listingCfg (c50Args m x i) >>= fun cfg => (getRules objs cfg).map Coll.infos) = .ok l2) :
    l2.length = l1.length := by
  cases hg : getTemplateRules objs (c50Args m x i) {} ⟨.dict [], []⟩ with
  | error e => rw [hg] at h1; cases h1
  | ok r =>
    obtain ⟨st, t', oc, es⟩ := r
    rw [hg] at h1
    cases oc with
    | none => cases h1
    | some coll =>
      simp only [Except.map, Option.map_some, Except.ok.injEq, Option.some.injEq] at h1
      cases hl : listingCfg (c50Args m x i) with
      | error e => rw [hl] at h2; cases h2
      | ok cfg =>
        rw [hl] at h2
        cases hc : getRules objs cfg with
        | error e => simp [bind, Except.bind, hc, Except.map] at h2
        | ok c =>
          simp only [bind, Except.bind, hc, Except.map, Except.ok.injEq] at h2
          have := h objs _ _ (c50Args_says m x i) (.dict []) t' st coll es (c.infos.mergeSort idLe) rfl hg
            (by simp [listRules, hl, hc])
          rw [← h1, ← h2, ← this.length_eq, List.length_mergeSort]

/-- C50 does not hold: with `-m E3012 -i E3012` rule E3012 runs but is not listed. -/
theorem C50_mandatory_violated : ¬ C50_statement := by
  intro h
  have := c50_refute h [{ info := { id := "E3012" } }] ["E3012"] false ["E3012"] [{ id := "E3012" }] []
    (by rfl) (by rfl)
  revert this; decide

/-- C50 does not hold: with `-e` experimental rules run but are not listed. -/
theorem C50_experimental_violated : ¬ C50_statement := by
  intro h
  have := c50_refute h [{ info := { id := "E3012", experimental := true } }] [] true []
    [{ id := "E3012", experimental := true }] [] (by rfl) (by rfl)
  revert this; decide

/-- C50 does not hold: with any mandatory check experimental rules are listed although they do not run. -/
theorem C50_listed_only_violated : ¬ C50_statement := by
  intro h
  have := c50_refute h [{ info := { id := "E3012", experimental := true } }] ["W"] false []
    [] [{ id := "E3012", experimental := true }] (by rfl) (by rfl)
  revert this; decide

theorem idLe_trans (a b c : RuleInfo) : idLe a b = true → idLe b c = true → idLe a c = true := by
  simp only [idLe, decide_eq_true_eq]
  exact String.le_trans

theorem idLe_total (a b : RuleInfo) : (idLe a b || idLe b a) = true := by
  simp only [idLe, Bool.or_eq_true, decide_eq_true_eq]
  exact String.le_total _ _

theorem enabled_incl (r : RuleInfo) (x : Bool) (g i m : List String) :
    Enabled r.id r.experimental x g (["W", "E"] ++ i ++ ["W", "E"]) m ↔
      Enabled r.id r.experimental x g (i ++ ["W", "E"]) m := by
  unfold Enabled
  simp only [List.mem_append]
  constructor <;> (rintro ⟨a, ⟨p, hp, hq⟩, b⟩; exact ⟨a, ⟨p, by tauto, hq⟩, b⟩)

open Classical in
/-- C50, what is listed: the output is ordered by rule id, and it consists of the rules that would be
enabled if there were no mandatory checks and experimental rules were included exactly when some mandatory
check is given. -/
theorem C50_listed_exact (objs : List RuleObj) (args : Sources) (c : Conf) (hs : Says args c)
    (listed : List RuleInfo) (h : listRules objs args = .ok listed) :
    listed.Pairwise (fun a b => a.id ≤ b.id) ∧
    listed.Perm ((objs.map RuleObj.info).filter (fun r => decide (Enabled r.id r.experimental
      (decide (c.mandatory ≠ [])) c.ignore (c.incl ++ ["W", "E"]) []))) := by
  unfold listRules at h
  rw [listingCfg_says hs] at h
  dsimp only at h
  cases hg : getRules objs (listConf c).toCfg with
  | error e => rw [hg] at h; cases h
  | ok coll =>
    rw [hg] at h
    simp only [Except.ok.injEq] at h
    subst h
    constructor
    · have := List.pairwise_mergeSort idLe_trans idLe_total coll.infos
      exact this.imp (fun h => by simpa [idLe] using h)
    · refine (List.mergeSort_perm _ _).trans ?_
      rw [getRules_infos _ (fun r => ?_) (getRules_ok hg)]
      rw [decide_eq_true_iff]
      have he : (listConf c).includeExperimental = decide (c.mandatory ≠ []) := by
        cases hm : c.mandatory <;> simp [listConf, hm]
      rw [he]
      exact (enabled_incl r _ c.ignore c.incl []).symm

open Classical in
/-- C50, what runs: on a template that does not configure the linter the active rules are the rules enabled
under the configuration of the command. -/
theorem C50_run_exact (objs : List RuleObj) (args : Sources) (c : Conf) (hs : Says args c)
    (t t' : Val) (st : LintState) (coll : Coll) (es : List Match) (ht : setTemplateArgs t = .ok [])
    (h : getTemplateRules objs args {} ⟨t, []⟩ = .ok (st, t', some coll, es)) :
    coll.infos = (objs.map RuleObj.info).filter (fun r => decide (Enabled r.id r.experimental
      c.includeExperimental c.ignore (c.incl ++ ["W", "E"]) c.mandatory)) := by
  refine getRules_infos _ (fun r => ?_) (first_coll hs ht h)
  rw [decide_eq_true_iff]
  exact (enabled_incl r _ c.ignore c.incl _).symm

/-- C50: the listed rules are those that run when no rule is both ignored and mandatory, and experimental
rules are asked for exactly when there are mandatory checks, or do not exist. -/
theorem C50_same_partial (objs : List RuleObj) (args : Sources) (c : Conf) (hs : Says args c)
    (t t' : Val) (st : LintState) (coll : Coll) (es : List Match) (ht : setTemplateArgs t = .ok [])
    (h : getTemplateRules objs args {} ⟨t, []⟩ = .ok (st, t', some coll, es))
    (listed : List RuleInfo) (hl : listRules objs args = .ok listed)
    (hm : ∀ o ∈ objs, (∃ p ∈ c.ignore, p ≠ "" ∧ IsPrefix p o.info.id) →
      ¬ ∃ p ∈ c.mandatory, IsPrefix p o.info.id)
    (hx : ∀ o ∈ objs, o.info.experimental = true → (c.includeExperimental = true ↔ c.mandatory ≠ [])) :
    listed.Perm coll.infos ∧ listed.Pairwise (fun a b => a.id ≤ b.id) := by
  classical
  obtain ⟨h1, h2⟩ := C50_listed_exact objs args c hs listed hl
  refine ⟨h2.trans ?_, h1⟩
  rw [C50_run_exact objs args c hs t t' st coll es ht h]
  refine List.Perm.of_eq (List.filter_congr fun r hr => ?_)
  obtain ⟨o, ho, rfl⟩ := List.mem_map.1 hr
  refine decide_eq_decide.2 ?_
  unfold Enabled
  have hm := hm o ho
  have hx := hx o ho
  simp only [List.not_mem_nil, false_and, exists_false, false_or, decide_eq_true_eq]
  by_cases he : o.info.experimental = true
  · have hx := hx he
    constructor
    · rintro ⟨a, b, d⟩; exact ⟨fun _ => hx.2 (a he), b, .inr d⟩
    · rintro ⟨a, b, d⟩
      refine ⟨fun _ => hx.1 (a he), b, ?_⟩
      rcases d with d | d
      · exact fun g => hm g d
      · exact d
  · constructor
    · rintro ⟨a, b, d⟩; exact ⟨fun g => absurd g he, b, .inr d⟩
    · rintro ⟨a, b, d⟩
      refine ⟨fun g => absurd g he, b, ?_⟩
      rcases d with d | d
      · exact fun g => hm g d
      · exact d

-- the hypotheses are met: a rule that runs and is listed, a rule that is ignored
example : (listingCfg (c50Args [] false ["E3"]) >>= fun cfg => (getRules [{ info := { id := "W2001" } },
    { info := { id := "E3012" } }] cfg).map Coll.infos) = .ok [{ id := "W2001" }] := by rfl
example : (getTemplateRules [{ info := { id := "W2001" } }, { info := { id := "E3012" } }]
    (c50Args [] false ["E3"]) {} ⟨.dict [], []⟩).map (fun r => r.2.2.1.map Coll.infos) =
      .ok (some [{ id := "W2001" }]) := by rfl

/-- C50: asking for the list never lints a template, and the status is 0. -/
theorem C50_list_only (objs : List RuleObj) (args : Sources) (cmd : Command) (maintain : PyM Unit)
    (hl : cmd.listRules = true) (s : Start)
    (h : getArgsFilenames objs args cmd maintain = .ok s) : ∃ l, s = .exited 0 l := by
  unfold getArgsFilenames at h
  split at h
  · cases maintain with
    | error e => cases h
    | ok u => cases h; exact ⟨_, rfl⟩
  · cases hr : listRules objs args with
    | error e => rw [hr] at h; cases h
    | ok l => rw [hr] at h; cases h; exact ⟨_, rfl⟩

/-- **C50** Without such a command the templates that were given are linted; if there are none, standard input is, unless it
is a terminal; then the run ends with status 1. -/
theorem C50_files {objs : List RuleObj} {args : Sources} {cmd : Command} {maintain : PyM Unit}
    (hu : cmd.updateSpecs = false) (hd : cmd.updateDocumentation = false) (hi : cmd.updateIamPolicies = false)
    (hl : cmd.listRules = false) :
    (cmd.templates ≠ [] → getArgsFilenames objs args cmd maintain = .ok (.lint (cmd.templates.map some))) ∧
    (cmd.templates = [] → cmd.stdinIsTty = false → getArgsFilenames objs args cmd maintain = .ok (.lint [none])) ∧
    (cmd.templates = [] → cmd.stdinIsTty = true → getArgsFilenames objs args cmd maintain = .ok (.exited 1 none)) := by
  unfold getArgsFilenames
  simp only [hu, hd, hi, hl, Bool.or_self, Bool.false_eq_true, if_false]
  refine ⟨fun h => ?_, fun h1 h2 => ?_, fun h1 h2 => ?_⟩
  · simp [h]
  · simp [h1, h2]
  · simp [h1, h2]

example : getArgsFilenames [] (c50Args [] false []) { listRules := true, templates := ["a"] } (.ok ()) =
    .ok (.exited 0 (some [])) := by
  have h : listingCfg (c50Args [] false []) = .ok (listConf {}).toCfg := listingCfg_says (c50Args_says _ _ _)
  have h2 : getRules [] (listConf {}).toCfg = .ok { objs := [], cfg := { incl := [.str "W", .str "E"] } } := by
    rfl
  simp [getArgsFilenames, listRules, h, h2, Coll.infos]

/-! ## C51 -/

/-- The full C51 statement: the process ends with status 0 only when every template was decoded, checked,
and found to be without findings. -/
def C51_statement : Prop :=
  ∀ (launch : Launch) (objs : List RuleObj) (args : Sources)
    (check : Val → Option Coll → RunM (List Match)) (print : List Match → PyM Unit) (ds : List Decoded),
    runCommand launch objs args check print ds = 0 →
    ∀ d ∈ ds, d.errors = [] ∧ ∃ c, check d.template c = .ok []

/-- C51 does not hold: started with `python -m cfnlint`, a `TypeError` while a template is checked is
logged and the status is 0. -/
theorem C51_module_violated : ¬ C51_statement := by
  intro h
  obtain ⟨_, c, hc⟩ := h .modul [] (c50Args [] false []) (fun _ _ => .error (.py (.typeError "unhashable")))
    (fun _ => .ok ()) [⟨.dict [(.str "Resources", .none)], []⟩] (by rfl) _ List.mem_cons_self
  cases hc

/-- C51 does not hold: an empty template (`{}`) is not checked and the status is 0. -/
theorem C51_empty_template_violated : ¬ C51_statement := by
  intro h
  obtain ⟨_, c, hc⟩ := h .script [] (c50Args [] false []) (fun _ _ => .ok [exMatch "a" "E1001" 1])
    (fun _ => .ok ()) [⟨.dict [], []⟩] (by rfl) _ List.mem_cons_self
  simp at hc

/-- C51 does not hold: findings of a rule whose id begins with another letter do not change the status. -/
theorem C51_severity_violated : ¬ C51_statement := by
  intro h
  obtain ⟨_, c, hc⟩ := h .script [] (c50Args [] false []) (fun _ _ => .ok [exMatch "a" "X1001" 1])
    (fun _ => .ok ()) [⟨.dict [(.str "Resources", .none)], []⟩] (by rfl) _ List.mem_cons_self
  simp at hc

/-- C51 does not hold: a template that cannot be parsed leaves the status 0 when the template before it
asks to ignore bad templates. -/
theorem C51_ignored_violated : ¬ C51_statement := by
  intro h
  have := (h .script [] (c50Args [] false []) (fun _ _ => .ok [])
    (fun _ => .ok ()) [⟨leakyTemplate, []⟩, ⟨.none, [exMatch "b" "E0000" 1]⟩]
    (by decide) _ (List.mem_cons_of_mem _ List.mem_cons_self)).1
  cases this

theorem exitCode_zero {ms : List Match} (hl : ∀ m ∈ ms, Levelled m) (h : getExitCode ms = .ok 0) :
    ms = [] := by
  have hid : ∀ m ∈ ms, m.rule.id ≠ "" := by
    intro m hm e
    rcases hl m hm with ⟨c, r, h, _⟩ | ⟨c, r, h, _⟩ | ⟨c, r, h, _⟩ <;> simp [e] at h
  have := (C09_zero_iff ms hid).1 h
  cases ms with
  | nil => rfl
  | cons m ms =>
    have h1 := this m List.mem_cons_self
    have h2 := hl m List.mem_cons_self
    unfold Levelled at h2
    tauto

/-- C51: started as the script, status 0 means that every template was decoded without error, checked,
and found without findings, provided that no decoded template is empty, that neither the command nor a
template asks to ignore parse errors, and that rule ids begin with a letter of a severity. Missing for the
full claim: exactly the cases of the four counterexamples. -/
theorem C51_zero_partial (objs : List RuleObj) (args : Sources)
    (check : Val → Option Coll → RunM (List Match)) (print : List Match → PyM Unit) (ds : List Decoded)
    (hexit : ∀ t c, check t c ≠ .error (.exit 0))
    (htruthy : ∀ d ∈ ds, d.errors = [] → d.template.truthy = true)
    (hignore : ignoreBadTemplate { args with template := [] } = .ok false)
    (hquiet : ∀ d ∈ ds, ∀ a, setTemplateArgs d.template = .ok a → quiet a)
    (hcheck : ∀ t c ms, check t c = .ok ms → ∀ m ∈ ms, Levelled m)
    (hdec : ∀ d ∈ ds, ∀ m ∈ d.errors, Levelled m)
    (h : runCommand .script objs args check print ds = 0) :
    ∀ d ∈ ds, d.errors = [] ∧ ∃ c, check d.template (some c) = .ok [] := by
  unfold runCommand at h
  cases hl : lintAll objs args check {} ds with
  | error e =>
    rw [hl] at h
    cases e with
    | py e => cases e <;> simp [mainStatus, processStatus] at h
    | exit code =>
      simp only [mainStatus, processStatus] at h
      subst h
      exact absurd hl (lintAll_exit hexit)
  | ok outs =>
    rw [hl] at h
    simp only [mainStatus] at h
    cases hp : print outs.flatten with
    | error e => rw [hp] at h; cases e <;> simp [processStatus] at h
    | ok u =>
      rw [hp] at h
      simp only at h
      have hall := lintAll_forall quiet (by simp [quiet, dlookup]) hquiet hl
      have hign : ∀ s, quiet s → ignoreBadTemplate { args with template := s } ≠ .ok true := by
        intro s hs e
        rw [ignoreBadTemplate_quiet args s hs, hignore] at e
        cases e
      have hrel : List.Forall₂ (fun d out => (d.errors = [] → ∃ c, check d.template (some c) = .ok out) ∧
          (d.errors ≠ [] → out = d.errors)) ds outs := by
        refine (List.forall₂_iff_get.2 ⟨hall.length_eq, fun i h1 h2 => ?_⟩)
        obtain ⟨a, b, c⟩ := (List.forall₂_iff_get.1 hall).2 i h1 h2
        refine ⟨fun he => a he (htruthy _ (List.get_mem _ _) he), fun he => ?_⟩
        rcases c he with c | ⟨_, s, hs, hi⟩
        · exact c
        · exact absurd hi (hign s hs)
      have hlev : ∀ m ∈ outs.flatten, Levelled m := by
        intro m hm
        obtain ⟨out, ho, hm⟩ := List.mem_flatten.1 hm
        obtain ⟨i, hi, rfl⟩ := List.mem_iff_getElem.1 ho
        have hi' : i < ds.length := by rw [hrel.length_eq]; exact hi
        obtain ⟨a, b⟩ := (List.forall₂_iff_get.1 hrel).2 i hi' hi
        by_cases he : (ds.get ⟨i, hi'⟩).errors = []
        · obtain ⟨c, hc⟩ := a he
          exact hcheck _ _ _ hc m hm
        · have := b he
          simp only [List.get_eq_getElem] at this
          rw [this] at hm
          exact hdec _ (List.getElem_mem hi') m hm
      have hnil : outs.flatten = [] := by
        cases hc : getExitCode outs.flatten with
        | error e => rw [hc] at h; cases e <;> simp [processStatus] at h
        | ok n =>
          rw [hc] at h
          simp only [processStatus] at h
          subst h
          exact exitCode_zero hlev hc
      intro d hd
      obtain ⟨i, hi, rfl⟩ := List.mem_iff_getElem.1 hd
      have hi' : i < outs.length := by rw [← hrel.length_eq]; exact hi
      obtain ⟨a, b⟩ := (List.forall₂_iff_get.1 hrel).2 i hi hi'
      have hout : outs.get ⟨i, hi'⟩ = [] := by
        have := List.flatten_eq_nil_iff.1 hnil _ (List.get_mem outs ⟨i, hi'⟩)
        exact this
      rw [hout] at a b
      have he : ds[i].errors = [] := by
        by_contra he
        exact he (b he).symm
      exact ⟨he, a he⟩

-- the hypotheses are met by a run over one template
example : runCommand .script [] (c50Args [] false []) (fun _ _ => .ok []) (fun _ => .ok ())
    [⟨.dict [(.str "Resources", .none)], []⟩] = 0 := by rfl

/-- C51: a run that completes has, however it was started, a status whose bits say which severities were
found in any of the templates. -/
theorem C51_completed (launch : Launch) (objs : List RuleObj) (args : Sources)
    (check : Val → Option Coll → RunM (List Match)) (print : List Match → PyM Unit) (ds : List Decoded)
    (outs : List (List Match)) (hl : lintAll objs args check {} ds = .ok outs)
    (hp : print outs.flatten = .ok ()) (hid : ∀ out ∈ outs, ∀ m ∈ out, m.rule.id ≠ "") :
    ((runCommand launch objs args check print ds).testBit 3 = true ↔ ∃ out ∈ outs, ∃ m ∈ out, IsInfo m) ∧
    ((runCommand launch objs args check print ds).testBit 2 = true ↔ ∃ out ∈ outs, ∃ m ∈ out, IsWarning m) ∧
    ((runCommand launch objs args check print ds).testBit 1 = true ↔ ∃ out ∈ outs, ∃ m ∈ out, IsError m) ∧
    (∀ i, i ≠ 1 → i ≠ 2 → i ≠ 3 → (runCommand launch objs args check print ds).testBit i = false) := by
  obtain ⟨n, h1, h2⟩ := C09_exit_code outs.flatten (fun m hm => by
    obtain ⟨o, ho, hm⟩ := List.mem_flatten.1 hm
    exact hid o ho m hm)
  have : runCommand launch objs args check print ds = n := by
    unfold runCommand
    rw [hl]
    simp only [mainStatus, hp, h1]
    cases launch <;> rfl
  rw [this]
  have hf : ∀ P : Match → Prop, (∃ m ∈ outs.flatten, P m) ↔ ∃ out ∈ outs, ∃ m ∈ out, P m := by
    intro P
    constructor
    · rintro ⟨m, hm, hP⟩
      obtain ⟨o, ho, hm⟩ := List.mem_flatten.1 hm
      exact ⟨o, ho, m, hm, hP⟩
    · rintro ⟨o, ho, m, hm, hP⟩
      exact ⟨m, List.mem_flatten.2 ⟨o, ho, hm⟩, hP⟩
  rw [hf, hf, hf] at h2
  exact h2

example : runCommand .modul [] (c50Args [] false []) (fun _ _ => .ok [exMatch "a" "W1" 1, exMatch "a" "E1" 1])
    (fun _ => .ok ()) [⟨.dict [(.str "Resources", .none)], []⟩] = 6 := by rfl

/-- C51: when the script fails with an exception, while linting or while printing, the status is 1, which
no completed run has. -/
theorem C51_failure (objs : List RuleObj) (args : Sources)
    (check : Val → Option Coll → RunM (List Match)) (print : List Match → PyM Unit) (ds : List Decoded)
    (e : PyErr) (h : lintAll objs args check {} ds = .error (.py e) ∨
      ∃ outs, lintAll objs args check {} ds = .ok outs ∧ print outs.flatten = .error e) :
    runCommand .script objs args check print ds = 1 := by
  unfold runCommand
  rcases h with h | ⟨outs, h, hp⟩
  · rw [h]; cases e <;> rfl
  · rw [h]
    simp only [mainStatus, hp]
    cases e <;> rfl

example : runCommand .script [] (c50Args [] false []) (fun _ _ => .error (.py (.typeError "")))
    (fun _ => .ok ()) [⟨.dict [(.str "Resources", .none)], []⟩] = 1 := by rfl

end CfnLint
