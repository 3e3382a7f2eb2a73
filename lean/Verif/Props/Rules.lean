import Verif.Lemmas.Options
import Verif.Lemmas.Checks
/-
Properties C01-C05: rule enablement, the active rule set, rule options, isolation of crashing rules.
-/
namespace CfnLint
open Spec

/-! ## C01 -/

/-- C01: the decision is exactly the documented one, for all ids, flags and lists. -/
theorem C01_enabled_iff (r : RuleInfo) (e : Bool) (ign inc man : List String) :
    isEnabled r e (ign.map .str) (inc.map .str) (man.map .str) = .ok true ↔
      Enabled r.id r.experimental e ign inc man :=
  isEnabled_str_iff r e ign inc man

open Classical in
/-- C01: with string lists the decision never raises: it is `True` or `False`. -/
theorem C01_enabled_total (r : RuleInfo) (e : Bool) (ign inc man : List String) :
    isEnabled r e (ign.map .str) (inc.map .str) (man.map .str) =
      .ok (decide (Enabled r.id r.experimental e ign inc man)) := by
  obtain ⟨b, hb⟩ := isEnabled_str_ok r e ign inc man
  rw [hb]
  congr 1
  have := C01_enabled_iff r e ign inc man
  rw [hb] at this
  rw [Bool.eq_iff_iff, decide_eq_true_iff, ← this]
  simp

/-- C01: a mandatory entry beats every ignore entry. -/
theorem C01_mandatory_beats_ignore (r : RuleInfo) (e : Bool) (ign inc man : List String)
    (hx : r.experimental = false) (hi : ∃ p ∈ inc, IsPrefix p r.id)
    (hm : ∃ p ∈ man, IsPrefix p r.id) :
    isEnabled r e (ign.map .str) (inc.map .str) (man.map .str) = .ok true :=
  (C01_enabled_iff r e ign inc man).2 ⟨by simp [hx], hi, .inl hm⟩

/-- C01: empty ignore entries suppress nothing. -/
theorem C01_empty_ignore_inert (r : RuleInfo) (e : Bool) (ign inc man : List String) :
    isEnabled r e (ign.map .str) (inc.map .str) (man.map .str) =
    isEnabled r e ((ign.filter (· ≠ "")).map .str) (inc.map .str) (man.map .str) := by
  rw [isEnabled_str, isEnabled_str]
  congr 3
  rw [List.any_filter]
  congr 1
  congr 1
  funext p
  by_cases h : p = "" <;> simp [h]

open Classical in
/-- C01: a mandatory entry never resurrects an experimental or a not-included rule. -/
theorem C01_mandatory_no_resurrection (r : RuleInfo) (e : Bool) (ign inc man : List String)
    (h : (r.experimental = true ∧ e = false) ∨ ¬ ∃ p ∈ inc, IsPrefix p r.id) :
    isEnabled r e (ign.map .str) (inc.map .str) (man.map .str) = .ok false := by
  rw [C01_enabled_total]
  congr 1
  rw [decide_eq_false_iff_not]
  rintro ⟨h1, h2, _⟩
  rcases h with ⟨hx, he⟩ | h
  · rw [h1 hx] at he; cases he
  · exact h h2

-- the decision distinguishes: E3012 with ignore E3 is off, and on again when E3012 is mandatory
example : isEnabled { id := "E3012" } false [.str "E3"] [.str "W", .str "E"] [] = .ok false := by decide
example : isEnabled { id := "E3012" } false [.str "E3"] [.str "W", .str "E"] [.str "E3012"] = .ok true := by
  decide
example : isEnabled { id := "E3012" } false [.str ""] [.str "W", .str "E"] [] = .ok true := by decide
example : isEnabled { id := "I3012" } false [] [.str "W", .str "E"] [.str "I"] = .ok false := by decide

/-! ## C02 -/

open Classical in
/-- C02: after any history from an empty collection the active rules are exactly the registered ones
enabled under the last configuration, in registration order and with multiplicity. -/
theorem C02_active_rules (objs : List RuleObj) (s0 : Conf) (ops : List Op) (c0 c : Coll)
    (h0 : Coll.init objs s0.toCfg = .ok c0) (h : c0.runOps (ops.map Op.toOp) = .ok c) :
    c.rules = (registered ops).filter
      (fun i => decide (EnabledAt objs (lastConf s0 ops) i)) := by
  obtain ⟨a1, a2, a3, a4⟩ := configure_ok h0
  obtain ⟨b1, b2, b3, b4⟩ := runOps_ok (s := s0) a4 a2 h
  rw [b4, b1, a1, List.nil_append]
  congr 1
  funext i
  rw [b2, Bool.eq_iff_iff, enabledB_stored, decide_eq_true_iff]
  exact enabledAt_congr (b3.trans a3) _ _

open Classical in
/-- C02: two histories with the same registrations and the same final configuration activate the same
rules, whatever configurations came before. -/
theorem C02_history_independent (objs : List RuleObj) (s0 s0' : Conf) (ops ops' : List Op)
    (c0 c c0' c' : Coll)
    (h0 : Coll.init objs s0.toCfg = .ok c0) (h : c0.runOps (ops.map Op.toOp) = .ok c)
    (h0' : Coll.init objs s0'.toCfg = .ok c0') (h' : c0'.runOps (ops'.map Op.toOp) = .ok c')
    (hr : registered ops = registered ops') (hc : lastConf s0 ops = lastConf s0' ops') :
    c.rules = c'.rules := by
  rw [C02_active_rules _ _ _ _ _ h0 h, C02_active_rules _ _ _ _ _ h0' h', hr, hc]

-- a history that registers, re-configures, extends and re-configures again
example :
    let objs : List RuleObj := [{ info := { id := "E1001" } }, { info := { id := "W2001" } },
      { info := { id := "I3001" } }]
    let ops : List Op := [.register 0, .configure { ignore := ["E1"] }, .extend [1, 2, 1],
      .configure { incl := ["I"], ignore := ["W"] }]
    ((Coll.init objs (Conf.toCfg {})).bind (·.runOps (ops.map Op.toOp))).map Coll.rules
      = .ok [0, 2] := by decide

/-! ## C03 -/

open Classical in
/-- C03: `W`/`E` rules are on by default whatever the include list says. -/
theorem C03_default_on (objs : List RuleObj) (s0 : Conf) (ops : List Op) (c0 c : Coll)
    (h0 : Coll.init objs s0.toCfg = .ok c0) (h : c0.runOps (ops.map Op.toOp) = .ok c)
    (i : Nat) (r : RuleObj) (hr : objs[i]? = some r) (hreg : i ∈ registered ops)
    (hx : r.info.experimental = false) (hid : IsPrefix "W" r.info.id ∨ IsPrefix "E" r.info.id) :
    i ∈ c.rules ↔
      ((∃ p ∈ (lastConf s0 ops).ignore, p ≠ "" ∧ IsPrefix p r.info.id) →
        ∃ p ∈ (lastConf s0 ops).mandatory, IsPrefix p r.info.id) := by
  rw [C02_active_rules _ _ _ _ _ h0 h, List.mem_filter, decide_eq_true_iff]
  unfold EnabledAt Enabled
  constructor
  · rintro ⟨_, r', hr', _, _, h1⟩ h2
    rw [hr] at hr'; injection hr' with hr'; subst hr'
    rcases h1 with h1 | h1
    · exact h1
    · exact absurd h2 h1
  · intro h1
    refine ⟨hreg, r, hr, by simp [hx], ?_, ?_⟩
    · rcases hid with h | h
      · exact ⟨"W", by simp, h⟩
      · exact ⟨"E", by simp, h⟩
    · by_cases h2 : ∃ p ∈ (lastConf s0 ops).ignore, p ≠ "" ∧ IsPrefix p r.info.id
      · exact .inl (h1 h2)
      · exact .inr h2

open Classical in
/-- C03: a rule whose id starts with neither `W` nor `E` is inactive unless explicitly included. -/
theorem C03_opt_in (objs : List RuleObj) (s0 : Conf) (ops : List Op) (c0 c : Coll)
    (h0 : Coll.init objs s0.toCfg = .ok c0) (h : c0.runOps (ops.map Op.toOp) = .ok c)
    (i : Nat) (r : RuleObj) (hr : objs[i]? = some r)
    (hW : ¬ IsPrefix "W" r.info.id) (hE : ¬ IsPrefix "E" r.info.id)
    (hinc : ¬ ∃ p ∈ (lastConf s0 ops).incl, IsPrefix p r.info.id) : i ∉ c.rules := by
  rw [C02_active_rules _ _ _ _ _ h0 h, List.mem_filter, decide_eq_true_iff]
  rintro ⟨_, r', hr', _, ⟨p, hp, hp'⟩, _⟩
  rw [hr] at hr'; injection hr' with hr'; subst hr'
  simp only [List.mem_append, List.mem_cons, List.not_mem_nil, or_false] at hp
  rcases hp with hp | rfl | rfl
  · exact hinc ⟨p, hp, hp'⟩
  · exact hW hp'
  · exact hE hp'

-- with an empty include list the E and W rules run, the I rule does not
example :
    let objs : List RuleObj := [{ info := { id := "E1001" } }, { info := { id := "W2001" } },
      { info := { id := "I3001" } }]
    ((Coll.init objs (Conf.toCfg {})).bind (·.runOps ([Op.extend [0, 1, 2]].map Op.toOp))).map
      Coll.rules = .ok [0, 1] := by decide

/-! ## C04 -/

/-- The full C04 statement: what a rule's options are after configuring depends on the configuration,
not on what the (cached) collection was configured with before. -/
def C04_statement : Prop :=
  ∀ (objs : List RuleObj) (s0 : Conf) (ops : List Op) (cf : Conf) (a b a' b' : Coll),
    Coll.init objs s0.toCfg = .ok a → a.runOps ((ops ++ [Op.configure cf]).map Op.toOp) = .ok a' →
    Coll.init objs cf.toCfg = .ok b → b.runOps ([Op.extend (registered ops)].map Op.toOp) = .ok b' →
    ∀ i ∈ a'.rules, a'.objs[i]? = b'.objs[i]?

/-- Witness: a rule with one Boolean option defaulting to true. -/
def c04Objs : List RuleObj :=
  [{ info := { id := "E3012" },
     defs := [("strict", ⟨.boolean, .bool true⟩)],
     config := [("strict", .bool true)] }]
/-- Witness: the configuration in force for the first template. -/
def c04Conf1 : Conf := { configureRules := [("E3012", .dict [(.str "strict", .bool false)])] }

/-- C04 does not hold: a rule whose options were set for an earlier template keeps them when the next
template's configuration does not mention the rule. -/
theorem C04_options_violated : ¬ C04_statement := by
  intro h
  have := h c04Objs {} [.register 0, .configure c04Conf1] {} _ _ _ _ rfl rfl rfl rfl 0 (by decide)
  revert this
  decide

/-- C04, restricted to rules mentioned in the configuration in force: from any state of the collection,
after `configure` every active rule for which options are supplied has, for each of its options, the
supplied value (converted to the option's type) or the default.
Missing for the full C04: rules that are not mentioned, see `C04_not_mentioned`. -/
theorem C04_options_partial (c c' : Coll) (cfg : Cfg) (h : c.configure cfg = .ok c')
    (i : Nat) (r : RuleObj) (opts : List (Key × Val))
    (hr : c.objs[i]? = some r) (act : i ∈ c'.rules)
    (listed : dlookup r.info.id cfg.configureRules = some (.dict opts))
    (hd : (r.defs.map Prod.fst).Nodup) (ho : (opts.map Prod.fst).Nodup) :
    ∃ r', c'.objs[i]? = some r' ∧ r'.info = r.info ∧ r'.defs = r.defs ∧
      ∀ k ∈ r.defs.map Prod.fst, dlookup k r'.config = expectedOption r.defs opts k := by
  have hI := configure_ok h
  unfold Coll.configure at h
  have hw : OptWF { c with rules := [], cfg := { cfg with incl := addDefaults cfg.incl } } i r opts :=
    ⟨⟨r, hr, rfl, rfl⟩, hd, ho, listed⟩
  have hall := registerAll_ok h
  simp only [List.nil_append] at hall
  rw [hall.2.2.2, List.mem_filter] at act
  have hh := hasOptions_all hw h (.inr act)
  obtain ⟨⟨r', h1, h2, h3⟩, _⟩ := optWF_all hw h
  exact ⟨r', h1, h2, h3, fun k hk => by rw [← h3] at hk ⊢; exact hh r' h1 k hk⟩

/-- C04, the exact behaviour of the rest: a rule that the configuration does not mention keeps whatever
options it had before, so it has its defaults as long as no earlier configuration mentioned it. -/
theorem C04_not_mentioned (c c' : Coll) (cfg : Cfg) (h : c.configure cfg = .ok c')
    (i : Nat) (r : RuleObj) (hr : c.objs[i]? = some r)
    (hn : dlookup r.info.id cfg.configureRules = none) : c'.objs[i]? = some r := by
  unfold Coll.configure at h
  exact unmentioned_all (c := { c with rules := [], cfg := { cfg with incl := addDefaults cfg.incl } })
    hr hn h

-- a rule with three options, two of them supplied (one in the wrong case)
example : ((Coll.init
      [{ info := { id := "E3012" },
         defs := [("strict", ⟨.boolean, .bool false⟩), ("limit", ⟨.integer, .int 3⟩),
           ("name", ⟨.string, .str "x"⟩)], config := [] }] {}).bind (fun c =>
      (c.runOps [.register 0, .configure { configureRules :=
        [("E3012", .dict [(.str "strict", .str "True"), (.str "limit", .str "10"),
          (.str "other", .int 1)])] }]))).map (fun c => c.objs.map RuleObj.config) =
    .ok [[("strict", .bool true), ("limit", .int 10), ("name", .str "x")]] := by decide

/-! ## C05 -/

/-- The full C05 statement: whatever configuration is in force, running a sequence of checks yields the
concatenation of their contributions. -/
def C05_statement : Prop :=
  ∀ (cfg : Conf) (filename : String) (checks : List (String × PyM (List Match))),
    ∃ out, runChecksSeq (storedCfg cfg) filename checks [] = .ok out ∧ RunOf filename checks out

/-- C05 does not hold when E0002 is ignored: the crash of one rule aborts the whole run and the finding
of the other rule is lost. -/
theorem C05_isolation_violated : ¬ C05_statement := by
  intro h
  obtain ⟨out, h1, _⟩ := h { ignore := ["E0002"] } "t.yaml"
    [("E3001", .ok [{ line := 3, col := 1, lineEnd := 3, colEnd := 2, filename := "t.yaml",
                      rule := { id := "E3001" }, message := "m" }]), ("E3002", .error (.keyError "Type"))]
  revert h1
  generalize hx : runChecksSeq _ _ _ _ = x
  have : x = .error (.typeError "'NoneType' object is not iterable") := by rw [← hx]; decide
  rw [this]; intro h1; cases h1

/-- C05 whenever E0002 is enabled: no check, whatever it raises, hides the findings of another one. -/
theorem C05_isolation_partial (cfg : Cfg) (hE : isRuleEnabled cfg { id := "E0002" } = .ok true)
    (filename : String) (checks : List (String × PyM (List Match))) :
    ∃ out, runChecksSeq cfg filename checks [] = .ok out ∧ RunOf filename checks out := by
  obtain ⟨out, h1, h2⟩ := runChecksSeq_enabled cfg hE filename checks []
  exact ⟨out, by simpa using h1, h2⟩

/-- C05, E0002 disabled: the run either completes with all contributions, or some check raised an
exception other than a template attribute error. -/
theorem C05_isolation_no_crash (cfg : Cfg) (filename : String)
    (checks : List (String × PyM (List Match)))
    (h : ∀ rid chk, (rid, chk) ∈ checks →
      (∃ ms, chk = .ok ms) ∨ ∃ t, chk = .error (.templateAttributeError t)) :
    ∃ out, runChecksSeq cfg filename checks [] = .ok out ∧ RunOf filename checks out := by
  obtain ⟨out, h1, h2⟩ := runChecksSeq_nocrash cfg filename checks h []
  exact ⟨out, by simpa using h1, h2⟩

/-- C05: a consequence spelled out: each finding of a check that did not raise is in the output. -/
theorem C05_findings_kept (cfg : Cfg) (hE : isRuleEnabled cfg { id := "E0002" } = .ok true)
    (filename : String) (checks : List (String × PyM (List Match))) (rid : String) (ms : List Match)
    (hc : (rid, .ok ms) ∈ checks) :
    ∃ out, runChecksSeq cfg filename checks [] = .ok out ∧ ∀ m ∈ ms, m ∈ out := by
  obtain ⟨out, h1, h2⟩ := C05_isolation_partial cfg hE filename checks
  exact ⟨out, h1, fun m hm => runOf_mem h2 hc m hm⟩

-- E0002 is enabled in the default configuration, so the hypothesis is met
example : isRuleEnabled (storedCfg {}) { id := "E0002" } = .ok true := by decide
-- a crash between two findings
example : (runChecksSeq (storedCfg {}) "t"
    [("E1", .ok [ruleErrorMatch "t" "a" .recursionError]), ("E2", .error (.keyError "k")),
     ("E3", .error (.templateAttributeError "x")),
     ("E4", .ok [ruleErrorMatch "t" "b" .recursionError])] []).map (fun l => l.map (·.message)) =
    .ok ["Unknown exception while processing rule a: maximum recursion depth exceeded",
      "Unknown exception while processing rule E2: k",
      "Unknown exception while processing rule b: maximum recursion depth exceeded"] := by decide

end CfnLint
