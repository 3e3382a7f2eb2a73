import Mathlib.Data.String.Basic
import Mathlib.Order.Basic
import Verif.Model.Core
import Verif.Spec.Core
import Verif.Lemmas.Collection
namespace CfnLint
open Spec

theorem toUpper_toNat (c : Char) : c.toUpper.val.toNat =
    if 97 ≤ c.val.toNat ∧ c.val.toNat ≤ 122 then c.val.toNat - 32 else c.val.toNat := by
  unfold Char.toUpper
  have ha : 'a'.val.toNat = 97 := rfl
  have hz : 'z'.val.toNat = 122 := rfl
  have hx : ('A'.val - 'a'.val).toNat = 4294967264 := by decide
  split
  · next h =>
    rw [UInt32.le_iff_toNat_le, UInt32.le_iff_toNat_le, ha, hz] at h
    rw [if_pos h, UInt32.toNat_add, hx]
    omega
  · next h =>
    rw [UInt32.le_iff_toNat_le, UInt32.le_iff_toNat_le, ha, hz] at h
    rw [if_neg h]

theorem char_eq_iff (a b : Char) : a = b ↔ a.val.toNat = b.val.toNat := by
  constructor
  · intro h; rw [h]
  · intro h; exact Char.ext (UInt32.toNat_inj.1 h)

theorem toUpper_I (c : Char) : c.toUpper = 'I' ↔ c = 'I' ∨ c = 'i' := by
  rw [char_eq_iff, char_eq_iff, char_eq_iff, toUpper_toNat]
  have h1 : 'I'.val.toNat = 73 := rfl
  have h2 : 'i'.val.toNat = 105 := rfl
  rw [h1, h2]; split <;> omega

theorem toUpper_E (c : Char) : c.toUpper = 'E' ↔ c = 'E' ∨ c = 'e' := by
  rw [char_eq_iff, char_eq_iff, char_eq_iff, toUpper_toNat]
  have h1 : 'E'.val.toNat = 69 := rfl
  have h2 : 'e'.val.toNat = 101 := rfl
  rw [h1, h2]; split <;> omega

theorem toUpper_W (c : Char) : c.toUpper = 'W' ↔ c = 'W' ∨ c = 'w' := by
  rw [char_eq_iff, char_eq_iff, char_eq_iff, toUpper_toNat]
  have h1 : 'W'.val.toNat = 87 := rfl
  have h2 : 'w'.val.toNat = 119 := rfl
  rw [h1, h2]; split <;> omega

/-- The severity decision in terms of the specification. -/
theorem severity_cases (m : Match) (h : m.rule.id ≠ "") :
    (severity m.rule = .ok .informational ∧ IsInfo m ∧ ¬ IsWarning m ∧ ¬ IsError m) ∨
    (severity m.rule = .ok .warning ∧ ¬ IsInfo m ∧ IsWarning m ∧ ¬ IsError m) ∨
    (severity m.rule = .ok .error ∧ ¬ IsInfo m ∧ ¬ IsWarning m ∧ IsError m) ∨
    (severity m.rule = .ok .unknown ∧ ¬ IsInfo m ∧ ¬ IsWarning m ∧ ¬ IsError m) := by
  unfold severity IsInfo IsWarning IsError HasLetter
  cases hl : m.rule.id.toList with
  | nil => exact absurd (String.toList_eq_nil_iff.1 hl) h
  | cons c rest =>
    simp only [toUpper_I, toUpper_E, toUpper_W, List.cons.injEq]
    by_cases h1 : c = 'I' ∨ c = 'i'
    · left; rcases h1 with rfl | rfl <;> simp
    · by_cases h2 : c = 'E' ∨ c = 'e'
      · right; right; left; rcases h2 with rfl | rfl <;> simp
      · by_cases h3 : c = 'W' ∨ c = 'w'
        · right; left; rcases h3 with rfl | rfl <;> simp
        · right; right; right
          simp [h1, h2, h3]

theorem exitCodeLoop_ok : ∀ (ms : List Match) (code : Nat), (∀ m ∈ ms, m.rule.id ≠ "") →
    ∃ n, exitCodeLoop ms code = .ok n ∧ ∀ i, n.testBit i = true ↔ (code.testBit i = true ∨
      (i = 3 ∧ ∃ m ∈ ms, IsInfo m) ∨ (i = 2 ∧ ∃ m ∈ ms, IsWarning m) ∨
      (i = 1 ∧ ∃ m ∈ ms, IsError m)) := by
  intro ms
  induction ms with
  | nil => intro code _; exact ⟨code, rfl, by simp⟩
  | cons m ms ih =>
    intro code h
    have h8 : ∀ i, (8 : Nat).testBit i = true ↔ i = 3 := fun i => by
      rw [show (8 : Nat) = 2 ^ 3 from rfl, Nat.testBit_two_pow]; simp [eq_comm]
    have h4 : ∀ i, (4 : Nat).testBit i = true ↔ i = 2 := fun i => by
      rw [show (4 : Nat) = 2 ^ 2 from rfl, Nat.testBit_two_pow]; simp [eq_comm]
    have h2 : ∀ i, (2 : Nat).testBit i = true ↔ i = 1 := fun i => by
      rw [show (2 : Nat) = 2 ^ 1 from rfl, Nat.testBit_two_pow]; simp [eq_comm]
    have hrest := fun x hx => h x (List.mem_cons_of_mem _ hx)
    unfold exitCodeLoop
    rcases severity_cases m (h m List.mem_cons_self) with ⟨hs, a, b, c⟩ | ⟨hs, a, b, c⟩ |
      ⟨hs, a, b, c⟩ | ⟨hs, a, b, c⟩ <;> rw [hs] <;> simp only
    · obtain ⟨n, g1, g2⟩ := ih (code ||| 8) hrest
      refine ⟨n, g1, fun i => ?_⟩
      rw [g2, Nat.testBit_or, Bool.or_eq_true, h8]
      simp only [List.mem_cons, exists_eq_or_imp, a, b, c, true_or, false_or, and_true]
      clear * -; grind
    · obtain ⟨n, g1, g2⟩ := ih (code ||| 4) hrest
      refine ⟨n, g1, fun i => ?_⟩
      rw [g2, Nat.testBit_or, Bool.or_eq_true, h4]
      simp only [List.mem_cons, exists_eq_or_imp, a, b, c, true_or, false_or, and_true]
      clear * -; grind
    · obtain ⟨n, g1, g2⟩ := ih (code ||| 2) hrest
      refine ⟨n, g1, fun i => ?_⟩
      rw [g2, Nat.testBit_or, Bool.or_eq_true, h2]
      simp only [List.mem_cons, exists_eq_or_imp, a, b, c, true_or, false_or, and_true]
      clear * -; grind
    · obtain ⟨n, g1, g2⟩ := ih code hrest
      refine ⟨n, g1, fun i => ?_⟩
      rw [g2]
      simp only [List.mem_cons, exists_eq_or_imp, a, b, c, false_or]

/-! ### sorting -/

theorem sortKeyLe_iff (a b : Match) : sortKeyLe a b = true ↔ ReportLE a b := by
  unfold sortKeyLe ReportLE
  simp only [Bool.or_eq_true, Bool.and_eq_true, decide_eq_true_eq, beq_iff_eq]

theorem sortKeyLe_trans (a b c : Match) :
    sortKeyLe a b = true → sortKeyLe b c = true → sortKeyLe a c = true := by
  simp only [sortKeyLe_iff]
  unfold ReportLE
  rintro (h | ⟨h1, h | ⟨h2, h3⟩⟩) (g | ⟨g1, g | ⟨g2, g3⟩⟩)
  · exact .inl (lt_trans h g)
  · exact .inl (g1 ▸ h)
  · exact .inl (g1 ▸ h)
  · exact .inl (h1 ▸ g)
  · exact .inr ⟨h1.trans g1, .inl (lt_trans h g)⟩
  · exact .inr ⟨h1.trans g1, .inl (g2 ▸ h)⟩
  · exact .inl (h1 ▸ g)
  · exact .inr ⟨h1.trans g1, .inl (h2 ▸ g)⟩
  · exact .inr ⟨h1.trans g1, .inr ⟨h2.trans g2, le_trans h3 g3⟩⟩

theorem sortKeyLe_total (a b : Match) : (sortKeyLe a b || sortKeyLe b a) = true := by
  rw [Bool.or_eq_true, sortKeyLe_iff, sortKeyLe_iff]
  unfold ReportLE
  rcases lt_trichotomy a.filename b.filename with h | h | h
  · exact .inl (.inl h)
  · rcases lt_trichotomy a.line b.line with g | g | g
    · exact .inl (.inr ⟨h, .inl g⟩)
    · rcases le_total a.rule.id b.rule.id with k | k
      · exact .inl (.inr ⟨h, .inr ⟨g, k⟩⟩)
      · exact .inr (.inr ⟨h.symm, .inr ⟨g.symm, k⟩⟩)
    · exact .inr (.inr ⟨h.symm, .inl g⟩)
  · exact .inr (.inl h)

end CfnLint

namespace CfnLint
open Spec

theorem exitCode_total (ms : List Match) (h : ∀ m ∈ ms, m.rule.id ≠ "") :
    ∃ n, getExitCode ms = .ok n ∧ ∀ i, n.testBit i = true ↔
      ((i = 3 ∧ ∃ m ∈ ms, IsInfo m) ∨ (i = 2 ∧ ∃ m ∈ ms, IsWarning m) ∨
      (i = 1 ∧ ∃ m ∈ ms, IsError m)) := by
  obtain ⟨n, h1, h2⟩ := exitCodeLoop_ok ms 0 h
  exact ⟨n, h1, fun i => by rw [h2]; simp⟩

theorem mergeSort_filter_same (ms : List Match) (x : Match) :
    (ms.mergeSort sortKeyLe).filter (SamePlace x) = ms.filter (SamePlace x) := by
  have hs : (ms.filter (SamePlace x)).Pairwise (fun a b => sortKeyLe a b = true) := by
    rw [List.pairwise_filter]
    refine List.pairwise_of_forall ?_
    intro a b ha hb
    rw [sortKeyLe_iff]
    simp only [SamePlace, Bool.and_eq_true, beq_iff_eq] at ha hb
    exact .inr ⟨ha.1.symm.trans hb.1, .inr ⟨ha.2.1.symm.trans hb.2.1,
      le_of_eq (ha.2.2.symm.trans hb.2.2)⟩⟩
  have h1 := List.sublist_mergeSort sortKeyLe_trans sortKeyLe_total hs List.filter_sublist
  have h2 := h1.filter (SamePlace x)
  rw [List.filter_filter] at h2
  simp only [Bool.and_self] at h2
  refine (h2.eq_of_length ?_).symm
  exact ((List.mergeSort_perm ms sortKeyLe).filter _).length_eq.symm

/-! ### mandatory checks -/

theorem includeLoop_val (id : String) : ∀ (l : List Val) (acc b : Bool),
    includeLoop id acc l = .ok b → (acc = true ∨ ∃ p, Val.str p ∈ l ∧ startsWith id p = true) →
    b = true := by
  intro l
  induction l with
  | nil => intro acc b h h'; simp [includeLoop] at h; subst h; simpa using h'
  | cons x xs ih =>
    intro acc b h h'
    unfold includeLoop at h
    cases hx : startsWithV id x with
    | error e => rw [hx] at h; cases h
    | ok c =>
      rw [hx] at h
      refine ih _ _ h ?_
      rcases h' with h' | ⟨p, hp, hs⟩
      · left; simp [h']
      · rcases List.mem_cons.1 hp with rfl | hp
        · simp [startsWithV, hs] at hx; subst hx; simp
        · exact .inr ⟨p, hp, hs⟩

theorem mandatoryLoop_val (id : String) : ∀ (l : List Val) (b : Bool),
    mandatoryLoop id l = .ok b → (∃ p, Val.str p ∈ l ∧ startsWith id p = true) → b = true := by
  intro l
  induction l with
  | nil => intro b h h'; obtain ⟨p, hp, _⟩ := h'; cases hp
  | cons x xs ih =>
    intro b h h'
    unfold mandatoryLoop at h
    cases hx : startsWithV id x with
    | error e => rw [hx] at h; cases h
    | ok c =>
      rw [hx] at h
      cases c with
      | true => simpa using h
      | false =>
        simp only [Bool.false_eq_true, if_false] at h
        refine ih _ h ?_
        obtain ⟨p, hp, hs⟩ := h'
        rcases List.mem_cons.1 hp with rfl | hp
        · simp [startsWithV, hs] at hx
        · exact ⟨p, hp, hs⟩

theorem isEnabled_mandatory {r : RuleInfo} {e : Bool} {ign inc man : List Val} {b : Bool}
    (h : isEnabled r e ign inc man = .ok b) (hx : r.experimental = false)
    (hi : ∃ p, Val.str p ∈ inc ∧ startsWith r.id p = true)
    (hm : ∃ p, Val.str p ∈ man ∧ startsWith r.id p = true) : b = true := by
  unfold isEnabled at h
  simp only [hx, Bool.false_and, Bool.false_eq_true, if_false] at h
  cases h1 : includeLoop r.id false inc with
  | error e => rw [h1] at h; cases h
  | ok c =>
    have := includeLoop_val _ _ _ _ h1 (.inr hi)
    subst this
    rw [h1] at h
    cases h2 : mandatoryLoop r.id man with
    | error e => rw [h2] at h; cases h
    | ok c =>
      have := mandatoryLoop_val _ _ _ h2 hm
      subst this
      rw [h2] at h
      simpa using h

/-- Registration decided the enablement of the rule without an exception. -/
theorem register'_decided {c c' : Coll} {i : Nat} (h : c.register' i = .ok c') {r : RuleObj}
    (hr : c.objs[i]? = some r) : ∃ b, isRuleEnabled c.cfg r.info = .ok b := by
  unfold Coll.register' at h
  rw [hr] at h
  simp only at h
  cases h2 : isRuleEnabled c.cfg r.info with
  | error e => rw [h2] at h; cases h
  | ok b => exact ⟨b, rfl⟩

theorem registerAll_decided : ∀ {is : List Nat} {c c' : Coll}, c.registerAll is = .ok c' →
    ∀ i ∈ is, ∀ info, (c.objs.map RuleObj.info)[i]? = some info →
      ∃ b, isRuleEnabled c.cfg info = .ok b := by
  intro is
  induction is with
  | nil => intro c c' _ i hi; cases hi
  | cons j is ih =>
    intro c c' h i hi info hinfo
    unfold Coll.registerAll at h
    cases h1 : c.register' j with
    | error e => rw [h1] at h; cases h
    | ok c1 =>
      rw [h1] at h
      simp only at h
      obtain ⟨_, a2, a3, _⟩ := register'_ok h1
      rcases List.mem_cons.1 hi with rfl | hi
      · rw [List.getElem?_map] at hinfo
        cases hr : c.objs[i]? with
        | none => rw [hr] at hinfo; cases hinfo
        | some r =>
          rw [hr] at hinfo
          simp only [Option.map_some, Option.some.injEq] at hinfo
          subst hinfo
          exact register'_decided h1 hr
      · rw [← a2]
        exact ih h i hi info (a3 ▸ hinfo)

theorem extend_decided : ∀ {is : List Nat} {c c' : Coll}, c.extend is = .ok c' →
    ∀ i ∈ is, ∀ info, (c.objs.map RuleObj.info)[i]? = some info →
      ∃ b, isRuleEnabled c.cfg info = .ok b := by
  intro is
  induction is with
  | nil => intro c c' _ i hi; cases hi
  | cons j is ih =>
    intro c c' h i hi info hinfo
    unfold Coll.extend at h
    cases h1 : c.register j with
    | error e => rw [h1] at h; cases h
    | ok c1 =>
      rw [h1] at h
      simp only at h
      unfold Coll.register at h1
      obtain ⟨_, a2, a3, _⟩ := register'_ok h1
      simp only at a2 a3
      rcases List.mem_cons.1 hi with rfl | hi
      · rw [List.getElem?_map] at hinfo
        cases hr : c.objs[i]? with
        | none => rw [hr] at hinfo; cases hinfo
        | some r =>
          rw [hr] at hinfo
          simp only [Option.map_some, Option.some.injEq] at hinfo
          subst hinfo
          exact register'_decided (c := { c with all := c.all ++ [i] }) h1 hr
      · rw [← a2]
        exact ih h i hi info (a3 ▸ hinfo)

/-- What is known of the collection used for a template: it holds the rules of the program, its active
rules are the enabled ones, and enablement was decided without an exception for each. -/
structure CollOK (objs : List RuleObj) (cfg : Cfg) (c : Coll) : Prop where
  all : c.all = List.range objs.length
  infos : c.objs.map RuleObj.info = objs.map RuleObj.info
  cfg : c.cfg = { cfg with incl := addDefaults cfg.incl }
  inv : CollInv c
  decided : ∀ i < objs.length, ∀ info, (objs.map RuleObj.info)[i]? = some info →
      ∃ b, isRuleEnabled c.cfg info = .ok b

theorem getRules_ok {objs : List RuleObj} {cfg : Cfg} {c : Coll} (h : getRules objs cfg = .ok c) :
    CollOK objs cfg c := by
  unfold getRules Coll.init at h
  cases h1 : Coll.configure { objs := objs } cfg with
  | error e => rw [h1] at h; cases h
  | ok c1 =>
    rw [h1] at h
    simp only at h
    obtain ⟨a1, a2, a3, a4⟩ := configure_ok h1
    obtain ⟨b1, b2, b3, b4⟩ := extend_ok a4 h
    refine ⟨by rw [b1, a1]; rfl, b3.trans a3, b2.trans a2, b4, ?_⟩
    intro i hi info hinfo
    rw [b2]
    exact extend_decided h i (List.mem_range.2 hi) info (a3 ▸ hinfo)

theorem reconfigure_ok {objs : List RuleObj} {cfg cfg0 : Cfg} {c0 c : Coll}
    (h0 : CollOK objs cfg0 c0) (h : c0.configure cfg = .ok c) : CollOK objs cfg c := by
  obtain ⟨a1, a2, a3, a4⟩ := configure_ok h
  refine ⟨a1.trans h0.all, a3.trans h0.infos, a2, a4, ?_⟩
  intro i hi info hinfo
  unfold Coll.configure at h
  rw [a2]
  refine registerAll_decided h i ?_ info ?_
  · rw [h0.all]; exact List.mem_range.2 hi
  · rw [h0.infos]; exact hinfo

/-- The states the loop over the templates can be in. -/
inductive Reach (objs : List RuleObj) (args : Sources) : LintState → Prop
  | init : Reach objs args {}
  | step {st d st' t c es} : Reach objs args st →
      getTemplateRules objs args st d = .ok (st', t, c, es) → Reach objs args st'

/-- The outcome of `getTemplateRules` when a collection is returned. -/
theorem getTemplateRules_some {objs : List RuleObj} {args : Sources} {st : LintState} {d : Decoded}
    {st' : LintState} {t : Val} {c : Coll} {es : List Match}
    (h : getTemplateRules objs args st d = .ok (st', t, some c, es)) :
    ∃ targs cfg, setTemplateArgs d.template = .ok targs ∧
      currentCfg { args with template := targs } = .ok cfg ∧
      st' = { templateArgs := targs, cached := some c } ∧ t = d.template ∧ es = [] ∧ d.errors = [] ∧
      (getRules objs cfg = .ok c ∨ ∃ c0, st.cached = some c0 ∧ c0.configure cfg = .ok c) := by
  unfold getTemplateRules at h
  cases h1 : ignoreBadTemplate (sourcesWith args st) with
  | error e => rw [h1] at h; cases h
  | ok ib =>
    rw [h1] at h
    simp only at h
    cases h2 : d.errors with
    | cons e es =>
      rw [h2] at h
      simp only at h
      split at h <;> simp at h
    | nil =>
      rw [h2] at h
      simp only at h
      cases h3 : setTemplateArgs d.template with
      | error e => rw [h3] at h; cases h
      | ok targs =>
        rw [h3] at h
        simp only at h
        cases h4 : currentCfg { args with template := targs } with
        | error e => rw [h4] at h; cases h
        | ok cfg =>
          rw [h4] at h
          simp only at h
          cases hc : st.cached with
          | none =>
            rw [hc] at h
            simp only at h
            cases h5 : getRules objs cfg with
            | error e => rw [h5] at h; cases h
            | ok c' =>
              rw [h5] at h
              simp only [Except.ok.injEq, Prod.mk.injEq, Option.some.injEq] at h
              obtain ⟨rfl, rfl, rfl, rfl⟩ := h
              exact ⟨targs, cfg, rfl, h4, rfl, rfl, rfl, rfl, .inl h5⟩
          | some c0 =>
            rw [hc] at h
            simp only at h
            by_cases hem : c0.rules.isEmpty = true
            · rw [if_pos hem] at h
              cases h5 : getRules objs cfg with
              | error e => rw [h5] at h; cases h
              | ok c' =>
                rw [h5] at h
                simp only [Except.ok.injEq, Prod.mk.injEq, Option.some.injEq] at h
                obtain ⟨rfl, rfl, rfl, rfl⟩ := h
                exact ⟨targs, cfg, rfl, h4, rfl, rfl, rfl, rfl, .inl h5⟩
            · rw [if_neg hem] at h
              cases h5 : c0.configure cfg with
              | error e => rw [h5] at h; cases h
              | ok c' =>
                rw [h5] at h
                simp only [Except.ok.injEq, Prod.mk.injEq, Option.some.injEq] at h
                obtain ⟨rfl, rfl, rfl, rfl⟩ := h
                exact ⟨targs, cfg, rfl, h4, rfl, rfl, rfl, rfl, .inr ⟨c0, rfl, h5⟩⟩

theorem getTemplateRules_none {objs : List RuleObj} {args : Sources} {st : LintState} {d : Decoded}
    {st' : LintState} {t : Val} {es : List Match}
    (h : getTemplateRules objs args st d = .ok (st', t, none, es)) : st' = st := by
  unfold getTemplateRules at h
  cases h1 : ignoreBadTemplate (sourcesWith args st) with
  | error e => rw [h1] at h; cases h
  | ok ib =>
    rw [h1] at h
    simp only at h
    cases h2 : d.errors with
    | cons e es =>
      rw [h2] at h
      simp only at h
      split at h <;> (simp at h; exact h.1.symm)
    | nil =>
      rw [h2] at h
      simp only at h
      cases h3 : setTemplateArgs d.template with
      | error e => rw [h3] at h; cases h
      | ok targs =>
        rw [h3] at h
        simp only at h
        cases h4 : currentCfg { args with template := targs } with
        | error e => rw [h4] at h; cases h
        | ok cfg =>
          rw [h4] at h
          simp only at h
          split at h
          · cases h
          · simp at h

theorem reach_cached {objs : List RuleObj} {args : Sources} {st : LintState}
    (h : Reach objs args st) : ∀ c, st.cached = some c → ∃ cfg, CollOK objs cfg c := by
  induction h with
  | init => intro c h; cases h
  | @step st d st' t oc es hr hstep ih =>
    intro c hc
    cases oc with
    | none =>
      have := getTemplateRules_none hstep
      subst this
      exact ih c hc
    | some c1 =>
      obtain ⟨targs, cfg, _, _, rfl, _, _, _, hg⟩ := getTemplateRules_some hstep
      simp only [Option.some.injEq] at hc
      subst hc
      rcases hg with hg | ⟨c0, h0, hg⟩
      · exact ⟨cfg, getRules_ok hg⟩
      · obtain ⟨cfg0, hok⟩ := ih c0 h0
        exact ⟨cfg, reconfigure_ok hok hg⟩

/-- The collection used for a template. -/
theorem template_coll {objs : List RuleObj} {args : Sources} {st : LintState} {d : Decoded}
    {st' : LintState} {t : Val} {c : Coll} {es : List Match} (hr : Reach objs args st)
    (h : getTemplateRules objs args st d = .ok (st', t, some c, es)) :
    ∃ targs cfg, setTemplateArgs d.template = .ok targs ∧
      currentCfg { args with template := targs } = .ok cfg ∧ CollOK objs cfg c := by
  obtain ⟨targs, cfg, h1, h2, _, _, _, _, hg⟩ := getTemplateRules_some h
  refine ⟨targs, cfg, h1, h2, ?_⟩
  rcases hg with hg | ⟨c0, h0, hg⟩
  · exact getRules_ok hg
  · obtain ⟨cfg0, hok⟩ := reach_cached hr c0 h0
    exact reconfigure_ok hok hg

theorem currentCfg_fields {args : Sources} {cfg : Cfg} (h : currentCfg args = .ok cfg) :
    args.ignoreChecks.orEmpty = .ok cfg.ignore ∧ args.includeChecks = .ok cfg.incl ∧
    args.mandatoryChecks.orEmpty = .ok cfg.mandatory := by
  unfold currentCfg at h
  cases h1 : args.ignoreChecks.orEmpty with
  | error e => rw [h1] at h; cases h
  | ok a =>
    cases h2 : args.includeChecks with
    | error e => rw [h1, h2] at h; cases h
    | ok b =>
      cases h3 : args.mandatoryChecks.orEmpty with
      | error e => rw [h1, h2, h3] at h; cases h
      | ok c =>
        rw [h1, h2, h3] at h
        simp only [bind, Except.bind] at h
        cases h4 : asRuleConfig args.configureRules with
        | error e => rw [h4] at h; cases h
        | ok d =>
          rw [h4] at h
          simp only [Except.ok.injEq] at h
          subst h
          exact ⟨rfl, rfl, rfl⟩

/-! ### parse errors -/

/-- Template options that influence whether a parse error is ignored. -/
def quiet (targs : List (String × Val)) : Prop :=
  ∀ n ∈ ["ignore_bad_template", "ignore_checks", "include_checks"], dlookup n targs = none

theorem ignoreBadTemplate_quiet (args : Sources) (targs : List (String × Val)) (h : quiet targs) :
    ignoreBadTemplate { args with template := targs } = ignoreBadTemplate { args with template := [] } := by
  have h1 := h "ignore_bad_template" (by simp)
  have h2 := h "ignore_checks" (by simp)
  have h3 := h "include_checks" (by simp)
  unfold ignoreBadTemplate Sources.ignoreBadTemplate Sources.ignoreChecks Sources.includeChecks
    Sources.mandatoryChecks getArgumentValue getOpt
  simp only [h1, h2, h3, dlookup, Bool.and_false, Bool.false_eq_true, if_false]

end CfnLint
