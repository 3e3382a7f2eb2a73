import Verif.Lemmas.Rules
import Verif.Spec.Collection
namespace CfnLint
open Spec

/-- Enablement of heap object `i`, as a Boolean. -/
def enabledB (cfg : Cfg) (objs : List RuleObj) (i : Nat) : Bool :=
  match objs[i]? with
  | some r => decide (isRuleEnabled cfg r.info = .ok true)
  | none => false

theorem enabledB_congr (cfg : Cfg) {o1 o2 : List RuleObj}
    (h : o1.map RuleObj.info = o2.map RuleObj.info) (i : Nat) :
    enabledB cfg o1 i = enabledB cfg o2 i := by
  have h' : (o1.map RuleObj.info)[i]? = (o2.map RuleObj.info)[i]? := by rw [h]
  rw [List.getElem?_map, List.getElem?_map] at h'
  unfold enabledB
  cases h1 : o1[i]? <;> cases h2 : o2[i]? <;> simp_all

theorem configure_info {r r' : RuleObj} {o : Val} (h : r.configure o = .ok r') :
    r'.info = r.info ∧ r'.defs = r.defs := by
  unfold RuleObj.configure at h
  cases o <;> simp only at h
  case dict kvs =>
    cases h2 : applyOptions r.defs kvs (setDefaults r.defs r.config) with
    | error e => rw [h2] at h; simp [Except.map] at h
    | ok c => rw [h2] at h; simp [Except.map] at h; subst h; exact ⟨rfl, rfl⟩
  all_goals (injection h with h; subst h; exact ⟨rfl, rfl⟩)

theorem set_info {objs : List RuleObj} {i : Nat} {r r' : RuleObj} (h : objs[i]? = some r)
    (h' : r'.info = r.info) : (objs.set i r').map RuleObj.info = objs.map RuleObj.info := by
  apply List.ext_getElem?
  intro n
  rw [List.getElem?_map, List.getElem?_map, List.getElem?_set]
  by_cases hn : i = n
  · subst hn
    have hlt : i < objs.length := by
      rcases Nat.lt_or_ge i objs.length with hl | hl
      · exact hl
      · rw [List.getElem?_eq_none hl] at h; cases h
    have hr : objs[i] = r := by simpa [List.getElem?_eq_getElem hlt] using h
    simp [hlt, hr, h']
  · simp [hn]

/-- One `__register` step. -/
theorem register'_ok {c c' : Coll} {i : Nat} (h : c.register' i = .ok c') :
    c'.all = c.all ∧ c'.cfg = c.cfg ∧ c'.objs.map RuleObj.info = c.objs.map RuleObj.info ∧
    c'.rules = c.rules ++ [i].filter (enabledB c.cfg c.objs) := by
  unfold Coll.register' at h
  cases h1 : c.objs[i]? with
  | none => rw [h1] at h; simp at h
  | some r =>
    rw [h1] at h
    simp only at h
    cases h2 : isRuleEnabled c.cfg r.info with
    | error e => rw [h2] at h; simp at h
    | ok b =>
      rw [h2] at h
      cases b with
      | false =>
        simp only [Except.ok.injEq] at h; subst h
        refine ⟨rfl, rfl, rfl, ?_⟩
        simp [enabledB, h1, h2]
      | true =>
        simp only at h
        have he : enabledB c.cfg c.objs i = true := by simp [enabledB, h1, h2]
        cases h3 : dlookup r.info.id c.cfg.configureRules with
        | none =>
          rw [h3] at h
          simp only [Except.ok.injEq] at h; subst h
          refine ⟨rfl, rfl, rfl, ?_⟩
          simp [he]
        | some o =>
          rw [h3] at h
          simp only at h
          cases h4 : r.configure o with
          | error e => rw [h4] at h; simp at h
          | ok r' =>
            rw [h4] at h
            simp only [Except.ok.injEq] at h; subst h
            refine ⟨rfl, rfl, ?_, ?_⟩
            · exact set_info h1 (configure_info h4).1
            · simp [he]

theorem registerAll_ok : ∀ {is : List Nat} {c c' : Coll}, c.registerAll is = .ok c' →
    c'.all = c.all ∧ c'.cfg = c.cfg ∧ c'.objs.map RuleObj.info = c.objs.map RuleObj.info ∧
    c'.rules = c.rules ++ is.filter (enabledB c.cfg c.objs) := by
  intro is
  induction is with
  | nil =>
    intro c c' h
    simp only [Coll.registerAll, Except.ok.injEq] at h; subst h
    simp
  | cons i is ih =>
    intro c c' h
    unfold Coll.registerAll at h
    cases h1 : c.register' i with
    | error e => rw [h1] at h; simp at h
    | ok c1 =>
      rw [h1] at h
      simp only at h
      obtain ⟨a1, a2, a3, a4⟩ := register'_ok h1
      obtain ⟨b1, b2, b3, b4⟩ := ih h
      refine ⟨b1.trans a1, b2.trans a2, b3.trans a3, ?_⟩
      rw [b4, a4, a2]
      have : is.filter (enabledB c.cfg c1.objs) = is.filter (enabledB c.cfg c.objs) := by
        congr 1; funext j; exact enabledB_congr _ a3 j
      rw [this, List.append_assoc, ← List.filter_append]
      rfl

/-- The collection invariant: the active rules are the enabled registered ones. -/
def CollInv (c : Coll) : Prop := c.rules = c.all.filter (enabledB c.cfg c.objs)

theorem register_ok {c c' : Coll} {i : Nat} (hI : CollInv c) (h : c.register i = .ok c') :
    c'.all = c.all ++ [i] ∧ c'.cfg = c.cfg ∧ c'.objs.map RuleObj.info = c.objs.map RuleObj.info ∧
    CollInv c' := by
  unfold Coll.register at h
  obtain ⟨a1, a2, a3, a4⟩ := register'_ok h
  simp only at a1 a2 a3 a4
  refine ⟨a1, a2, a3, ?_⟩
  unfold CollInv at hI ⊢
  rw [a4, a1, a2, hI, ← List.filter_append]
  congr 1; funext j; exact (enabledB_congr _ a3 j).symm

theorem extend_ok : ∀ {is : List Nat} {c c' : Coll}, CollInv c → c.extend is = .ok c' →
    c'.all = c.all ++ is ∧ c'.cfg = c.cfg ∧ c'.objs.map RuleObj.info = c.objs.map RuleObj.info ∧
    CollInv c' := by
  intro is
  induction is with
  | nil =>
    intro c c' hI h
    simp only [Coll.extend, Except.ok.injEq] at h; subst h
    simp [hI]
  | cons i is ih =>
    intro c c' hI h
    unfold Coll.extend at h
    cases h1 : c.register i with
    | error e => rw [h1] at h; simp at h
    | ok c1 =>
      rw [h1] at h
      simp only at h
      obtain ⟨a1, a2, a3, a4⟩ := register_ok hI h1
      obtain ⟨b1, b2, b3, b4⟩ := ih a4 h
      refine ⟨?_, b2.trans a2, b3.trans a3, b4⟩
      rw [b1, a1, List.append_assoc]; rfl

theorem configure_ok {c c' : Coll} {cfg : Cfg} (h : c.configure cfg = .ok c') :
    c'.all = c.all ∧ c'.cfg = { cfg with incl := addDefaults cfg.incl } ∧
    c'.objs.map RuleObj.info = c.objs.map RuleObj.info ∧ CollInv c' := by
  unfold Coll.configure at h
  obtain ⟨a1, a2, a3, a4⟩ := registerAll_ok h
  simp only at a1 a2 a3 a4
  refine ⟨a1, a2, a3, ?_⟩
  unfold CollInv
  rw [a4, a1, a2, List.nil_append]
  congr 1; funext j; exact (enabledB_congr _ a3 j).symm

/-- `Cfg` stored after configuring with a specification configuration. -/
def storedCfg (s : Conf) : Cfg := { s.toCfg with incl := addDefaults s.toCfg.incl }

theorem runOps_ok : ∀ {ops : List Op} {c c' : Coll} {s : Conf},
    CollInv c → c.cfg = storedCfg s → c.runOps (ops.map Op.toOp) = .ok c' →
    c'.all = c.all ++ registered ops ∧ c'.cfg = storedCfg (lastConf s ops) ∧
    c'.objs.map RuleObj.info = c.objs.map RuleObj.info ∧ CollInv c' := by
  intro ops
  induction ops with
  | nil =>
    intro c c' s hI hc h
    simp only [List.map_nil, Coll.runOps, Except.ok.injEq] at h; subst h
    simp [registered, lastConf, hI, hc]
  | cons op ops ih =>
    intro c c' s hI hc h
    simp only [List.map_cons, Coll.runOps] at h
    cases h1 : c.step op.toOp with
    | error e => rw [h1] at h; simp at h
    | ok c1 =>
      rw [h1] at h
      simp only at h
      cases op with
      | register i =>
        obtain ⟨a1, a2, a3, a4⟩ := register_ok hI h1
        obtain ⟨b1, b2, b3, b4⟩ := ih a4 (a2.trans hc) h
        exact ⟨by rw [b1, a1]; simp [registered], b2, b3.trans a3, b4⟩
      | extend is =>
        obtain ⟨a1, a2, a3, a4⟩ := extend_ok hI h1
        obtain ⟨b1, b2, b3, b4⟩ := ih a4 (a2.trans hc) h
        exact ⟨by rw [b1, a1]; simp [registered], b2, b3.trans a3, b4⟩
      | configure cf =>
        obtain ⟨a1, a2, a3, a4⟩ := configure_ok h1
        obtain ⟨b1, b2, b3, b4⟩ := ih (s := cf) a4 a2 h
        exact ⟨by rw [b1, a1]; simp [registered], b2, b3.trans a3, b4⟩

theorem mem_addDefaults (l : List String) (x : Val) :
    x ∈ addDefaults (l.map .str) ↔ x ∈ (l ++ ["W", "E"]).map Val.str := by
  unfold addDefaults
  simp only [List.foldl_cons, List.foldl_nil, List.map_append, List.map_cons, List.map_nil]
  split <;> split <;> simp_all <;> grind

theorem addDefaults_strs (l : List String) : ∃ l' : List String, addDefaults (l.map .str) = l'.map .str ∧
    ∀ x, x ∈ l' ↔ x ∈ l ++ ["W", "E"] := by
  have hx : ∀ (a : List Val), (∀ v ∈ a, ∃ s, v = Val.str s) → ∃ l' : List String, a = l'.map Val.str := by
    intro a
    induction a with
    | nil => intro _; exact ⟨[], rfl⟩
    | cons v a ih =>
      intro h
      obtain ⟨s, rfl⟩ := h v List.mem_cons_self
      obtain ⟨l', rfl⟩ := ih (fun w hw => h w (List.mem_cons_of_mem _ hw))
      exact ⟨s :: l', rfl⟩
  obtain ⟨l', hl'⟩ := hx (addDefaults (l.map .str)) (by
    intro v hv
    rw [mem_addDefaults, List.mem_map] at hv
    obtain ⟨s, _, rfl⟩ := hv
    exact ⟨s, rfl⟩)
  refine ⟨l', hl', ?_⟩
  intro x
  have := mem_addDefaults l (.str x)
  rw [hl'] at this
  simpa [List.mem_map] using this

/-- Under a specification configuration, stored enablement is the specified one. -/
theorem enabledB_stored (s : Conf) (objs : List RuleObj) (i : Nat) :
    enabledB (storedCfg s) objs i = true ↔ EnabledAt objs s i := by
  unfold enabledB EnabledAt
  cases h : objs[i]? with
  | none => simp
  | some r =>
    simp only [Option.some.injEq, decide_eq_true_eq]
    obtain ⟨l', h1, h2⟩ := addDefaults_strs s.incl
    have : isRuleEnabled (storedCfg s) r.info =
        isEnabled r.info s.includeExperimental (s.ignore.map .str) (l'.map .str)
          (s.mandatory.map .str) := by
      unfold isRuleEnabled storedCfg Spec.Conf.toCfg
      simp only [h1]
    rw [this, isEnabled_str_iff]
    constructor
    · intro he
      refine ⟨r, rfl, he.1, ?_, he.2.2⟩
      obtain ⟨p, hp, hp'⟩ := he.2.1
      exact ⟨p, (h2 p).1 hp, hp'⟩
    · rintro ⟨r', rfl, he⟩
      refine ⟨he.1, ?_, he.2.2⟩
      obtain ⟨p, hp, hp'⟩ := he.2.1
      exact ⟨p, (h2 p).2 hp, hp'⟩

theorem enabledAt_congr {o1 o2 : List RuleObj} (h : o1.map RuleObj.info = o2.map RuleObj.info)
    (s : Conf) (i : Nat) : EnabledAt o1 s i ↔ EnabledAt o2 s i := by
  rw [← enabledB_stored, ← enabledB_stored, enabledB_congr _ h]

end CfnLint
