import Verif.Model.Main
import Verif.Spec.Main
import Verif.Lemmas.Core
import Mathlib.Data.List.Forall2
namespace CfnLint
open Spec

theorem orEmpty_list (l : List Val) : (Val.list l).orEmpty = .ok l := by
  cases l <;> simp [Val.orEmpty, Val.truthy, Val.asList]

theorem asRuleConfig_says (l : List (String × Val)) :
    asRuleConfig (.dict (l.map (fun kv => (Key.str kv.1, kv.2)))) = .ok l := by
  simp only [asRuleConfig, List.filterMap_map, Function.comp_def, Except.ok.injEq]
  induction l with
  | nil => rfl
  | cons a l ih => simp [ih]

/-- the configuration of the listing, as a specification -/
def listConf (c : Conf) : Conf :=
  { c with mandatory := [], includeExperimental := !c.mandatory.isEmpty,
           incl := ["W", "E"] ++ c.incl }

/-- the configuration of a run, as a specification -/
def runConf (c : Conf) : Conf := { c with incl := ["W", "E"] ++ c.incl }

theorem listingCfg_says {args : Sources} {c : Conf} (h : Says args c) :
    listingCfg args = .ok (listConf c).toCfg := by
  unfold listingCfg
  rw [h.ignore, h.incl, h.options, orEmpty_list, asRuleConfig_says, h.mandatory]
  simp [bind, Except.bind, listConf, Conf.toCfg, Val.truthy]

theorem currentCfg_says {args : Sources} {c : Conf} (h : Says args c) :
    currentCfg { args with template := [] } = .ok (runConf c).toCfg := by
  have : ({ args with template := [] } : Sources) = args := by
    have := h.noTemplate
    cases args; simp_all
  rw [this]
  unfold currentCfg
  rw [h.ignore, h.incl, h.options, orEmpty_list, asRuleConfig_says, h.mandatory, orEmpty_list,
    h.experimental]
  simp [bind, Except.bind, runConf, Conf.toCfg, Val.truthy]

/-- The active rules of a fresh collection. -/
theorem getRules_infos {objs : List RuleObj} {s : Conf} {c : Coll} (P : RuleInfo → Bool)
    (hP : ∀ r, P r = true ↔ Enabled r.id r.experimental s.includeExperimental s.ignore
      (s.incl ++ ["W", "E"]) s.mandatory)
    (h : CollOK objs s.toCfg c) :
    c.infos = (objs.map RuleObj.info).filter P := by
  unfold Coll.infos
  rw [h.inv, h.all]
  have hi : ∀ i : Nat, c.objs[i]?.map RuleObj.info = (objs.map RuleObj.info)[i]? := by
    intro i; rw [← List.getElem?_map, h.infos]
  have he : ∀ i : Nat, enabledB c.cfg c.objs i = true ↔ ∃ r, (objs.map RuleObj.info)[i]? = some r ∧ P r = true := by
    intro i
    have hc : c.cfg = storedCfg s := h.cfg
    rw [hc, enabledB_congr _ h.infos, enabledB_stored]
    unfold EnabledAt
    simp only [List.getElem?_map, Option.map_eq_some_iff, hP]
    constructor
    · rintro ⟨r, a, b⟩; exact ⟨_, ⟨r, a, rfl⟩, b⟩
    · rintro ⟨_, ⟨r, a, rfl⟩, b⟩; exact ⟨r, a, b⟩
  simp only [hi]
  rw [List.filterMap_filter]
  have hlen : objs.length = (objs.map RuleObj.info).length := by simp
  rw [hlen]
  generalize objs.map RuleObj.info = l at he
  have key : ∀ i : Nat, (if enabledB c.cfg c.objs i = true then l[i]? else none) = l[i]?.filter P := by
    intro i
    by_cases hb : enabledB c.cfg c.objs i = true
    · obtain ⟨r, hr, hp⟩ := (he i).1 hb
      simp [hb, hr, hp, Option.filter]
    · rw [if_neg hb]
      cases hl : l[i]? with
      | none => rfl
      | some r =>
        cases hp : P r with
        | false => simp [hp, Option.filter]
        | true => exact absurd ((he i).2 ⟨r, hl, hp⟩) hb
  simp only [key]
  clear key he hi hlen
  induction l with
  | nil => rfl
  | cons a l ih =>
    rw [List.length_cons, List.range_succ_eq_map, List.filterMap_cons, List.filterMap_map]
    simp only [List.getElem?_cons_zero, Function.comp_def, List.getElem?_cons_succ, ih]
    cases hp : P a <;> simp [hp, Option.filter]

/-- The collection that runs on a first template without configuration in its Metadata. -/
theorem first_coll {objs : List RuleObj} {args : Sources} {c : Conf} (hs : Says args c) {t t' : Val}
    {st : LintState} {coll : Coll} {es : List Match} (ht : setTemplateArgs t = .ok [])
    (h : getTemplateRules objs args {} ⟨t, []⟩ = .ok (st, t', some coll, es)) :
    CollOK objs (runConf c).toCfg coll := by
  obtain ⟨targs, cfg, h1, h2, h3⟩ := template_coll Reach.init h
  rw [ht] at h1
  cases h1
  rw [currentCfg_says hs] at h2
  cases h2
  exact h3

theorem getTemplateRules_bad {objs : List RuleObj} {args : Sources} {st : LintState} {d : Decoded}
    {st' : LintState} {t : Val} {es : List Match}
    (h : getTemplateRules objs args st d = .ok (st', t, none, es)) :
    d.errors ≠ [] ∧ (es = d.errors ∨ (es = [] ∧ ∃ e, d.errors = [e] ∧ e.rule.id = "E0000" ∧
      ignoreBadTemplate (sourcesWith args st) = .ok true)) := by
  unfold getTemplateRules at h
  cases h1 : ignoreBadTemplate (sourcesWith args st) with
  | error e => rw [h1] at h; cases h
  | ok ib =>
    rw [h1] at h
    simp only at h
    cases h2 : d.errors with
    | cons e es =>
      rw [h2] at h
      simp only at h
      refine ⟨by simp, ?_⟩
      split at h
      · rename_i hc
        simp only [Bool.and_eq_true, List.isEmpty_iff, beq_iff_eq] at hc
        simp only [Except.ok.injEq, Prod.mk.injEq, true_and] at h
        obtain ⟨⟨rfl, rfl⟩, hid⟩ := hc
        exact .inr ⟨h.2.2.symm, e, rfl, hid, rfl⟩
      · simp only [Except.ok.injEq, Prod.mk.injEq, true_and] at h
        exact .inl h.2.2.symm
    | nil =>
      rw [h2] at h
      simp only at h
      cases h3 : setTemplateArgs d.template with
      | error e => rw [h3] at h; cases h
      | ok targs =>
        rw [h3] at h
        simp only at h
        cases h4 : currentCfg { args with template := targs } with
        | error e => rw [h4] at h; cases h
        | ok cfg =>
          rw [h4] at h
          simp only at h
          split at h
          · cases h
          · simp at h

/-- What each template contributes to the findings. -/
theorem lintAll_forall {objs : List RuleObj} {args : Sources}
    {check : Val → Option Coll → RunM (List Match)} (I : List (String × Val) → Prop) :
    ∀ {ds : List Decoded} {st : LintState} {outs : List (List Match)}, I st.templateArgs →
      (∀ d ∈ ds, ∀ a, setTemplateArgs d.template = .ok a → I a) →
      lintAll objs args check st ds = .ok outs →
      List.Forall₂ (fun d out =>
        (d.errors = [] → d.template.truthy = true → ∃ c, check d.template (some c) = .ok out) ∧
        (d.errors = [] → d.template.truthy = false → out = []) ∧
        (d.errors ≠ [] → out = d.errors ∨
          ((∃ e, d.errors = [e] ∧ e.rule.id = "E0000") ∧ ∃ s, I s ∧ ignoreBadTemplate { args with template := s } = .ok true)))
        ds outs
  | [], st, outs, _, _, h => by
    simp only [lintAll, Except.ok.injEq] at h
    subst h; exact .nil
  | d :: ds, st, outs, hst, hds, h => by
    rw [lintAll] at h
    cases hg : getTemplateRules objs args st d with
    | error e => rw [hg] at h; cases h
    | ok r =>
      obtain ⟨st', t, coll, errors⟩ := r
      rw [hg] at h
      dsimp only at h
      have key : ∀ ms, (match errors with
        | [] => if t.truthy then check t coll else .ok []
        | es => .ok es : RunM (List Match)) = .ok ms →
        (d.errors = [] → d.template.truthy = true → ∃ c, check d.template (some c) = .ok ms) ∧
        (d.errors = [] → d.template.truthy = false → ms = []) ∧
        (d.errors ≠ [] → ms = d.errors ∨ ((∃ e, d.errors = [e] ∧ e.rule.id = "E0000") ∧
          ∃ s, I s ∧ ignoreBadTemplate { args with template := s } = .ok true)) := by
        intro ms hm
        cases coll with
        | none =>
          obtain ⟨h1, h2⟩ := getTemplateRules_bad hg
          refine ⟨fun he => absurd he h1, fun he => absurd he h1, fun _ => ?_⟩
          rcases h2 with rfl | ⟨rfl, e, he, hid, hib⟩
          · cases hd : d.errors with
            | nil => exact absurd hd h1
            | cons a as =>
              rw [hd] at hm
              simp only [Except.ok.injEq] at hm
              exact .inl hm.symm
          · exact .inr ⟨⟨e, he, hid⟩, _, hst, hib⟩
        | some c =>
          obtain ⟨targs, cfg, g1, g2, g3, g4, g5, g6, _⟩ := getTemplateRules_some hg
          subst g4 g5
          dsimp only at hm
          refine ⟨fun _ ht => ?_, fun _ ht => ?_, fun he => absurd g6 he⟩
          · rw [if_pos ht] at hm; exact ⟨c, hm⟩
          · rw [if_neg (by simp [ht])] at hm
            simp only [Except.ok.injEq] at hm
            exact hm.symm
      have hst' : I st'.templateArgs := by
        cases coll with
        | none => rw [getTemplateRules_none hg]; exact hst
        | some c =>
          obtain ⟨targs, cfg, g1, g2, g3, _⟩ := getTemplateRules_some hg
          rw [g3]
          exact hds d List.mem_cons_self targs g1
      split at h
      · cases h
      · rename_i ms hm
        split at h
        · cases h
        · rename_i rest hr
          simp only [Except.ok.injEq] at h
          subst h
          exact .cons (key ms hm) (lintAll_forall I hst' (fun d' h' => hds d' (List.mem_cons_of_mem _ h')) hr)

/-- The loop ends with an exit code only when a check does. -/
theorem lintAll_exit {objs : List RuleObj} {args : Sources} {n : Nat}
    {check : Val → Option Coll → RunM (List Match)} (hc : ∀ t c, check t c ≠ .error (.exit n)) :
    ∀ {ds : List Decoded} {st : LintState}, lintAll objs args check st ds ≠ .error (.exit n)
  | [], st => by simp [lintAll]
  | d :: ds, st => by
    rw [lintAll]
    split
    · simp
    · rename_i st' t coll errors _
      dsimp only
      split
      · rename_i e he
        intro h
        simp only [Except.error.injEq] at h
        subst h
        split at he
        · split at he
          · exact hc _ _ he
          · cases he
        · cases he
      · split
        · rename_i e he
          intro h
          simp only [Except.error.injEq] at h
          subst h
          exact lintAll_exit hc he
        · simp

end CfnLint
