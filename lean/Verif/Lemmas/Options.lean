import Verif.Lemmas.Collection
import Verif.Lemmas.Dict
/- Lemmas about rule options. -/
namespace CfnLint
open Spec

theorem dlookup_setDefaults (k : String) : ∀ (defs : List (String × CfgDef)) (c : List (String × Val)),
    (defs.map Prod.fst).Nodup →
    dlookup k (setDefaults defs c) =
      match dlookup k defs with
      | some d => some d.default
      | none => dlookup k c := by
  intro defs
  induction defs with
  | nil => intro c _; simp [setDefaults, dlookup]
  | cons x defs ih =>
    intro c hn
    obtain ⟨a, d⟩ := x
    simp only [List.map_cons, List.nodup_cons] at hn
    have e : setDefaults ((a, d) :: defs) c = setDefaults defs (dset a d.default c) := rfl
    rw [e, ih _ hn.2, dlookup_dset]
    simp only [dlookup]
    by_cases h : a = k
    · subst h
      simp [dlookup_none_iff.2 hn.1]
    · simp [h]

theorem convertOption_ok {d : CfgDef} {v : Val} {o : Option Val} (h : convertOption d v = .ok o) :
    o = if d.type = .other then none else optionMeaning d.type v := by
  unfold convertOption at h
  cases ht : d.type <;> simp only [ht] at h
  · injection h with h; subst h
    cases v <;> simp [optionMeaning, boolCompareTrue]
    rw [Bool.eq_iff_iff]; simp
  · injection h with h; subst h; simp [optionMeaning]
  · cases v with
    | str s =>
      simp only [pyInt] at h
      cases hs : pyIntStr s with
      | none => rw [hs] at h; simp [Except.map] at h
      | some i => rw [hs] at h; simp [Except.map] at h; subst h; simp [optionMeaning, hs]
    | int i => simp [pyInt, Except.map] at h; subst h; simp [optionMeaning]
    | bool b => simp [pyInt, Except.map] at h; subst h; cases b <;> simp [optionMeaning]
    | _ => simp [pyInt, Except.map] at h
  · injection h with h; subst h; simp

theorem optionMeaning_none {d : CfgDef} {v : Val} (h : convertOption d v = .ok none) :
    d.type = .other := by
  unfold convertOption at h
  cases ht : d.type <;> simp only [ht] at h
  · simp at h
  · simp at h
  · cases hp : pyInt v <;> rw [hp] at h <;> simp [Except.map] at h
  · rfl

theorem applyOptions_ok (defs : List (String × CfgDef)) (k : String) :
    ∀ (opts : List (Key × Val)) (c c' : List (String × Val)),
    (opts.map Prod.fst).Nodup → applyOptions defs opts c = .ok c' →
    dlookup k c' =
      match dlookup k defs, dlookup (Key.str k) opts with
      | some d, some v => if d.type = .other then dlookup k c else optionMeaning d.type v
      | _, _ => dlookup k c := by
  intro opts
  induction opts with
  | nil =>
    intro c c' _ h
    simp only [applyOptions, Except.ok.injEq] at h; subst h
    cases dlookup k defs <;> simp [dlookup]
  | cons x opts ih =>
    intro c c' hn h
    obtain ⟨a, v⟩ := x
    simp only [List.map_cons, List.nodup_cons] at hn
    cases a with
    | int i =>
      simp only [applyOptions] at h
      rw [ih c c' hn.2 h]
      simp [dlookup]
    | str a =>
      simp only [applyOptions] at h
      cases hd : dlookup a defs with
      | none =>
        rw [hd] at h; simp only at h
        rw [ih c c' hn.2 h]
        simp only [dlookup, Key.str.injEq]
        by_cases ha : a = k
        · subst ha; simp [hd]
        · simp [ha]
      | some d =>
        rw [hd] at h; simp only at h
        cases ho : convertOption d v with
        | error e => rw [ho] at h; simp at h
        | ok o =>
          rw [ho] at h
          have hm := convertOption_ok ho
          cases o with
          | none =>
            simp only at h
            have ht := optionMeaning_none ho
            rw [ih c c' hn.2 h]
            simp only [dlookup, Key.str.injEq]
            by_cases ha : a = k
            · subst ha; simp [hd, dlookup_none_iff.2 hn.1, ht]
            · simp [ha]
          | some v' =>
            simp only at h
            rw [ih _ c' hn.2 h]
            simp only [dlookup, Key.str.injEq, dlookup_dset]
            by_cases ha : a = k
            · subst ha
              simp only [hd, dlookup_none_iff.2 hn.1, if_true]
              split at hm
              · cases hm
              · next hne => simp [hne, hm]
            · simp [ha]

theorem configure_expected {r r' : RuleObj} {opts : List (Key × Val)}
    (hd : (r.defs.map Prod.fst).Nodup) (ho : (opts.map Prod.fst).Nodup)
    (h : r.configure (.dict opts) = .ok r') (k : String) (hk : k ∈ r.defs.map Prod.fst) :
    dlookup k r'.config = expectedOption r.defs opts k := by
  unfold RuleObj.configure at h
  simp only at h
  cases h2 : applyOptions r.defs opts (setDefaults r.defs r.config) with
  | error e => rw [h2] at h; simp [Except.map] at h
  | ok c =>
    rw [h2] at h; simp [Except.map] at h; subst h
    simp only
    rw [applyOptions_ok r.defs k opts _ _ ho h2, dlookup_setDefaults _ _ _ hd]
    unfold expectedOption
    cases h3 : dlookup k r.defs with
    | none => exact absurd hk (dlookup_none_iff.1 h3)
    | some d => cases dlookup (Key.str k) opts <;> simp

/-- Object `i` has the expected options. -/
def HasOptions (objs : List RuleObj) (i : Nat) (opts : List (Key × Val)) : Prop :=
  ∀ r, objs[i]? = some r → ∀ k ∈ r.defs.map Prod.fst, dlookup k r.config = expectedOption r.defs opts k

theorem register'_objs {c c' : Coll} {i : Nat} (h : c.register' i = .ok c') :
    c'.objs = c.objs ∨ ∃ r r' o, c.objs[i]? = some r ∧ dlookup r.info.id c.cfg.configureRules = some o ∧
      r.configure o = .ok r' ∧ c'.objs = c.objs.set i r' := by
  unfold Coll.register' at h
  cases h1 : c.objs[i]? with
  | none => rw [h1] at h; simp at h
  | some r =>
    rw [h1] at h
    simp only at h
    cases h2 : isRuleEnabled c.cfg r.info with
    | error e => rw [h2] at h; simp at h
    | ok b =>
      rw [h2] at h
      cases b with
      | false => simp only [Except.ok.injEq] at h; subst h; exact .inl rfl
      | true =>
        simp only at h
        cases h3 : dlookup r.info.id c.cfg.configureRules with
        | none => rw [h3] at h; simp only [Except.ok.injEq] at h; subst h; exact .inl rfl
        | some o =>
          rw [h3] at h
          simp only at h
          cases h4 : r.configure o with
          | error e => rw [h4] at h; simp at h
          | ok r' =>
            rw [h4] at h
            simp only [Except.ok.injEq] at h; subst h
            exact .inr ⟨r, r', o, rfl, h3, h4, rfl⟩

theorem set_defs {objs : List RuleObj} {i : Nat} {r r' : RuleObj} (h : objs[i]? = some r)
    (h' : r'.defs = r.defs) : (objs.set i r').map RuleObj.defs = objs.map RuleObj.defs := by
  apply List.ext_getElem?
  intro n
  rw [List.getElem?_map, List.getElem?_map, List.getElem?_set]
  by_cases hn : i = n
  · subst hn
    have hlt : i < objs.length := by
      rcases Nat.lt_or_ge i objs.length with hl | hl
      · exact hl
      · rw [List.getElem?_eq_none hl] at h; cases h
    have hr : objs[i] = r := by simpa [List.getElem?_eq_getElem hlt] using h
    simp [hlt, hr, h']
  · simp [hn]

theorem register'_defs {c c' : Coll} {i : Nat} (h : c.register' i = .ok c') :
    c'.objs.map RuleObj.defs = c.objs.map RuleObj.defs := by
  rcases register'_objs h with h | ⟨r, r', o, h1, _, h3, h4⟩
  · rw [h]
  · rw [h4]; exact set_defs h1 (configure_info h3).2

/-- Well-formed rule definitions and option dictionaries for object `i`. -/
def OptWF (c : Coll) (i : Nat) (r : RuleObj) (opts : List (Key × Val)) : Prop :=
  (∃ r', c.objs[i]? = some r' ∧ r'.info = r.info ∧ r'.defs = r.defs) ∧
  (r.defs.map Prod.fst).Nodup ∧ (opts.map Prod.fst).Nodup ∧
  dlookup r.info.id c.cfg.configureRules = some (.dict opts)

theorem optWF_step {c c' : Coll} {i j : Nat} {r : RuleObj} {opts : List (Key × Val)}
    (hw : OptWF c i r opts) (h : c.register' j = .ok c') : OptWF c' i r opts := by
  obtain ⟨⟨r1, h1, h2, h3⟩, h4, h5, h6⟩ := hw
  obtain ⟨_, a2, a3, _⟩ := register'_ok h
  have d := register'_defs h
  refine ⟨?_, h4, h5, by rw [a2]; exact h6⟩
  have b1 : (c'.objs.map RuleObj.info)[i]? = some r.info := by
    rw [a3, List.getElem?_map, h1]; simp [h2]
  have b2 : (c'.objs.map RuleObj.defs)[i]? = some r.defs := by
    rw [d, List.getElem?_map, h1]; simp [h3]
  rw [List.getElem?_map] at b1 b2
  cases hc : c'.objs[i]? with
  | none => rw [hc] at b1; simp at b1
  | some r2 => rw [hc] at b1 b2; simp at b1 b2; exact ⟨r2, rfl, b1, b2⟩

theorem hasOptions_step {c c' : Coll} {i j : Nat} {r : RuleObj} {opts : List (Key × Val)}
    (hw : OptWF c i r opts) (h : c.register' j = .ok c')
    (hp : HasOptions c.objs i opts ∨ (j = i ∧ enabledB c.cfg c.objs i = true)) :
    HasOptions c'.objs i opts := by
  obtain ⟨⟨r1, h1, h2, h3⟩, h4, h5, h6⟩ := hw
  have hlt : i < c.objs.length := by
    rcases Nat.lt_or_ge i c.objs.length with hl | hl
    · exact hl
    · rw [List.getElem?_eq_none hl] at h1; cases h1
  have main : ∀ r', r1.configure (.dict opts) = .ok r' → c'.objs = c.objs.set i r' →
      HasOptions c'.objs i opts := by
    intro r' g3 g4
    rw [g4]
    intro r2 hr2 k hk
    rw [List.getElem?_set] at hr2
    simp only [if_true, hlt] at hr2
    injection hr2 with hr2; subst hr2
    have hd := (configure_info g3).2
    rw [hd] at hk ⊢
    exact configure_expected (by rw [h3]; exact h4) h5 g3 k hk
  rcases hp with hp | ⟨rfl, hen⟩
  · rcases register'_objs h with he | ⟨r0, r', o, g1, g2, g3, g4⟩
    · rw [he]; exact hp
    · by_cases hij : j = i
      · subst hij
        rw [h1] at g1; injection g1 with g1; subst g1
        rw [h2, h6] at g2; injection g2 with g2; subst g2
        exact main r' g3 g4
      · rw [g4]
        intro r2 hr2
        rw [List.getElem?_set] at hr2
        simp only [hij, if_false] at hr2
        exact hp r2 hr2
  · unfold Coll.register' at h
    rw [h1] at h
    simp only at h
    unfold enabledB at hen
    rw [h1] at hen
    simp only [decide_eq_true_eq] at hen
    rw [hen, h2, h6] at h
    simp only at h
    cases h7 : r1.configure (.dict opts) with
    | error e => rw [h7] at h; simp at h
    | ok r' =>
      rw [h7] at h
      simp only [Except.ok.injEq] at h
      exact main r' h7 (by rw [← h])

theorem optWF_all : ∀ {is : List Nat} {c c' : Coll} {i : Nat} {r : RuleObj}
    {opts : List (Key × Val)}, OptWF c i r opts → c.registerAll is = .ok c' → OptWF c' i r opts := by
  intro is
  induction is with
  | nil =>
    intro c c' i r opts hw h
    simp only [Coll.registerAll, Except.ok.injEq] at h; subst h
    exact hw
  | cons j is ih =>
    intro c c' i r opts hw h
    unfold Coll.registerAll at h
    cases h1 : c.register' j with
    | error e => rw [h1] at h; simp at h
    | ok c1 => rw [h1] at h; exact ih (optWF_step hw h1) h

theorem unmentioned_all : ∀ {is : List Nat} {c c' : Coll} {i : Nat} {r : RuleObj},
    c.objs[i]? = some r → dlookup r.info.id c.cfg.configureRules = none →
    c.registerAll is = .ok c' → c'.objs[i]? = some r := by
  intro is
  induction is with
  | nil =>
    intro c c' i r hr _ h
    simp only [Coll.registerAll, Except.ok.injEq] at h; subst h
    exact hr
  | cons j is ih =>
    intro c c' i r hr hn h
    unfold Coll.registerAll at h
    cases h1 : c.register' j with
    | error e => rw [h1] at h; simp at h
    | ok c1 =>
      rw [h1] at h
      refine ih ?_ (by rw [(register'_ok h1).2.1]; exact hn) h
      rcases register'_objs h1 with h | ⟨r0, r', o, g1, g2, _, g4⟩
      · rw [h]; exact hr
      · rw [g4, List.getElem?_set]
        by_cases e : j = i
        · subst e; rw [hr] at g1; injection g1 with g1; subst g1; rw [hn] at g2; cases g2
        · simp [e, hr]

theorem hasOptions_all : ∀ {is : List Nat} {c c' : Coll} {i : Nat} {r : RuleObj}
    {opts : List (Key × Val)}, OptWF c i r opts → c.registerAll is = .ok c' →
    (HasOptions c.objs i opts ∨ (i ∈ is ∧ enabledB c.cfg c.objs i = true)) →
    HasOptions c'.objs i opts := by
  intro is
  induction is with
  | nil =>
    intro c c' i r opts _ h hp
    simp only [Coll.registerAll, Except.ok.injEq] at h; subst h
    rcases hp with hp | ⟨h, _⟩
    · exact hp
    · cases h
  | cons j is ih =>
    intro c c' i r opts hw h hp
    unfold Coll.registerAll at h
    cases h1 : c.register' j with
    | error e => rw [h1] at h; simp at h
    | ok c1 =>
      rw [h1] at h
      simp only at h
      refine ih (optWF_step hw h1) h ?_
      obtain ⟨_, a2, a3, _⟩ := register'_ok h1
      rcases hp with hp | ⟨hm, hen⟩
      · exact .inl (hasOptions_step hw h1 (.inl hp))
      · by_cases e : j = i
        · exact .inl (hasOptions_step hw h1 (.inr ⟨e, hen⟩))
        · refine .inr ⟨?_, ?_⟩
          · cases hm with
            | head => exact absurd rfl e
            | tail _ hm => exact hm
          · rw [a2, enabledB_congr _ a3]; exact hen

end CfnLint
